import Verif.UvwSplit.Model

/-!
# Linked stations

None of this is in the code.
-/

namespace DP3.UvwSplit

/-- Two stations are linked by baselines if there is a path along them. -/
inductive Linked (baselines : List (Nat × Nat)) (used : List Nat) : Nat → Nat → Prop
  | refl (a : Nat) : Linked baselines used a a
  | step {a b c : Nat} (i : Nat) (hi : i ∈ used) (h : baselines[i]? = some (b, c)) (hl : Linked baselines used a b) : Linked baselines used a c
  | back {a b c : Nat} (i : Nat) (hi : i ∈ used) (h : baselines[i]? = some (c, b)) (hl : Linked baselines used a b) : Linked baselines used a c

/-- The baseline of an index with a sign. -/
def baselineOf (index : Int) : Nat := if index < 0 then (-index - 1).toNat else index.toNat

/-- The baselines are between antennas. -/
def Valid (nant : Nat) (baselines : List (Nat × Nat)) : Prop := ∀ a ∈ baselines, a.1 < nant ∧ a.2 < nant

/-- The coordinates of the baselines belong to positions. -/
def Consistent {V : Type} [AddCommGroup V] (baselines : List (Nat × Nat)) (uvwBl : Nat → V) (position : Nat → V) : Prop :=
  ∀ i a b, baselines[i]? = some (a, b) → uvwBl i = position b - position a

end DP3.UvwSplit
