import Verif.Interpolate.Model
import Mathlib.Algebra.BigOperators.Group.List.Basic

/-! What the Interpolate step must produce, as a function of the whole stream. -/

namespace DP3.Interpolate

variable {F V : Type} [Field F] [AddCommGroup V] [Module F V]

/-- Two positions are at most `h` apart. -/
def within (h a b : Nat) : Prop := a ≤ b + h ∧ b ≤ a + h

instance (h a b : Nat) : Decidable (within h a b) := by unfold within; infer_instance

/-- Squared distance between two (time, channel) positions. -/
def sqDist (t ch t' ch' : Nat) : Nat :=
  ((t : Int) - (t' : Int)).natAbs ^ 2 + ((ch : Int) - (ch' : Int)).natAbs ^ 2

/-- The unflagged samples of baseline `bl` and polarisation `p` in the whole stream
whose time slot and channel are within `h` of `(g, ch)`, with their weight. -/
def neighbours (h : Nat) (gauss : Nat → F) (nChannels : Nat) (stream : List (Buffer V))
    (g bl ch p : Nat) : List (F × Option V) :=
  (List.range stream.length).flatMap fun t =>
    (List.range nChannels).flatMap fun c =>
      match stream[t]? with
      | none => []
      | some b =>
        if within h g t ∧ within h ch c ∧ b.flag bl c p = false then
          [(gauss (sqDist g ch t c), b.data bl c p)]
        else []

/-- Weighted mean of finite values. -/
def weightedMean (l : List (F × V)) : V :=
  ((l.map fun q => q.1).sum)⁻¹ • ((l.map fun q => q.1 • q.2).sum)

/-- `r` is the right output value and flag for a flagged input sample with the given
neighbours: their weighted mean when they are all finite and their total weight is
not zero, and a flagged zero otherwise. -/
def FlaggedResult (ns : List (F × Option V)) (value : Option V) (flag : Bool) : Prop :=
  (∃ l : List (F × V), ns = l.map (fun q => (q.1, some q.2)) ∧ (l.map fun q => q.1).sum ≠ 0 ∧
      value = some (weightedMean l) ∧ flag = false) ∨
  (((∃ q ∈ ns, q.2 = none) ∨ (ns.map fun q => q.1).sum = 0) ∧ value = some 0 ∧ flag = true)

end DP3.Interpolate
