import Verif.DynSpec.Model

/-!
# What the dynamic spectra should be
-/

namespace DP3.DynSpec

variable {K : Type} [Field K] [LinearOrder K] [IsStrictOrderedRing K]

/-- Whether a sample counts: not flagged and a number (docs/schemas/DynSpec.yml:2). -/
def Counts (c : Cfg K) (b : Buf K) (dir i j p : Nat) : Prop :=
  b.flags i j p = false ∧ (c.shift dir b).1 i j p ≠ none

/-- The weighted average over the baselines that count is `v`: the weighted sum of the differences
with `v` is zero (docs/schemas/DynSpec.yml:2, steps/DynSpec.cc:232-233). -/
def IsAverage (c : Cfg K) (b : Buf K) (dir j p : Nat) (v : Cx K) : Prop :=
  ((List.range c.nBl).map fun i =>
    if b.flags i j p then (0 : Cx K) else
    match (c.shift dir b).1 i j p with
    | none => 0
    | some d => Cx.ofReal (weightsOf c b dir i j p) * (d - v)).sum = 0

/-- The visibilities of a source with the given Stokes parameters, in the four correlations XX, XY,
YX and YY (the formulas at steps/DynSpec.cc:278-282 inverted). -/
def corr (s : Nat → Cx K) (p : Nat) : Cx K :=
  if p = 0 then s 0 + s 1
  else if p = 1 then s 2 + ⟨0, 1⟩ * s 3
  else if p = 2 then s 2 - ⟨0, 1⟩ * s 3
  else s 0 - s 1

/-- After the sub-steps every baseline sees the source: the field holds one source in the direction,
which has been shifted to the phase centre and calibrated (docs/schemas/DynSpec.yml:2). -/
def SeesSource (c : Cfg K) (b : Buf K) (dir j : Nat) (s : Nat → Cx K) : Prop :=
  ∀ i < c.nBl, ∀ p < 4, (c.shift dir b).1 i j p = some (corr s p)

end DP3.DynSpec
