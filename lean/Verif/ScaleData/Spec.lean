import Verif.ScaleData.Model

/-!
# What the scale factors should be
-/

namespace DP3.ScaleData

variable {K : Type} [Field K] [LinearOrder K] [IsStrictOrderedRing K]

/-- `c0 + c1 f + c2 f^2 + ...` with the frequency in MHz (docs/schemas/ScaleData.yml:17). -/
def polynomial (coeff : List K) (f : K) : K :=
  ((List.range coeff.length).map fun k => coeff.getD k 0 * (f / 1000000) ^ k).sum

/-- The number of dipoles or tiles that a station uses: half of its elements that are not flagged,
as X and Y are separate, in all of its fields (docs/schemas/ScaleData.yml:21). -/
def usedTiles (i : Info K) (a : Nat) : K :=
  ((i.fields.filter fun r => r.1 == a).map fun r => (r.2 : K)).sum / 2

/-- `v` is the scale factor of antenna `a` at frequency `f`: the polynomial of the first pattern that
matches, times the nominal size over the used size if the size is to be used
(docs/schemas/ScaleData.yml:8-21). -/
def StationFactor (c : Cfg K) (i : Info K) (a : Nat) (f : K) (v : Option K) : Prop :=
  ∃ name coeff, ∃ j : Nat, i.names[a]? = some name ∧
    (∃ pat, (c.stations ++ ["*"])[j]? = some pat ∧ c.matches_ pat name = true) ∧
    (∀ j' < j, ∀ pat, (c.stations ++ ["*"])[j']? = some pat → c.matches_ pat name = false) ∧
    (c.coeffs ++ [if i.isLba then c.lba else c.hba])[j]? = some coeff ∧
    v = if c.scaleSize = some true ∨ (c.scaleSize = none ∧ j = c.stations.length) then
        (if usedTiles i a = 0 then none
          else some (polynomial coeff f * ((if i.isLba then 48 else 24) / usedTiles i a)))
      else some (polynomial coeff f)

/-- The inputs for which the step starts: as many vectors of coefficients as patterns, no vector is
empty, and a table that fits the antennas if the size is used. -/
structure Valid (c : Cfg K) (i : Info K) : Prop where
  sizes : c.stations.length = c.coeffs.length
  nonempty : ∀ l ∈ c.coeffs, l ≠ []
  defaults : c.lba ≠ [] ∧ c.hba ≠ []
  table : c.scaleSize ≠ some false →
    i.nAntTable = i.names.length ∧ ∀ r ∈ i.fields, r.1 < i.nAntTable
  star : ∀ n, c.matches_ "*" n = true

end DP3.ScaleData
