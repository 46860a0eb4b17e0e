import Verif.PreFlaggerSet.Model
import Verif.PreFlaggerExpr.Spec

/-!
Specification of the selection made by a PreFlagger set, per visibility.
-/

namespace DP3.PreFlaggerSet

open PreFlaggerExpr

variable {F : Type} [CommRing F] [LinearOrder F]

/-- Truth of a formula over sets. -/
def FormulaHolds (env : String → Prop) : Formula → Prop
  | .leaf s => env s
  | .not f => ¬ FormulaHolds env f
  | .and f g => FormulaHolds env f ∧ FormulaHolds env g
  | .or f g => FormulaHolds env f ∨ FormulaHolds env g

/-- A value lies inside one of the ranges, if ranges are given. -/
def InRanges (v : F) (ranges : List (F × F)) : Prop :=
  ranges ≠ [] → ∃ r ∈ ranges, r.1 < v ∧ v < r.2

/-- A correlation has a value outside its limits, if limits are given. -/
def OutsideLimits (n : Nat) (value : Nat → F) (lim : Option (Limits F)) : Prop :=
  ∀ l, lim = some l → ∃ k, k < n ∧ (value k < (l k).1 ∨ (l k).2 < value k)

/-- The criteria on time. -/
def TimeHolds (s : Slot F) (c : Criteria F) : Prop :=
  InRanges s.time c.aTimes ∧ InRanges (s.time - s.start) c.rTimes ∧
    InRanges s.timeOfDay c.times ∧ InRanges s.sidereal c.lst ∧
    (c.slots ≠ [] → s.index ∈ c.slots)

/-- The uv distance is less than the minimum or more than the maximum. -/
def UvHolds (s : Slot F) (c : Criteria F) (bl : Nat) : Prop :=
  (0 ≤ c.minUV ∨ 0 < c.maxUV) →
    (0 ≤ c.minUV ∧ s.u bl * s.u bl + s.v bl * s.v bl < c.minUV * c.minUV) ∨
    (0 < c.maxUV ∧ c.maxUV * c.maxUV < s.u bl * s.u bl + s.v bl * s.v bl)

/-- Both antennas see the target in the azimuth and elevation ranges. -/
def AzElHolds (s : Slot F) (c : Criteria F) (bl : Nat) : Prop :=
  ∀ a, a = s.ant1 bl ∨ a = s.ant2 bl → InRanges (s.az a) c.azimuth ∧ InRanges (s.el a) c.elevation

/-- The criteria on baselines. -/
def BaselineHolds (s : Slot F) (c : Criteria F) (bl : Nat) : Prop :=
  (∀ sel, c.baselines = some sel → sel (s.ant1 bl) (s.ant2 bl) = true) ∧
    UvHolds s c bl ∧ AzElHolds s c bl

/-- The criteria on channels and values. -/
def ValueHolds (s : Slot F) (c : Criteria F) (bl ch : Nat) : Prop :=
  (∀ mask, c.channels = some mask → mask[ch]? = some true) ∧
    OutsideLimits s.nCorr (s.ampl bl ch) c.ampl ∧ OutsideLimits s.nCorr (s.real bl ch) c.real ∧
    OutsideLimits s.nCorr (s.imag bl ch) c.imag ∧ OutsideLimits s.nCorr (s.phase bl ch) c.phase

/-- At least one criterion is given. -/
def HasCriterion (c : Criteria F) : Prop :=
  c.aTimes ≠ [] ∨ c.rTimes ≠ [] ∨ c.times ≠ [] ∨ c.lst ≠ [] ∨ c.slots ≠ [] ∨ c.azimuth ≠ [] ∨
    c.elevation ≠ [] ∨ c.baselines ≠ none ∨ 0 ≤ c.minUV ∨ 0 < c.maxUV ∨ c.channels ≠ none ∨
    c.ampl ≠ none ∨ c.real ≠ none ∨ c.imag ≠ none ∨ c.phase ≠ none

/-- All criteria hold. -/
def CriteriaHold (s : Slot F) (c : Criteria F) (bl ch : Nat) : Prop :=
  TimeHolds s c ∧ BaselineHolds s c bl ∧ ValueHolds s c bl ch

/-- A visibility is selected: a criterion is given, and all that are given hold. -/
def Selected (s : Slot F) (bl ch : Nat) : Config F → Prop
  | .leaf c => HasCriterion c ∧ CriteriaHold s c bl ch
  | .node c expr sub =>
    CriteriaHold s c bl ch ∧
      ∃ f, Parses .or expr f ∧ FormulaHolds (fun n => Selected s bl ch (sub n)) f

/-- Every channel selection contains a channel. -/
def ChannelsSelected : Config F → Prop
  | .leaf c => ∀ mask, c.channels = some mask → true ∈ mask
  | .node c _ sub =>
    (∀ mask, c.channels = some mask → true ∈ mask) ∧ ∀ n, ChannelsSelected (sub n)

end DP3.PreFlaggerSet
