import Mathlib.Algebra.Order.Field.Basic
import Mathlib.Data.List.Dedup

/-!
# The settings of DDECal that are derived from the data

Model of ddecal/Settings.cc:244-305, 346-399 and 434-486 and of ddecal/SolverFactory.cc:176-191,
350-410, 439-502 and 530-581, with their use in steps/DDECal.cc:190-203 and 360-373.
-/

namespace DP3.DdeSettings

/-- What can go wrong: an exception, or undefined behaviour. -/
inductive Err
  | refused
  | ub
deriving DecidableEq, Repr

/-! ## Solutions per direction -/

/-- `Settings::PrepareSubSolutionsPerDirection`.  The result is the new
`sub_solutions_per_direction`.  `max_element` of an empty range is dereferenced when there are no
directions.  The number of smoothness factors is `nDd`: Settings.cc:244-300. -/
def prepare (given : List Nat) (solint nDd nDirections : Nat) : Except Err (List Nat) :=
  if nDirections < given.length then .error .refused
  else
    let padded := given ++ List.replicate (nDirections - given.length) 1
    if 0 ∈ padded then .error .refused
    else if padded.any (fun val => solint % val != 0) then .error .refused
    else
      match padded.max? with
      | none => .error .ub
      | some m =>
        if 1 < m ∧ solint = 0 then .error .refused
        else if 1 < m ∧ solint / m = 0 then .error .refused
        else if nDd ≠ 0 ∧ nDd ≠ nDirections then .error .refused
        else .ok padded

/-- The steps refuse a calibration without directions first: DDECal.cc:197-203 and
BdaDdeCal.cc:191-203. -/
def prepareStep (given : List Nat) (solint nDd nDirections : Nat) : Except Err (List Nat) :=
  if nDirections = 0 then .error .refused else prepare given solint nDd nDirections

/-- `Settings::GetNSolutions`: the initial value of `accumulate` is an `unsigned`, which is 32 bits
wide: Settings.cc:302-305. -/
def nSolutions (sub : List Nat) : Nat := sub.foldl (fun acc v => (acc + v) % 2 ^ 32) 0

/-- `Constraint::Initialize` makes `NSubSolutions` the same sum: Constraint.h:97-98. -/
def nSubSolutions (sub : List Nat) : Nat := nSolutions sub

/-- The loop of `GetSolutionToDirectionVector`, from direction `d` on: Settings.cc:438-442. -/
def toDirectionFrom (d : Nat) : List Nat → List Nat
  | [] => []
  | n :: rest => List.replicate n d ++ toDirectionFrom (d + 1) rest

/-- `GetSolutionToDirectionVector`: Settings.cc:434-444. -/
def toDirection (sub : List Nat) : List Nat := toDirectionFrom 0 sub

/-- The loop of `GetExpandedSmoothnessDdFactors`; `none` is an access outside of
`smoothness_dd_factors`: Settings.cc:390-396. -/
def expandLoop {K : Type} : List Nat → List K → Option (List K)
  | [], _ => some []
  | _ :: _, [] => none
  | n :: sub, f :: factors => (expandLoop sub factors).map (List.replicate n f ++ ·)

/-- `Settings::GetExpandedSmoothnessDdFactors`: Settings.cc:385-399. -/
def expand {K : Type} (sub : List Nat) (factors : List K) : Option (List K) :=
  if sub = [] ∨ factors = [] then some factors else expandLoop sub factors

/-- `SmoothnessConstraint::SetDdSmoothingFactors` refuses a wrong number of factors:
SmoothnessConstraint.cc:34-46. -/
def setDdFactors {K : Type} (sub : List Nat) (factors : List K) : Except Err (List K) :=
  if factors ≠ [] ∧ factors.length ≠ nSubSolutions sub then .error .refused else .ok factors

/-! ## Reused directions -/

/-- The name after the first period, or the whole name: Settings.cc:464-470. -/
def withoutPrefix (name : List Char) : List Char :=
  match name.dropWhile (· ≠ '.') with
  | [] => name
  | _ :: rest => rest

/-- The pattern that gets a direction: the first one that matches, because of the `break`.
`isMatch` is `regex_match` with the expression of `PatternToRegex` (modelled in `StationValues`):
Settings.cc:455-475. -/
def winner (isMatch : List Char → List Char → Bool) (patterns : List (List Char))
    (name : List Char) : Option (List Char) :=
  patterns.find? fun p => isMatch p name

/-- `Settings::GetReusedDirections`.  `names` are the keys of the map of input directions, in the
order of the map: Settings.cc:446-486. -/
def reused (isMatch : List Char → List Char → Bool) (patterns names : List (List Char)) :
    Except Err (List (List Char × List Char)) :=
  if patterns.any fun p => !names.any fun n => winner isMatch patterns n == some p then
    .error .refused
  else
    .ok ((names.filter fun n => (winner isMatch patterns n).isSome).map fun n =>
      (n, withoutPrefix n))

/-! ## Antenna sets -/

section
variable {K : Type} [Field K] [LinearOrder K]

/-- The square of the distance of two positions: SolverFactory.cc:360-363 and 469-477. -/
def dist2 (p q : K × K × K) : K :=
  (p.1 - q.1) * (p.1 - q.1) + (p.2.1 - q.2.1) * (p.2.1 - q.2.1) +
    (p.2.2 - q.2.2) * (p.2.2 - q.2.2)

/-- `DetermineCoreAntennas`; a set of indices is an increasing list: SolverFactory.cc:350-371. -/
def coreAntennas (core : K) (positions : List (K × K × K)) : List Nat :=
  match positions.head? with
  | none => []
  | some ref =>
    (List.range positions.length).filter fun ant =>
      match positions[ant]? with
      | some p => decide (dist2 ref p ≤ core * core)
      | none => false

end

/-- The set of indices of a set of names; a name that is not found is ignored with a warning.  A set
of names is a list without duplicates; the order of the set of indices is left out:
SolverFactory.cc:396-407. -/
def indicesOf (antennaNames : List String) (group : List String) : List Nat :=
  group.filterMap fun name =>
    if name ∈ antennaNames then some (antennaNames.idxOf name) else none

/-- `InitializeAntennaConstraint`: SolverFactory.cc:381-410. -/
def antennaSets (groups : List (List String)) (antennaNames : List String) :
    Except Err (List (List Nat)) :=
  if groups.any fun g => g.length ≤ 1 then .error .refused
  else .ok (groups.map (indicesOf antennaNames))

/-- `Settings::ReadAntennaConstraint`: every group becomes a set, one with a single antenna is
refused: Settings.cc:346-365. -/
def readGroups (lists : List (List String)) : Except Err (List (List String)) :=
  if lists.any fun g => g.dedup.length = 1 then .error .refused
  else .ok (lists.map List.dedup)

/-- The sets of the antenna constraint, `none` when it is not added at all: SolverFactory.cc:178-180
and 548-558. -/
def constraintSets {K : Type} [Field K] [LinearOrder K] (core : K) (groups : List (List String))
    (positions : List (K × K × K)) (antennaNames : List String) :
    Except Err (Option (List (List Nat))) :=
  if core = 0 ∧ groups = [] then .ok none
  else if groups = [] then .ok (some [coreAntennas core positions])
  else (antennaSets groups antennaNames).map some

/-! ## The averaging factors of the antenna interval constraint -/

/-- The factors are made for all antennas of the input, when the solver is made in `updateInfo`:
SolverFactory.cc:181-191 with DDECal.cc:193.  `parse` is `ParseValuePerStation` (modelled in
`StationValues`). -/
def averagingFactors (parse : List String → List Nat → List Nat) (allNames : List String) :
    List Nat := parse allNames (List.replicate allNames.length 1)

/-- `AntennaIntervalConstraint::Initialize` gets the number of used antennas (DDECal.cc:360-373 and
BdaDdeCal.cc:278-296): AntennaIntervalConstraint.cc:11-43. -/
def initInterval (factors : List Nat) (nUsed : Nat) (sub : List Nat) : Except Err Unit :=
  if factors.length ≠ nUsed then .error .refused
  else
    match sub.max?, factors.min?, factors.max? with
    | some maxSub, some lo, some hi =>
      if lo = 0 then .error .refused
      else if maxSub < hi then .error .refused
      else .ok ()
    | _, _, _ => .error .ub

/-! ## The factors of the smoothness constraint -/

section
variable {K : Type} [Field K] [LinearOrder K]

/-- The factor of an antenna at a position; `none` is an infinite value, for an antenna at the
position of the reference antenna: SolverFactory.cc:469-477.  `root` is `std::sqrt`. -/
def factor (root : K → K) (refDistance : K) (ref p : K × K × K) : Option K :=
  if root (dist2 ref p) = 0 then none else some (refDistance / root (dist2 ref p))

/-- `std::max` of factors of which one may be infinite (for a positive reference distance):
SolverFactory.cc:478. -/
def maxOpt : Option K → Option K → Option K
  | some a, some b => some (max a b)
  | _, _ => none

/-- The factors of the antennas other than the reference antenna, in order, with a zero for that:
SolverFactory.cc:463-481. -/
def rawFactors (root : K → K) (refDistance : K) (refIndex : Nat) (ref : K × K × K)
    (positions : List (K × K × K)) : List (Option K) :=
  positions.mapIdx fun i p => if i = refIndex then some 0 else factor root refDistance ref p

/-- The maximum, starting from zero (the zero of the reference antenna does not change it):
SolverFactory.cc:464, 478. -/
def maxFactor (raw : List (Option K)) : Option K := raw.foldl maxOpt (some 0)

/-- The index of the reference antenna: SolverFactory.cc:450-460.  `none` is the exception. -/
def refIndex (refAntenna : String) (antennaNames : List String) : Option Nat :=
  if refAntenna = "" then some 0
  else if refAntenna ∈ antennaNames then some (antennaNames.idxOf refAntenna)
  else none

/-- The distance dependent part of `CalculateAntennaSmoothnessFactors`: SolverFactory.cc:444-485. -/
def distanceFactors (root : K → K) (refDistance : K) (refAntenna : String)
    (positions : List (K × K × K)) (antennaNames : List String) : Except Err (List (Option K)) :=
  if refDistance = 0 then .ok (positions.map fun _ => some 1)
  else
    match refIndex refAntenna antennaNames with
    | none => .error .refused
    | some r =>
      match positions[r]? with
      | none => .error .ub
      | some ref =>
        let raw := rawFactors root refDistance r ref positions
        .ok (raw.set r (maxFactor raw))

/-- `CalculateAntennaSmoothnessFactors`; `parsed` are the values of the setting
`antenna_smoothness_factors` per antenna, if it is given: SolverFactory.cc:439-502. -/
def smoothnessFactors (root : K → K) (refDistance : K) (refAntenna : String)
    (positions : List (K × K × K)) (antennaNames : List String) (parsed : Option (List K)) :
    Except Err (List (Option K)) :=
  (distanceFactors root refDistance refAntenna positions antennaNames).bind fun factors =>
    match parsed with
    | none => .ok factors
    | some values =>
      if values.any fun v => decide (v < 0) then .error .refused
      else .ok (List.zipWith (fun f v => f.map (· * v)) factors values)

/-- The scale of the smoothing kernel of an antenna; `none` is a non-finite scale: one over the two
factors (SmoothnessConstraint.cc:84-90). -/
def kernelScale (ddFactor : K) (antennaFactor : Option K) : Option K :=
  match antennaFactor with
  | none => some 0
  | some f => if f = 0 then none else some ((1 / ddFactor) / f)

end

end DP3.DdeSettings
