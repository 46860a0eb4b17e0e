/-!
# The phase reference and the baselines of a prediction, and the correlations of FastPredict

Model of the parts of `OnePredict` and `FastPredict` that keep the phase reference and the list of baselines, and of the copy of the
predicted Stokes planes. The prediction itself is in another library for `FastPredict` and is not modelled.
-/

namespace DP3.FastPredict

variable {D : Type}

/-- What is used of the information of a measurement set: the direction of the phase centre in J2000 at a time (the same for all times
if `moving` is false), and the pairs of antennas. -/
structure Info (D : Type) where
  moving : Bool
  centre : Nat → D
  baselines : List (Nat × Nat)

/-- `phase_ref_`, `moving_phase_ref_`, `baselines_` (steps/FastPredict.h:170-181, steps/OnePredict.h:189-200), and `predict_plan_.reference` and
`predict_plan_.baselines`, which `OnePredict` does not have. -/
structure State (D : Type) where
  phaseRef : D
  moving : Bool
  centre : Nat → D
  baselines : List (Nat × Nat)
  planRef : D
  planBaselines : List (Nat × Nat)

/-- The step when it is made: `phase_ref_` is the default direction (base/Direction.h:16). -/
def start (dflt : D) : State D := ⟨dflt, false, fun _ => dflt, [], dflt, []⟩

/-- `updateInfo` and `InitializePlan`, steps/FastPredict.cc:412-440 with 294 and 300 (the local frame is refused, 102-105), and
steps/OnePredict.cc:279-307. -/
def updateInfo (s : State D) (i : Info D) : State D :=
  let ref := if i.moving then s.phaseRef else i.centre 0
  let bl := s.baselines ++ i.baselines
  ⟨ref, i.moving, i.centre, bl, ref, bl⟩

/-- The phase reference at the time slot, steps/FastPredict.cc:626-635 and steps/OnePredict.cc:487-496. -/
def moveRef (s : State D) (time : Nat) : State D := if s.moving then { s with phaseRef := s.centre time } else s

/-- The reference and baselines that `OnePredict` predicts with, steps/OnePredict.cc:584-587. -/
def oneUses (s : State D) : D × List (Nat × Nat) := (s.phaseRef, s.baselines)

/-- The reference and baselines that `FastPredict` predicts with, steps/FastPredict.cc:307-309, 726-736: those of the plan. -/
def fastUses (s : State D) : D × List (Nat × Nat) := (s.planRef, s.planBaselines)

/-- A run over time slots: what each of them is predicted with. -/
def run (uses : State D → D × List (Nat × Nat)) (s : State D) : List Nat → List (D × List (Nat × Nat))
  | [] => []
  | t :: ts => uses (moveRef s t) :: run uses (moveRef s t) ts

/-- The correlations of one visibility, steps/FastPredict.cc:568-603, that were filled with zeros before (649): Stokes I in the first and last
one, or all planes. -/
def copyPlanes {V : Type} (stokesIOnly : Bool) (zero : V) (nCorr : Nat) (planes : List V) : Option (List V) :=
  if stokesIOnly then
    match planes with
    | [] => none
    | i :: _ => if nCorr = 0 then none else some (((List.replicate nCorr zero).set 0 i).set (nCorr - 1) i)
  else if planes.length ≤ nCorr then some (planes ++ List.replicate (nCorr - planes.length) zero)
  else none

end DP3.FastPredict
