import Mathlib.Data.List.Basic

/-!
# The times of the demixer

A model of the order of events in steps/Demixer.cc: which times are averaged together, which solution belongs to them, and what goes to the
next step when.

Simplified: the averaging, the factors, the solver and the subtraction are arbitrary functions (`Ops`). The factor buffers, which are sums over
times, are the lists of what was added to them. The baseline selection is left out (see `mergeSubtractResult` in `Demix`).
-/

namespace DP3.DemixTimes

variable {B A R F FS G : Type}

/-- What is done with the data of some times. -/
structure Ops (B A R F FS G : Type) where
  /-- Phase shift and `Averager` at the resolution of the solver. -/
  avg : List B → A
  /-- `Averager` at the resolution of the output. -/
  avgS : List B → R
  /-- `makeFactors` and `deproject` for the times in the buffer of factors, steps/Demixer.cc:753-886; `deproject` also changes the data. -/
  fac : List B → A → A × F
  /-- `makeFactors` at the resolution of the output. -/
  facS : List B → R → FS
  /-- Simulation and `estimate`, steps/Demixer.cc:956-1028; the last argument has the initial values. -/
  solve : A → F → G → G
  /-- The subtraction of the sources, steps/Demixer.cc:1045-1143. -/
  sub : G → A → FS → R → R

/-- Settings, steps/Demixer.h:118-190; `nModel` is 0 without `hasModel`. -/
structure Cfg where
  nTimeAvg : Nat
  nTimeAvgSubtr : Nat
  nTimeChunk : Nat
  nTimeChunkSubtr : Nat
  nTimeDemix : Nat
  propagate : Bool
  hasModel : Bool
  deriving DecidableEq

/-! ## Settings -/

/-- The settings that a user gives. -/
structure Given where
  timestep : Nat
  demixtimestep : Nat
  ntimechunk : Nat
  propagate : Bool
  hasModel : Bool

/-- Why the settings are refused. -/
inductive Refused
  | chunk | demixAveraging
  deriving DecidableEq

/-- The constructor and `updateInfo` without resolutions, steps/Demixer.cc:180-188, 366-389 and 398-409, for `ntime` times. The number of
times after averaging is that of `DPInfo::update`, base/DPInfo.cc:310-312 and 327. -/
def configure (g : Given) (ntime : Nat) : Except Refused Cfg :=
  if g.ntimechunk * g.demixtimestep % g.timestep ≠ 0 then .error .chunk
  else
    let nTimeAvg := min g.demixtimestep ntime
    let nTimeChunkSubtr := g.ntimechunk * nTimeAvg / g.timestep
    let nTimeAvgSubtr := min g.timestep ntime
    if nTimeAvg % nTimeAvgSubtr ≠ 0 then .error .demixAveraging
    else
      .ok { nTimeAvg, nTimeAvgSubtr, nTimeChunk := g.ntimechunk, nTimeChunkSubtr
            nTimeDemix := (ntime + nTimeAvg - 1) / nTimeAvg, propagate := g.propagate, hasModel := g.hasModel }

/-! ## The step -/

/-- The state, steps/Demixer.h:118-190. `pendA` and `pendS` are in the averagers, `bufF` and `bufFS` are the times in `itsFactorBuf` and
`itsFactorBufSubtr`, `resA` and `resS` are in the `MultiResultStep`s, `out` is what went to the next step. -/
structure State (B A R F FS G : Type) where
  nIn : Nat
  nOut : Nat
  nOutS : Nat
  pendA : List B
  pendS : List B
  bufF : List B
  bufFS : List B
  resA : List A
  resS : List R
  facs : List F
  facsS : List FS
  timeIndex : Nat
  unknowns : List G
  prev : G
  out : List R

/-- `MultiResultStep::process`, steps/MultiResultStep.cc:17-33: `none` for an access beyond the end of the buffers. -/
def store {X : Type} (capacity : Nat) (l : List X) (x : X) : Option (List X) := if l.length < capacity then some (l ++ [x]) else none

/-- An `Averager` and its `MultiResultStep`, steps/Averager.cc:136-231. -/
def average {X : Type} (n capacity : Nat) (avg : List B → X) (pend : List B) (res : List X) (b : B) : Option (List B × List X) :=
  if pend.length + 1 ≥ n then
    match store capacity res (avg (pend ++ [b])) with
    | none => none
    | some res => some ([], res)
  else some (pend ++ [b], res)

/-- `Averager::finish`, steps/Averager.cc:233-244. -/
def averageFinish {X : Type} (capacity : Nat) (avg : List B → X) (pend : List B) (res : List X) : Option (List X) :=
  if pend = [] then some res else store capacity res (avg pend)

/-- `makeFactors` and `deproject` of the solving part, steps/Demixer.cc:547-553. -/
def solvePart (o : Ops B A R F FS G) (c : Cfg) (s : State B A R F FS G) : Option (State B A R F FS G) :=
  match s.resA[s.nOut]? with
  | none => none
  | some a =>
    if s.nOut < c.nTimeChunk then
      some { s with resA := s.resA.set s.nOut (o.fac s.bufF a).1, facs := s.facs.take s.nOut ++ [(o.fac s.bufF a).2], bufF := [], nOut := s.nOut + 1 }
    else none

/-- `makeFactors` of the subtract part, steps/Demixer.cc:557-561. -/
def subtractPart (o : Ops B A R F FS G) (c : Cfg) (s : State B A R F FS G) : Option (State B A R F FS G) :=
  match s.resS[s.nOutS]? with
  | none => none
  | some r =>
    if s.nOutS < c.nTimeChunkSubtr then
      some { s with facsS := s.facsS.take s.nOutS ++ [o.facS s.bufFS r], bufFS := [], nOutS := s.nOutS + 1 }
    else none

/-- The thread-private unknowns, the solutions and the output buffers in `demix`, steps/Demixer.cc:889-897 and 928-940. -/
structure Loop (R G : Type) where
  storage : Nat → G
  unknowns : List G
  resS : List R

/-- The output of some times of a slot, steps/Demixer.cc:1042-1144. -/
def subtractSlots (o : Ops B A R F FS G) (g : G) (a : A) (facsS : List FS) : List Nat → List R → Option (List R)
  | [], res => some res
  | j :: js, res =>
    match res[j]?, facsS[j]? with
    | some r, some f => subtractSlots o g a facsS js (res.set j (o.sub g a f r))
    | _, _ => none

/-- A slot on a thread, steps/Demixer.cc:946-1149. -/
def slot (o : Ops B A R F FS G) (c : Cfg) (s : State B A R F FS G) (l : Loop R G) (ts thread : Nat) : Option (Loop R G) :=
  match s.resA[ts]?, s.facs[ts]? with
  | some a, some f =>
    let multiplier := c.nTimeAvg / c.nTimeAvgSubtr
    let g := o.solve a f (if c.propagate then l.storage thread else s.prev)
    match subtractSlots o g a s.facsS (List.range' (multiplier * ts) (min (multiplier * ts + multiplier) s.resS.length - multiplier * ts)) l.resS with
    | none => none
    | some resS =>
      if s.timeIndex + ts < l.unknowns.length then
        some { storage := fun t => if t = thread then g else l.storage t, unknowns := l.unknowns.set (s.timeIndex + ts) g, resS }
      else none
  | _, _ => none

/-- The loop, steps/Demixer.cc:945-1149, in the order in which the threads take the slots. -/
def slots (o : Ops B A R F FS G) (c : Cfg) (s : State B A R F FS G) : Loop R G → List (Nat × Nat) → Option (Loop R G)
  | l, [] => some l
  | l, (ts, thread) :: rest =>
    match slot o c s l ts thread with
    | none => none
    | some l => slots o c s l rest

/-- `demix`, steps/Demixer.cc:915-1156. `schedule` gives the slots and threads for a number of slots. -/
def demix (o : Ops B A R F FS G) (c : Cfg) (schedule : Nat → List (Nat × Nat)) (s : State B A R F FS G) : Option (State B A R F FS G) :=
  match slots o c s ⟨fun _ => s.prev, s.unknowns, s.resS⟩ (schedule s.resA.length) with
  | none => none
  | some l =>
    if c.propagate ∧ s.resA.length > 0 then
      match l.unknowns[s.timeIndex + s.resA.length - 1]? with
      | none => none
      | some g => some { s with unknowns := l.unknowns, resS := l.resS, prev := g }
    else some { s with unknowns := l.unknowns, resS := l.resS }

/-- `handleDemix`, steps/Demixer.cc:627-669, without selection. -/
def handleDemix (o : Ops B A R F FS G) (c : Cfg) (schedule : Nat → List (Nat × Nat)) (s : State B A R F FS G) : Option (State B A R F FS G) :=
  match (if c.hasModel then demix o c schedule s else some s) with
  | none => none
  | some s =>
    if s.nOutS ≤ s.resS.length then
      some { s with out := s.out ++ s.resS.take s.nOutS, resA := [], resS := [], nIn := 0, nOut := 0, nOutS := 0, timeIndex := s.timeIndex + c.nTimeChunk }
    else none

/-- The first part of `process`, steps/Demixer.cc:519-544. -/
def receive (o : Ops B A R F FS G) (c : Cfg) (s : State B A R F FS G) (b : B) : Option (State B A R F FS G) :=
  match average c.nTimeAvg c.nTimeChunk o.avg s.pendA s.resA b, average c.nTimeAvgSubtr c.nTimeChunkSubtr o.avgS s.pendS s.resS b with
  | some (pendA, resA), some (pendS, resS) =>
    some { s with nIn := s.nIn + 1, pendA, resA, pendS, resS, bufF := s.bufF ++ [b], bufFS := s.bufFS ++ [b] }
  | _, _ => none

/-- `process`, steps/Demixer.cc:518-572. -/
def process (o : Ops B A R F FS G) (c : Cfg) (schedule : Nat → List (Nat × Nat)) (s : State B A R F FS G) (b : B) : Option (State B A R F FS G) :=
  match receive o c s b with
  | none => none
  | some s =>
    match (if s.nIn % c.nTimeAvg = 0 then solvePart o c s else some s) with
    | none => none
    | some s =>
      match (if s.nIn % c.nTimeAvgSubtr = 0 then subtractPart o c s else some s) with
      | none => none
      | some s => if s.nOut ≥ c.nTimeChunk then handleDemix o c schedule s else some s

/-- `finish`, steps/Demixer.cc:574-611, without writing the solutions. -/
def finish (o : Ops B A R F FS G) (c : Cfg) (schedule : Nat → List (Nat × Nat)) (s : State B A R F FS G) : Option (State B A R F FS G) :=
  if s.nIn > 0 then
    match averageFinish c.nTimeChunk o.avg s.pendA s.resA, averageFinish c.nTimeChunkSubtr o.avgS s.pendS s.resS with
    | some resA, some resS =>
      let s := { s with resA, resS, pendA := [], pendS := [] }
      match (if s.nIn % c.nTimeAvg ≠ 0 then solvePart o c s else some s) with
      | none => none
      | some s =>
        match (if s.nIn % c.nTimeAvgSubtr ≠ 0 then subtractPart o c s else some s) with
        | none => none
        | some s => handleDemix o c schedule s
    | _, _ => none
  else some s

/-- The state after `updateInfo`, steps/Demixer.cc:429-443: solutions for all slots. -/
def initial (c : Cfg) (defaultGain : G) (unset : G) : State B A R F FS G :=
  { nIn := 0, nOut := 0, nOutS := 0, pendA := [], pendS := [], bufF := [], bufFS := [], resA := [], resS := [], facs := [], facsS := [],
    timeIndex := 0, unknowns := List.replicate c.nTimeDemix unset, prev := defaultGain, out := [] }

/-- All times and `finish`. -/
def processAll (o : Ops B A R F FS G) (c : Cfg) (schedule : Nat → List (Nat × Nat)) : State B A R F FS G → List B → Option (State B A R F FS G)
  | s, [] => some s
  | s, b :: bs =>
    match process o c schedule s b with
    | none => none
    | some s => processAll o c schedule s bs

/-- The output and the solutions for some times; `none` for an access out of bounds. -/
def run (o : Ops B A R F FS G) (c : Cfg) (schedule : Nat → List (Nat × Nat)) (defaultGain unset : G) (times : List B) : Option (List R × List G) :=
  match processAll o c schedule (initial c defaultGain unset) times with
  | none => none
  | some s =>
    match finish o c schedule s with
    | none => none
    | some s => some (s.out, s.unknowns)

end DP3.DemixTimes
