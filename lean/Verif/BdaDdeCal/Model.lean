import Verif.BdaSolverBuffer.Model
import Verif.DdeCal.Model
import Verif.SolveData.Model

/-!
# BdaDdeCal: from BDA buffers to solver calls and output buffers

Model of `steps/BdaDdeCal.cc` with the parts of `ddecal/gain_solvers/BdaSolverBuffer.cc` that handle
the contents of the rows.  The bookkeeping of rows and intervals is that of
`Verif.BdaSolverBuffer`.

Simplifications:
* A row is identified by its `id`, which stands for the addresses of its data: the contents of the
  rows of a buffer (data, flags, weights, model data) are functions of the id.  The ids of all rows
  are different; theorems that need that say so.
* The four correlations of a visibility form one 2x2 matrix.  Times are in an ordered field, the
  data in a field; there are no non-finite values, except for a division by zero in the antenna
  weights, which gives `none`.
* The sub-steps that predict or read the model data are arbitrary: the result of sub-step `d` for
  buffer number `j` is `predict d j rows`, and `released d n` of them have come out after `n`
  buffers went in; the rest comes out in `finish`.
* The solver is an arbitrary function of the number of the interval and its input.  `UVWFlagger` is
  an arbitrary function of the row that gives the channels to flag.
* The channel block of a channel in `ApplySolutions` is a member of `Env`; it is modelled in
  `Verif.SolveData` (`applyBlocks`).
* Multi-threading of the sub-steps, timers, messages, settings and `updateInfo` are not modelled,
  apart from the duration of an interval.
-/

namespace DP3.BdaDdeCal

open DP3.BdaSolverBuffer (Row Config State)
open DP3.DdeCal (Sols applySol)

/-- The reasons to stop: undefined behaviour (among which violated asserts), and exceptions. -/
inductive Err where
  | ub | disorder | missingModel | tooFewChannels
  deriving DecidableEq, Repr

/-- The values of a row: channel. -/
abbrev Vis (K : Type) := Nat → M2 K

/-- A `BdaBuffer`: the contents are functions of the row, and of the channel and the correlation:
base/BdaBuffer.h:27-42, 233-240. -/
structure Buf (F K : Type) where
  rows : List (Row F)
  data : Nat → Vis K
  flags : Nat → Nat → Nat → Bool
  weights : Nat → Nat → Nat → K
  extra : String → Option (Nat → Vis K)

/-- What an `IntervalRow` refers to: the weighted data and model data, and the flags and weights:
BdaSolverBuffer.h:22-42. -/
structure Cell (K : Type) where
  data : Vis K
  models : List (Vis K)
  flags : Nat → Nat → Bool
  weights : Nat → Nat → K

/-- The input of one solve: BdaDdeCal.cc:552-571, 575-577, 637-655. -/
structure Call (F K : Type) where
  rows : List (Row F × Cell K)
  start : Sols K
  center : F
  weights : Nat → Nat → Option K

/-- The output of one solve: gain_solvers/SolverBase.h:49-55. -/
structure Result (K : Type) where
  sols : Sols K
  iters : Nat
  cons : List (List (List K))

/-- Settings and the members set by `updateInfo`: BdaDdeCal.cc:180-314.  `steps` are the names of the
directions with a sub-step and `reused` of those without, which follow them in `direction_names_`:
BdaDdeCal.cc:86-97, 103, 131.  `center` is `startTime + (i + 0.5) * duration` for exact times. -/
structure Env (F K : Type) where
  config : Config F
  steps : List String
  reused : List String
  predict : Nat → Nat → List (Row F) → Nat → Vis K
  released : Nat → Nat → Nat
  uvwActive : Bool
  uvwFlag : Row F → Nat → Bool
  nBl : Nat
  nAnt : Nat
  nBlocks : Nat
  nPol : Nat
  nSub : List Nat
  nChan : Nat → Nat
  ant1 : Nat → Nat
  ant2 : Nat → Nat
  applyBlock : Nat → Nat → Nat
  onlyPredict : Bool
  subtract : Bool
  keepModel : Bool
  propagate : Bool
  convergedOnly : Bool
  flagUnconverged : Bool
  flagDivergedOnly : Bool
  maxIter : Nat
  sqrt : K → K
  solve : Nat → Call F K → Result K

variable {F K : Type}

/-- `direction_names_`: BdaDdeCal.cc:86-97, 103, 131. -/
def Env.names (e : Env F K) : List String := e.steps ++ e.reused

/-- `solution_interval_duration_`: BdaDdeCal.cc:219-224. -/
def intervalDuration [Field F] (timeInterval : F) (solint nTime : Nat) : F :=
  if 0 < solint then timeInterval * (solint : F) else timeInterval * (nTime : F)

/-- The check of the length of the rows: BdaDdeCal.cc:226-235. -/
def rowsFit [Field F] [LinearOrder F] (duration timeInterval : F) (ntimeAvgs : List Nat) : Bool :=
  !decide (duration < ((ntimeAvgs.foldl max 0 : Nat) : F) * timeInterval)

/-- The state.  `queue` is `input_buffers_`; `core`, `mem`, `bufs` and `done` are the solver buffer:
`bufs` and `done` are the unweighted buffers whose rows are in `core.data` and `core.done`, `mem` the
contents to which the interval rows point.  `sent` are the buffers that went to the sub-steps.
`calls` and `out` record the calls of the solver and the buffers given to the next step:
BdaDdeCal.h:101-150, BdaSolverBuffer.h:193-213. -/
structure St (F K : Type) where
  sent : List (List (Row F))
  queue : List (Buf F K)
  core : State F
  mem : Nat → Cell K
  bufs : List (Buf F K)
  done : List (Buf F K)
  sols : List (Sols K)
  iters : List Nat
  cons : List (List (List (List K)))
  calls : List (Call F K)
  out : List (Buf F K)

/-! ## The queue of input buffers -/

section
variable [Field K]

/-- `MoveData` of the data of a result into a buffer: base/BdaBuffer.cc:80-90. -/
def setExtra (name : String) (v : Nat → Vis K) (b : Buf F K) : Buf F K :=
  { b with extra := fun n => if n = name then some v else b.extra n }

/-- `RemoveData`: base/BdaBuffer.h:107. -/
def removeExtra (name : String) (b : Buf F K) : Buf F K :=
  { b with extra := fun n => if n = name then none else b.extra n }

/-- `HasData`: base/BdaBuffer.h:116-118. -/
def hasData (b : Buf F K) (name : String) : Bool := (b.extra name).isSome

/-- The queue index of the first free slot: BdaDdeCal.cc:466-470. -/
def freeSlot (name : String) : List (Buf F K) → Nat
  | [] => 0
  | b :: queue => if hasData b name then freeSlot name queue + 1 else 0

/-- The results of a sub-step go to subsequent slots: BdaDdeCal.cc:472-477.  Outside of the queue the
behaviour is undefined. -/
def placeResults (name : String) : Nat → List (Nat → Vis K) → List (Buf F K) →
    Except Err (List (Buf F K))
  | _, [], queue => .ok queue
  | i, v :: results, queue =>
    if i < queue.length then placeResults name (i + 1) results (queue.modify i (setExtra name v))
    else .error .ub

/-- The body of the loop over the directions in `ExtractResults`: BdaDdeCal.cc:461-478. -/
def extractDir (name : String) (results : List (Nat → Vis K)) (queue : List (Buf F K)) :
    Except Err (List (Buf F K)) :=
  if results.isEmpty then .ok queue
  else placeResults name (freeSlot name queue) results queue

/-- What a sub-step has put out since the number of results was `n0`, when it is `n1` now:
BDAResultStep.h:25-45. -/
def newResults (e : Env F K) (d n0 n1 : Nat) (sent : List (List (Row F))) : List (Nat → Vis K) :=
  ((sent.zipIdx.take n1).drop n0).map fun p => e.predict d p.2 p.1

/-- `ExtractResults`: BdaDdeCal.cc:457-480.  `before` and `now` are the numbers of results that each
sub-step has put out. -/
def extractResults (e : Env F K) (before now : Nat → Nat) (sent : List (List (Row F)))
    (queue : List (Buf F K)) : Except Err (List (Buf F K)) :=
  e.steps.zipIdx.foldlM
    (fun q p => extractDir p.1 (newResults e p.2 (before p.2) (now p.2) sent) q) queue

/-- `HasAllDirections`: BdaDdeCal.cc:482-489. -/
def hasAll (e : Env F K) (b : Buf F K) : Bool := e.names.all fun name => hasData b name

/-- The buffers that leave the queue: BdaDdeCal.cc:512-515, 522-528. -/
def takeComplete (e : Env F K) (queue : List (Buf F K)) : List (Buf F K) × List (Buf F K) :=
  (queue.takeWhile (hasAll e), queue.dropWhile (hasAll e))

/-! ## Without solving -/

/-- The loop over the other directions in `SumModels`: BdaDdeCal.cc:498-507. -/
def addModels : List String → Buf F K → Except Err (Buf F K)
  | [], b => .ok b
  | name :: names, b =>
    match b.extra name with
    | none => .error .ub
    | some v =>
      addModels names (removeExtra name { b with data := fun i ch => b.data i ch + v i ch })

/-- `SumModels`: BdaDdeCal.cc:491-508. -/
def sumModels (e : Env F K) (b : Buf F K) : Except Err (Buf F K) :=
  match e.names with
  | [] => .error .ub
  | name :: names =>
    match b.extra name with
    | none => .error .ub
    | some v => addModels names (removeExtra name { b with data := v })

/-- The buffers given to the next step if there is no solving: BdaDdeCal.cc:511-518. -/
def forwardPredicted (e : Env F K) (l : List (Buf F K)) : Except Err (List (Buf F K)) :=
  l.mapM fun b => if e.keepModel then .ok b else sumModels e b

/-! ## The solver buffer -/

/-- A channel is left out if any correlation is flagged: BdaSolverBuffer.cc:89, 109, 123-125. -/
def channelFlagged (flags : Nat → Nat → Bool) (ch : Nat) : Bool :=
  flags ch 0 || flags ch 1 || flags ch 2 || flags ch 3

/-- The values of a channel multiplied by the square roots of the weights, or zero:
BdaSolverBuffer.cc:88-131. -/
def weigh (e : Env F K) (flags : Nat → Nat → Bool) (weights : Nat → Nat → K) (v : Vis K) : Vis K :=
  fun ch =>
    if channelFlagged flags ch then 0
    else
      ⟨(v ch).a * ⟨e.sqrt (weights ch 0), 0⟩, (v ch).b * ⟨e.sqrt (weights ch 1), 0⟩,
        (v ch).c * ⟨e.sqrt (weights ch 2), 0⟩, (v ch).d * ⟨e.sqrt (weights ch 3), 0⟩⟩

/-- The model data of a buffer for all directions: BdaSolverBuffer.cc:47-56.  Absent data are
undefined behaviour. -/
def modelsOf (b : Buf F K) : List String → Except Err (List (Nat → Vis K))
  | [] => .ok []
  | name :: names =>
    match b.extra name with
    | none => .error .ub
    | some v =>
      match modelsOf b names with
      | .error x => .error x
      | .ok l => .ok (v :: l)

/-- The contents of one row after weighting: BdaSolverBuffer.cc:60-131, 143-149. -/
def cellOf (e : Env F K) (b : Buf F K) (models : List (Nat → Vis K)) (i : Nat) : Cell K where
  data := weigh e (b.flags i) (b.weights i) (b.data i)
  models := models.map fun v => weigh e (b.flags i) (b.weights i) (v i)
  flags := b.flags i
  weights := b.weights i

/-- `keep_unweighted_model_data`: BdaDdeCal.cc:520-521. -/
def keepUnweighted (e : Env F K) : Bool := e.keepModel || e.subtract

variable [Field F] [LinearOrder F] [FloorRing F]

/-- The errors of the bookkeeping of the rows. -/
def coreErr : BdaSolverBuffer.Err → Err
  | .ub => .ub
  | .disorder => .disorder

/-- `AppendAndWeight`: BdaSolverBuffer.cc:29-166.  Model data that are not kept are moved out of the
buffer: lines 47-56. -/
def appendAndWeight (e : Env F K) (st : St F K) (b : Buf F K) : Except Err (St F K) :=
  match modelsOf b e.names with
  | .error x => .error x
  | .ok models =>
    match BdaSolverBuffer.append e.config st.core b.rows with
    | .error x => .error (coreErr x)
    | .ok core =>
      let kept := if keepUnweighted e then b
        else e.names.foldl (fun b name => removeExtra name b) b
      .ok { st with
        core := core
        mem := fun i => if b.rows.any fun r => decide (r.id = i) then cellOf e b models i
          else st.mem i
        bufs := st.bufs ++ [kept] }

/-- `AdvanceInterval`: BdaSolverBuffer.cc:179-204.  As many buffers are moved to `done_` as the
bookkeeping removes from `data_`. -/
def advance (e : Env F K) (st : St F K) : St F K :=
  let core := BdaSolverBuffer.advanceInterval e.config st.core
  let k := st.core.data.length - core.data.length
  { st with core := core, bufs := st.bufs.drop k, done := st.done ++ st.bufs.take k }

/-- `GetDone`: BdaSolverBuffer.h:144-148. -/
def getDone (st : St F K) : St F K × List (Buf F K) :=
  ({ st with core := (BdaSolverBuffer.getDone st.core).1, done := [] }, st.done)

/-! ## Solving -/

/-- The sum over the correlations in the loop over the channels: BdaDdeCal.cc:614-623. -/
def channelWeight (c : Cell K) (ch : Nat) : K :=
  (if c.flags ch 0 then 0 else c.weights ch 0) + (if c.flags ch 1 then 0 else c.weights ch 1) +
    (if c.flags ch 2 then 0 else c.weights ch 2) + (if c.flags ch 3 then 0 else c.weights ch 3)

/-- What one row adds to the weight of each of its antennas for a channel block:
BdaDdeCal.cc:601-625; the number of correlations is 4. -/
def rowWeight (e : Env F K) (p : Row F × Cell K) (block : Nat) : K :=
  (((List.range (e.nChan p.1.bl)).filter fun ch =>
      decide (SolveData.chanBlockIndex ch (e.nChan p.1.bl) e.nBlocks = some block)).map fun ch =>
    channelWeight p.2 ch * (1 / ((4 * e.nChan p.1.bl * e.nAnt : Nat) : K))).sum

/-- The rows that count for an antenna: once for each end of the baseline: BdaDdeCal.cc:596-599. -/
def intervalCount (e : Env F K) (rows : List (Row F × Cell K)) (ant : Nat) : Nat :=
  (rows.filter fun p => decide (e.ant1 p.1.bl = ant)).length +
    (rows.filter fun p => decide (e.ant2 p.1.bl = ant)).length

/-- The sum of the weights of an antenna: BdaDdeCal.cc:593-626. -/
def weightSum (e : Env F K) (rows : List (Row F × Cell K)) (ant block : Nat) : K :=
  ((rows.filter fun p => decide (e.ant1 p.1.bl ≠ e.ant2 p.1.bl) &&
      (decide (e.ant1 p.1.bl = ant) || decide (e.ant2 p.1.bl = ant))).map fun p =>
    rowWeight e p block).sum

/-- `weights_per_antenna`: BdaDdeCal.cc:586-635; `none` is a division of zero by zero. -/
def antennaWeight (e : Env F K) (rows : List (Row F × Cell K)) (ant block : Nat) : Option K :=
  let count := intervalCount e rows ant
  if count = 0 then none else some (weightSum e rows ant block / (count : K))

/-- The exception of `GetChanBlockIndex`: BdaDdeCal.cc:939-947; it is only called for channels of
cross correlations: lines 601-612. -/
def channelsOk (e : Env F K) (rows : List (Row F × Cell K)) : Bool :=
  rows.all fun p => decide (e.ant1 p.1.bl = e.ant2 p.1.bl) || decide (e.nChan p.1.bl = 0) ||
    decide (e.nBlocks ≤ e.nChan p.1.bl)

/-- Unit solutions: BdaDdeCal.cc:579-584, 762-777. -/
def unitSols (e : Env F K) : Sols K :=
  List.replicate e.nBlocks
    ((List.range (e.nSub.sum * e.nAnt * e.nPol)).map fun i =>
      if e.nPol = 4 then (if i % 4 = 0 ∨ i % 4 = 3 then 1 else 0) else 1)

/-- `InitializeCurrentSolutions`: BdaDdeCal.cc:739-778, with the earlier solutions and numbers of
iterations. -/
def startSols (e : Env F K) (sols : List (Sols K)) (iters : List Nat) : Sols K :=
  match sols.getLast?, iters.getLast? with
  | some prev, some n =>
    if e.propagate && !(e.convergedOnly && decide (e.maxIter < n)) then prev else unitSols e
  | _, _ => unitSols e

/-- The model data of one row and one direction, corrected with the solutions:
BdaSolverBuffer.cc:227-267. -/
def corrected (e : Env F K) (sols : Sols K) (d : Nat) (r : Row F) (v : Vis K) : Vis K := fun ch =>
  applySol e.nPol (sols.getD (e.applyBlock r.bl ch) []) (e.ant1 r.bl * e.names.length + d)
    (e.ant2 r.bl * e.names.length + d) (v ch)

/-- The change of the model data of direction `d` in a buffer with rows `own` by `ApplySolutions`: the
rows of the current interval are corrected: BdaSolverBuffer.cc:213, 235-266. -/
def correctedRows (e : Env F K) (sols : Sols K) (d : Nat) (rows own : List (Row F))
    (v : Nat → Vis K) : Nat → Vis K := fun i =>
  if own.any fun r => decide (r.id = i) then
    match rows.find? fun r => decide (r.id = i) with
    | some r => corrected e sols d r (v i)
    | none => v i
  else v i

/-- `ApplySolutions` for one direction and one buffer: BdaSolverBuffer.cc:231-268. -/
def applyDir (e : Env F K) (sols : Sols K) (rows : List (Row F)) (b : Buf F K) (p : String × Nat) :
    Buf F K :=
  match b.extra p.1 with
  | none => b
  | some v => setExtra p.1 (correctedRows e sols p.2 rows b.rows v) b

/-- `ApplySolutions`: BdaSolverBuffer.cc:206-270, for one buffer. -/
def applyToBuf (e : Env F K) (sols : Sols K) (rows : List (Row F)) (b : Buf F K) : Buf F K :=
  e.names.zipIdx.foldl (applyDir e sols rows) b

/-- The weights of the results of the constraints: BdaDdeCal.cc:687-721. -/
def finalWeight [LinearOrder K] (e : Env F K) (iters : Nat) (w : K) : K :=
  if e.flagUnconverged ∧ e.maxIter < iters then
    if e.flagDivergedOnly then max w 0 else 0
  else if w < 0 then 1 else w

variable [LinearOrder K]

/-- The results of the constraints that are kept: BdaDdeCal.cc:687-732. -/
def storedCons (e : Env F K) (r : Result K) : List (List (List K)) :=
  let l := r.cons.map fun c => c.map fun c => c.map (finalWeight e r.iters)
  if l.any fun c => !c.isEmpty then l else []

/-- The input of the solver for the current interval. -/
def callOf (e : Env F K) (st : St F K) : Call F K :=
  let rows := (BdaSolverBuffer.intervalRows st.core).map fun r => (r, st.mem r.id)
  { rows := rows
    start := startSols e st.sols st.iters
    center := e.config.start + ((st.sols.length : F) + 1 / 2) * e.config.interval
    weights := antennaWeight e rows }

/-- `SolveCurrentInterval`: BdaDdeCal.cc:540-737. -/
def solveCurrent (e : Env F K) (st : St F K) : Except Err (St F K) :=
  let call := callOf e st
  if channelsOk e call.rows = false then .error .tooFewChannels
  else
    let r := e.solve st.sols.length call
    let rows := BdaSolverBuffer.intervalRows st.core
    .ok { st with
      sols := st.sols ++ [r.sols]
      iters := st.iters ++ [r.iters]
      cons := st.cons ++ [storedCons e r]
      calls := st.calls ++ [call]
      bufs := if e.subtract || e.keepModel then st.bufs.map (applyToBuf e r.sols rows) else st.bufs }

/-- The loop that solves all complete intervals: BdaDdeCal.cc:531-534.  The first argument bounds the
number of iterations; see `Lemmas` for why it is enough. -/
def solveComplete (e : Env F K) : Nat → St F K → Except Err (St F K)
  | 0, st => .ok st
  | fuel + 1, st =>
    match BdaSolverBuffer.isComplete st.core with
    | none => .error .ub
    | some false => .ok st
    | some true =>
      match solveCurrent e st with
      | .error x => .error x
      | .ok st1 => solveComplete e fuel (advance e st1)

/-- A bound for the loop: the interval up to which the first baseline is complete, and one to see that
it is over. -/
def completeFuel (st : St F K) : Nat := (st.core.lastComplete.getD 0 (-1) + 2).toNat

/-- The loop over the remaining buffers in `finish`: BdaDdeCal.cc:794-797. -/
def solveRest (e : Env F K) : Nat → St F K → Except Err (St F K)
  | 0, st => .ok st
  | fuel + 1, st =>
    if st.core.data.isEmpty then .ok st
    else
      match solveCurrent e st with
      | .error x => .error x
      | .ok st1 => solveRest e fuel (advance e st1)

/-- A bound for the loop: the last interval with a row, relative to the current one, and one. -/
def restFuel (e : Env F K) (st : St F K) : Nat :=
  ((st.core.data.flatten.map fun r =>
    (BdaSolverBuffer.relativeIndex e.config st.core r.time + 1).toNat).foldl max 1)

/-! ## Output -/

/-- The subtraction in `ProcessDone`: BdaDdeCal.cc:807-821. -/
def subtractModels : List String → Buf F K → Except Err (Buf F K)
  | [], b => .ok b
  | name :: names, b =>
    match b.extra name with
    | none => .error .ub
    | some v => subtractModels names { b with data := fun i ch => b.data i ch - v i ch }

/-- One buffer in `ProcessDone`: BdaDdeCal.cc:806-828. -/
def finalBuf (e : Env F K) (b : Buf F K) : Except Err (Buf F K) :=
  match (if e.subtract then subtractModels e.names b else .ok b) with
  | .error x => .error x
  | .ok b1 => .ok (if e.keepModel then b1 else e.names.foldl (fun b name => removeExtra name b) b1)

/-- `ProcessDone`: BdaDdeCal.cc:805-829. -/
def processDone (e : Env F K) (st : St F K) : Except Err (St F K) :=
  match (getDone st).2.mapM (finalBuf e) with
  | .error x => .error x
  | .ok l => .ok { (getDone st).1 with out := st.out ++ l }

/-- `AppendAndWeight` for all buffers that left the queue: BdaDdeCal.cc:522-529. -/
def appendAll (e : Env F K) : List (Buf F K) → St F K → Except Err (St F K)
  | [], st => .ok st
  | b :: l, st =>
    match appendAndWeight e st b with
    | .error x => .error x
    | .ok st1 => appendAll e l st1

/-- What happens with the buffers that left the queue: BdaDdeCal.cc:511-537. -/
def consume (e : Env F K) (l : List (Buf F K)) (st : St F K) : Except Err (St F K) :=
  if e.onlyPredict then
    match forwardPredicted e l with
    | .error x => .error x
    | .ok r => .ok { st with out := st.out ++ r }
  else
    match appendAll e l st with
    | .error x => .error x
    | .ok st1 =>
      match solveComplete e (completeFuel st1) st1 with
      | .error x => .error x
      | .ok st2 => processDone e st2

/-- `ProcessCompleteDirections`: BdaDdeCal.cc:510-538. -/
def processComplete (e : Env F K) (st : St F K) : Except Err (St F K) :=
  consume e (takeComplete e st.queue).1 { st with queue := (takeComplete e st.queue).2 }

/-! ## The step -/

/-- The UVW flagger changes the flags of the buffer itself: BdaDdeCal.cc:408-414,
UVWFlagger.cc:192-243. -/
def uvwStep (e : Env F K) (b : Buf F K) : Buf F K :=
  if e.uvwActive then
    { b with flags := fun i ch cr =>
        b.flags i ch cr || b.rows.any fun r => decide (r.id = i) && e.uvwFlag r ch }
  else b

/-- `process`: BdaDdeCal.cc:396-455. -/
def process (e : Env F K) (st : St F K) (b : Buf F K) : Except Err (St F K) :=
  if (e.reused.all fun name => hasData b name) = false then .error .missingModel
  else
    let n := st.sent.length
    let sent := st.sent ++ [b.rows]
    match extractResults e (fun d => e.released d n) (fun d => e.released d (n + 1)) sent
        (st.queue ++ [uvwStep e b]) with
    | .error x => .error x
    | .ok queue => processComplete e { st with sent := sent, queue := queue }

/-- `finish`: BdaDdeCal.cc:780-803. -/
def finish (e : Env F K) (st : St F K) : Except Err (St F K) :=
  let n := st.sent.length
  match extractResults e (fun d => e.released d n) (fun _ => n) st.sent st.queue with
  | .error x => .error x
  | .ok queue =>
    match processComplete e { st with queue := queue } with
    | .error x => .error x
    | .ok st1 =>
      if e.onlyPredict then .ok st1
      else
        match solveRest e (restFuel e st1) st1 with
        | .error x => .error x
        | .ok st2 => processDone e st2

/-- The state after construction and `updateInfo`: BdaDdeCal.cc:50-84, 268-269. -/
def init (e : Env F K) : St F K where
  sent := []
  queue := []
  core := BdaSolverBuffer.init e.nBl
  mem := fun _ => ⟨fun _ => 0, [], fun _ _ => false, fun _ _ => 0⟩
  bufs := []
  done := []
  sols := []
  iters := []
  cons := []
  calls := []
  out := []

/-- `process` for all buffers. -/
def processAll (e : Env F K) : List (Buf F K) → St F K → Except Err (St F K)
  | [], st => .ok st
  | b :: l, st =>
    match process e st b with
    | .error x => .error x
    | .ok st1 => processAll e l st1

/-- All input, then `finish`. -/
def run (e : Env F K) (input : List (Buf F K)) : Except Err (St F K) :=
  match processAll e input (init e) with
  | .error x => .error x
  | .ok st => finish e st

end

end DP3.BdaDdeCal
