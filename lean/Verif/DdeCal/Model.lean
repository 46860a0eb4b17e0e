import Verif.Cx.Basic
import Mathlib.Algebra.Order.Field.Basic

/-!
# DDECal: from input buffers to solver calls and output buffers

Model of `steps/DDECal.cc`: collecting buffers into solution intervals, flagging of channel blocks
with too few visibilities, the values from which a solve starts, the weights and the time that are
handed to the solver, the subtraction of the model and the order in which buffers are forwarded.

Simplifications:
* Arrays over baselines, channels and correlations are functions; the four correlations of a
  visibility form one 2x2 matrix.  Only entries within the shape of the data have a meaning.
* Numbers are in an ordered field; NaN is excluded explicitly where the code can produce it.
* The solver (`SolverBase::Solve`) is an arbitrary function of the number of the solution and of its
  input, with `AssignAndWeight` (modelled in `Verif.SolverTools`) as its first part.  The first steps
  of the model chains (`Predict`, `IDGPredict`, `MsColumnReader`) and their next steps are an
  arbitrary function of the buffer; they give one result for each buffer, at the latest when
  `IDGPredict` is flushed.  `UVWFlagger` is an arbitrary function that changes flags only.
* `weights_per_antenna_` is a function of the antenna and the channel block instead of a flat list.
* Settings, `updateInfo` and the writing of solutions are in `Verif.SolutionWriter` or are not
  modelled; the sizes that `updateInfo` computes are members of `Env`.
-/

namespace DP3.DdeCal

/-- A thrown exception, or undefined behaviour (among which violated asserts). -/
inductive Err where
  | thrown | ub
  deriving DecidableEq, Repr

/-- Flags of a buffer: baseline, channel, correlation; base/DPBuffer.h. -/
abbrev Flags := Nat → Nat → Nat → Bool

/-- Visibilities: baseline, channel; base/DPBuffer.h. -/
abbrev Vis (K : Type) := Nat → Nat → M2 K

/-- Solutions of one interval: for each channel block a vector with, from slow to fast, antennas,
directions and polarizations: DDECal.h:137-140. -/
abbrev Sols (K : Type) := List (List (Cx K))

/-- The members of `DPBuffer` that the step uses: base/DPBuffer.h. -/
structure Buf (K : Type) where
  time : K
  data : Vis K
  flags : Flags
  weights : Nat → Nat → Nat → K
  extra : String → Option (Vis K)
  solution : Option (Sols K)

/-- The input of one solve: DDECal.cc:616-701. -/
structure Call (K : Type) where
  bufs : List (Buf K)
  start : Sols K
  time : K
  weights : Nat → Nat → K

/-- The output of one solve: the solutions, the number of iterations and the weights of the results
of the constraints: gain_solvers/SolverBase.h:49-55. -/
structure Result (K : Type) where
  sols : Sols K
  iters : Nat
  cons : List (List (List K))

/-- Settings and the members set by `updateInfo`: DDECal.h:123-208, DDECal.cc:190-386. -/
structure Env (K : Type) where
  solint : Nat
  nInt : Nat
  nSolTimes : Nat
  nAnt : Nat
  nBl : Nat
  nChan : Nat
  nBlocks : Nat
  nPol : Nat
  ant1 : Nat → Nat
  ant2 : Nat → Nat
  antMap : Nat → Nat
  names : List String
  reused : List Bool
  predict : Nat → Buf K → Vis K
  uvwActive : Bool
  uvwFlag : Buf K → Flags
  minVis : K
  onlyPredict : Bool
  subtract : Bool
  keepModel : Bool
  propagate : Bool
  convergedOnly : Bool
  flagUnconverged : Bool
  flagDivergedOnly : Bool
  store : Bool
  maxIter : Nat
  nSub : List Nat
  initial : Option (K → Sols K)
  solve : Nat → Call K → Result K

/-- `channel_block_start_[k]`: DDECal.cc:308-313. -/
def blockStart (nChan nBlocks k : Nat) : Nat := k * nChan / nBlocks

/-- The number of channel blocks: DDECal.cc:268-270, 300. -/
def nChannelBlocks (setting nChan : Nat) : Nat :=
  nChan / (if setting = 0 ∨ nChan < setting then nChan else setting)

/-- The number of solutions: DDECal.cc:298-299. -/
def nSolutionTimes (nTimes solint : Nat) : Nat := (nTimes + solint - 1) / solint

/-- The channel block of a channel, as counted in the loops over the channels: DDECal.cc:937-943,
1105-1111. -/
def walk (nChan nBlocks : Nat) : Nat → Nat
  | 0 => if 0 = blockStart nChan nBlocks 1 then 1 else 0
  | ch + 1 =>
    let b := walk nChan nBlocks ch
    if ch + 1 = blockStart nChan nBlocks (b + 1) then b + 1 else b

section
variable {K : Type} [Field K] [LinearOrder K]

/-- The state of the step: DDECal.h:125-197.  `calls` and `out` record the calls of the solver and the
buffers given to the next step. -/
structure St (K : Type) where
  inputs : List (List (Buf K))
  orig : Nat → Nat → Flags
  results : Nat → List (Vis K)
  avgTime : K
  vis : Nat → Nat × Nat
  wAnt : Nat → Nat → K
  firstIdx : Nat
  sols : Nat → Sols K
  iters : Nat → Nat
  cons : Nat → List (List (List K))
  calls : List (Call K)
  out : List (Buf K)

/-- The state after construction and `updateInfo`: DDECal.cc:61-72, 301-306, 323-325, 380-382. -/
def init (e : Env K) : St K :=
  { inputs := [], orig := fun _ _ _ _ _ => false, results := fun _ => [], avgTime := 0,
    vis := fun _ => (0, 0), wAnt := fun _ _ => 0, firstIdx := 0,
    sols := fun _ => List.replicate e.nBlocks [], iters := fun _ => 0, cons := fun _ => [],
    calls := [], out := [] }

/-- `original_flags_.size() > 0`: DDECal.cc:241-247. -/
def savesFlags (e : Env K) : Bool := e.uvwActive || decide (0 < e.minVis)

/-- Sum over the baselines, channels of block `cb` and correlations of `f`, in which the two antennas
of a baseline both receive the contribution; the part for antenna `a`: DDECal.cc:936-956. -/
def antSum (e : Env K) (f : Nat → Nat → Nat → K) (a cb : Nat) : K :=
  ((List.range e.nBl).map fun bl =>
    ((List.range e.nChan).map fun ch =>
      if walk e.nChan e.nBlocks ch = cb then
        ((List.range 4).map fun cr =>
          (if e.antMap (e.ant1 bl) = a then f bl ch cr else 0) +
            (if e.antMap (e.ant2 bl) = a then f bl ch cr else 0)).sum
      else 0).sum).sum

/-- The weight of a visibility, zero if it is flagged: DDECal.cc:946-947. -/
def visWeight (b : Buf K) (bl ch cr : Nat) : K := if b.flags bl ch cr then 0 else b.weights bl ch cr

/-- The numbers of unflagged visibilities and of all visibilities of a channel block in one buffer:
DDECal.cc:951-953. -/
def countVis (e : Env K) (b : Buf K) (cb : Nat) : Nat × Nat :=
  (((List.range e.nBl).map fun bl =>
    ((List.range e.nChan).map fun ch =>
      if walk e.nChan e.nBlocks ch = cb then
        ((List.range 4).map fun cr => if 0 < visWeight b bl ch cr then 1 else 0).sum
      else 0).sum).sum,
   ((List.range e.nBl).map fun _ =>
    ((List.range e.nChan).map fun ch =>
      if walk e.nChan e.nBlocks ch = cb then 4 else 0).sum).sum)

/-- `weightFactor`: DDECal.cc:958-960.  The subtraction is of unsigned numbers; there are at least two
antennas. -/
def weightFactor (e : Env K) : K :=
  1 / (((e.nChan * (e.nAnt - 1) * 4 * e.solint : Nat)) : K)

/-- The buffer after the UVW flagger: DDECal.cc:855-858. -/
def uvwStep (e : Env K) (b : Buf K) : Buf K :=
  if e.uvwActive then { b with flags := e.uvwFlag b } else b

/-- Adding a buffer to the last interval, or to a new one if that is full: DDECal.cc:808-814. -/
def push {A : Type} (solint : Nat) (inputs : List (List A)) (b : A) : List (List A) :=
  match inputs.getLast? with
  | none => [[b]]
  | some l =>
    if l.length = solint then inputs ++ [[b]] else inputs.dropLast ++ [l ++ [b]]

/-- `doPrepare` for buffer `b` that becomes the last one: DDECal.cc:839-968. -/
def prepare (e : Env K) (st : St K) (b : Buf K) : St K :=
  let inputs := push e.solint st.inputs b
  let i := inputs.length - 1
  let j := (inputs.getLast?.getD []).length - 1
  let b' := uvwStep e b
  { st with
    inputs := push e.solint st.inputs b'
    orig := if savesFlags e then
        fun i' j' => if i' = i ∧ j' = j then b.flags else st.orig i' j'
      else st.orig
    results := fun d => if e.reused.getD d false then st.results d else st.results d ++ [e.predict d b']
    vis := fun cb => ((st.vis cb).1 + (countVis e b' cb).1, (st.vis cb).2 + (countVis e b' cb).2)
    wAnt := fun a cb => (st.wAnt a cb + antSum e (visWeight b') a cb) * weightFactor e
    avgTime := st.avgTime + (st.avgTime + b'.time) }

/-- Moving the model data to a buffer: DDECal.cc:575-582, base/DPBuffer.cc:141-148. -/
def setExtra (name : String) (v : Vis K) (b : Buf K) : Buf K :=
  { b with extra := fun n => if n = name then some v else b.extra n }

/-- `RemoveData`: base/DPBuffer.cc:125-131. -/
def removeExtra (name : String) (b : Buf K) : Buf K :=
  { b with extra := fun n => if n = name then none else b.extra n }

/-- The model data of one direction go to the input buffers: DDECal.cc:575-582. -/
def moveDir (e : Env K) (name : String) (results : List (Vis K)) (inputs : List (List (Buf K))) :
    List (List (Buf K)) :=
  results.zipIdx.foldl (fun inp p =>
    inp.modify (p.2 / e.solint) fun l => l.modify (p.2 % e.solint) (setExtra name p.1)) inputs

/-- The first loop of `doSolve`: DDECal.cc:562-583. -/
def moveModels (e : Env K) (st : St K) : List (List (Buf K)) :=
  e.names.zipIdx.foldl (fun inp p =>
    if e.reused.getD p.2 false then inp else moveDir e p.1 (st.results p.2) inp) st.inputs

/-- The part of the state that the loop over the solution intervals changes. -/
structure Carry (K : Type) where
  wAnt : Nat → Nat → K
  sols : Nat → Sols K
  iters : Nat → Nat
  cons : Nat → List (List (List K))
  calls : List (Call K)

/-- `fraction < min_vis_ratio`, which is false for 0/0: DDECal.cc:555-557. -/
def tooFew (e : Env K) (vis : Nat → Nat × Nat) (cb : Nat) : Bool :=
  decide ((vis cb).2 ≠ 0) && decide (((vis cb).1 : K) / ((vis cb).2 : K) < e.minVis)

/-- Whether antenna `a` is part of a baseline. -/
def onBaseline (e : Env K) (a : Nat) : Bool :=
  (List.range e.nBl).any fun bl => decide (e.antMap (e.ant1 bl) = a) || decide (e.antMap (e.ant2 bl) = a)

/-- The antenna weights after `checkMinimumVisibilities`: DDECal.cc:538-544, 553-559. -/
def minVisWeights (e : Env K) (vis : Nat → Nat × Nat) (w : Nat → Nat → K) (a cb : Nat) : K :=
  if cb < e.nBlocks ∧ tooFew e vis cb ∧ onBaseline e a then 0 else w a cb

/-- The flags after `checkMinimumVisibilities`: DDECal.cc:545-550, 553-559. -/
def minVisFlags (e : Env K) (vis : Nat → Nat × Nat) (b : Buf K) : Buf K :=
  { b with flags := fun bl ch cr =>
      b.flags bl ch cr || (List.range e.nBlocks).any fun cb =>
        tooFew e vis cb && decide (blockStart e.nChan e.nBlocks cb ≤ ch) &&
          decide (ch < blockStart e.nChan e.nBlocks (cb + 1)) }

/-- A padding buffer: DDECal.cc:632-639. -/
def padBuf (b : Buf K) : Buf K := { b with flags := fun _ _ _ => true }

/-- Padding to the requested solution interval: DDECal.cc:632-639. -/
def pad (solint : Nat) (l : List (Buf K)) : List (Buf K) :=
  match l with
  | [] => []
  | b :: _ => l ++ List.replicate (solint - l.length) (padBuf b)

/-- The unit solutions: DDECal.cc:506-529. -/
def unitSols (e : Env K) : Sols K :=
  List.replicate e.nBlocks
    ((List.range (e.nSub.sum * e.nAnt * e.nPol)).map fun i =>
      if e.nPol = 4 then (if i % 4 = 0 ∨ i % 4 = 3 then 1 else 0) else 1)

/-- `InitializeSolutions`: DDECal.cc:483-531. -/
def startSols (e : Env K) (avgTime : K) (c : Carry K) (idx : Nat) : Sols K :=
  let propagate := decide (0 < idx) && e.propagate
  let propagate :=
    if propagate && decide (e.maxIter < c.iters (idx - 1)) && e.convergedOnly then false else propagate
  if propagate then c.sols (idx - 1)
  else
    match e.initial with
    | some read => read avgTime
    | none => unitSols e

/-- The effect of `AssignAndWeight` on the model data of an input buffer: data that are not kept are
moved out: gain_solvers/SolverTools.cc:148-160. -/
def takeModels (keep : Bool) : List String → Buf K → Except Err (Buf K)
  | [], b => .ok b
  | name :: names, b =>
    match b.extra name with
    | none => .error .ub
    | some _ => takeModels keep names (if keep then b else removeExtra name b)

/-- The Jones matrix of a solution index: DDECal.cc:1008-1009, 1017-1018, 1025-1027 with
the `MC2x2` constructors. -/
def full (s : List (Cx K)) (i : Nat) : M2 K :=
  ⟨s.getD (i * 4) 0, s.getD (i * 4 + 1) 0, s.getD (i * 4 + 2) 0, s.getD (i * 4 + 3) 0⟩

/-- A diagonal solution: DDECal.cc:1017-1018. -/
def diag (s : List (Cx K)) (i : Nat) : M2 K := ⟨s.getD (i * 2) 0, 0, 0, s.getD (i * 2 + 1) 0⟩

/-- `ApplyFullJonesSolution`, `ApplyDiagonalSolution` and `ApplyScalarSolution`: DDECal.cc:1005-1028,
1048-1058. -/
def applySol (nPol : Nat) (s : List (Cx K)) (i1 i2 : Nat) (m : M2 K) : M2 K :=
  if nPol = 4 then full s i1 * m * (full s i2).herm
  else if nPol = 2 then diag s i1 * m * (diag s i2).herm
  else m.smul (s.getD i1 0 * (s.getD i2 0).conj)

/-- All accesses to the solutions in `CorrectAndSubtractModels` are within the vectors:
DDECal.cc:1034-1058, 1103-1114. -/
def inRange (e : Env K) (sols : Sols K) : Bool :=
  (List.range e.nBl).all fun bl => (List.range e.nChan).all fun ch =>
    match sols[walk e.nChan e.nBlocks ch]? with
    | none => false
    | some s => (List.range e.names.length).all fun d =>
      decide ((e.ant1 bl * e.names.length + d + 1) * e.nPol ≤ s.length) &&
        decide ((e.ant2 bl * e.names.length + d + 1) * e.nPol ≤ s.length)

/-- The model data of a direction, corrected with the solutions: DDECal.cc:1034-1058. -/
def corrected (e : Env K) (sols : Sols K) (d : Nat) (v : Vis K) : Vis K := fun bl ch =>
  applySol e.nPol (sols.getD (walk e.nChan e.nBlocks ch) []) (e.ant1 bl * e.names.length + d)
    (e.ant2 bl * e.names.length + d) (v bl ch)

/-- The loop over the directions: DDECal.cc:1040-1067, for all baselines and channels at once: they do
not influence each other.  The second component is `sum_over_directions`. -/
def correctDirs (e : Env K) (sols : Sols K) : List (String × Nat) → Buf K × Vis K →
    Except Err (Buf K × Vis K)
  | [], acc => .ok acc
  | (name, d) :: rest, (b, sum) =>
    match b.extra name with
    | none => .error .ub
    | some v =>
      let cv := corrected e sols d v
      correctDirs e sols rest
        (if e.keepModel then setExtra name cv b else b, fun bl ch => sum bl ch + cv bl ch)

/-- `CorrectAndSubtractModels` for one buffer: DDECal.cc:1031-1075, 1101-1122. -/
def correctBuf (e : Env K) (sols : Sols K) (b : Buf K) : Except Err (Buf K) :=
  match correctDirs e sols e.names.zipIdx (b, fun _ _ => 0) with
  | .error x => .error x
  | .ok (b1, sum) =>
    let b2 := if e.subtract then { b1 with data := fun bl ch => b1.data bl ch - sum bl ch } else b1
    .ok (if e.keepModel then b2 else e.names.foldl (fun b name => removeExtra name b) b2)

/-- `CorrectAndSubtractModels`: DDECal.cc:1077-1124. -/
def correctAndSubtract (e : Env K) (sols : Sols K) (l : List (Buf K)) : Except Err (List (Buf K)) :=
  if e.nSub.sum ≠ e.nSub.length then .error .thrown
  else if inRange e sols = false then .error .ub
  else l.mapM (correctBuf e sols)

/-- `SumModels` for one buffer, from direction `first` on: DDECal.cc:1132-1141. -/
def sumBuf (first : Bool) : List String → Buf K → Except Err (Buf K)
  | [], b => .ok b
  | name :: names, b =>
    match b.extra name with
    | none => .error .ub
    | some v =>
      sumBuf false names (removeExtra name
        { b with data := if first then v else fun bl ch => b.data bl ch + v bl ch })

/-- Final weights of the constraint results: DDECal.cc:723-751. -/
def finalWeight (e : Env K) (iters : Nat) (w : K) : K :=
  if e.maxIter < iters ∧ e.flagUnconverged then
    if e.flagDivergedOnly then (if w < 0 then 0 else w) else 0
  else if w < 0 then 1 else w

/-- The solution is kept in the first buffer of the interval: DDECal.cc:766-772,
base/DPBuffer.cc:158-188. -/
def storeSol (e : Env K) (sols : Sols K) : List (Buf K) → List (Buf K)
  | [] => []
  | b :: rest => if e.store then { b with solution := some sols } :: rest else b :: rest

/-- The solve of one interval: DDECal.cc:611-708; the result has the input buffers without padding. -/
def solveInterval (e : Env K) (avgTime : K) (vis : Nat → Nat × Nat) (idx : Nat) (c : Carry K)
    (l : List (Buf K)) : Except Err (Carry K × List (Buf K) × Result K) :=
  let w := if 0 < e.minVis then minVisWeights e vis c.wAnt else c.wAnt
  let l1 := if 0 < e.minVis then l.map (minVisFlags e vis) else l
  let padded := pad e.solint l1
  match padded.mapM (takeModels (e.onlyPredict || e.subtract || e.keepModel) e.names) with
  | .error x => .error x
  | .ok taken =>
    let call : Call K :=
      { bufs := padded, start := startSols e avgTime c idx, time := avgTime / (e.solint : K),
        weights := w }
    let r := e.solve idx call
    .ok ({ c with
            wAnt := w
            sols := fun i => if i = idx then r.sols else c.sols i
            iters := fun i => if i = idx then r.iters else c.iters i
            calls := c.calls ++ [call] },
      taken.take l.length, r)

/-- One iteration of the loop over the solution intervals: DDECal.cc:595-773. -/
def solveOne (e : Env K) (avgTime : K) (vis : Nat → Nat × Nat) (idx : Nat) (c : Carry K)
    (l : List (Buf K)) : Except Err (Carry K × List (Buf K)) :=
  if e.nSolTimes ≤ idx then .error .thrown
  else if e.onlyPredict then
    match (if e.keepModel then .ok l else l.mapM (sumBuf true e.names)) with
    | .error x => .error x
    | .ok l2 => .ok (c, storeSol e (c.sols idx) l2)
  else
    match solveInterval e avgTime vis idx c l with
    | .error x => .error x
    | .ok (c1, l1, r) =>
      match (if e.subtract || e.keepModel then correctAndSubtract e (c1.sols idx) l1 else .ok l1) with
      | .error x => .error x
      | .ok l2 =>
        let cons := r.cons.map fun k => k.map fun ws => ws.map (finalWeight e r.iters)
        .ok ({ c1 with
                cons := if r.cons.any (fun k => !k.isEmpty) then
                    fun i => if i = idx then cons else c1.cons i
                  else c1.cons },
          storeSol e (c1.sols idx) l2)

/-- The loop over the solution intervals: DDECal.cc:595-773. -/
def solveAll (e : Env K) (avgTime : K) (vis : Nat → Nat × Nat) :
    Nat → Carry K → List (List (Buf K)) → Except Err (Carry K × List (List (Buf K)))
  | _, c, [] => .ok (c, [])
  | idx, c, l :: rest =>
    match solveOne e avgTime vis idx c l with
    | .error x => .error x
    | .ok (c1, l1) =>
      match solveAll e avgTime vis (idx + 1) c1 rest with
      | .error x => .error x
      | .ok (c2, ls) => .ok (c2, l1 :: ls)

/-- Forwarding the buffers of one interval with their original flags: DDECal.cc:777-789. -/
def restore (e : Env K) (orig : Nat → Flags) (l : List (Buf K)) : List (Buf K) :=
  l.mapIdx fun j b => if savesFlags e then { b with flags := orig j } else b

/-- `doSolve`: DDECal.cc:561-792. -/
def doSolve (e : Env K) (st : St K) : Except Err (St K) :=
  let inputs := moveModels e st
  match solveAll e st.avgTime st.vis st.firstIdx
      ⟨st.wAnt, st.sols, st.iters, st.cons, st.calls⟩ inputs with
  | .error x => .error x
  | .ok (c, ls) =>
    .ok { st with
      inputs := ls, wAnt := c.wAnt, sols := c.sols, iters := c.iters, cons := c.cons
      calls := c.calls
      out := st.out ++ (ls.mapIdx fun i l => restore e (st.orig i) l).flatten }

/-- Preparing for the next set of solution intervals: DDECal.cc:821-831. -/
def cleanUp (st : St K) : St K :=
  { st with
    firstIdx := st.firstIdx + st.inputs.length, avgTime := 0, vis := fun _ => (0, 0)
    wAnt := fun _ _ => 0, results := fun _ => [], inputs := [] }

/-- The check that reused model data are present: DDECal.cc:797-806. -/
def hasReused (e : Env K) (b : Buf K) : Bool :=
  e.names.zipIdx.all fun p => !(e.reused.getD p.2 false) || (b.extra p.1).isSome

/-- `process`: DDECal.cc:794-837. -/
def process (e : Env K) (st : St K) (b : Buf K) : Except Err (St K) :=
  if hasReused e b = false then .error .thrown
  else
    let st1 := prepare e st b
    if st1.inputs.length = e.nInt ∧ (st1.inputs.getLast?.getD []).length = e.solint then
      match doSolve e st1 with
      | .error x => .error x
      | .ok st2 => .ok (cleanUp st2)
    else .ok st1

/-- `finish`, without the writing of the solutions: DDECal.cc:988-1002. -/
def finish (e : Env K) (st : St K) : Except Err (St K) :=
  if st.inputs.isEmpty then .ok st
  else
    match doSolve e st with
    | .error x => .error x
    | .ok st2 => .ok { st2 with inputs := [] }

/-- Processing all buffers. -/
def processAll (e : Env K) : St K → List (Buf K) → Except Err (St K)
  | st, [] => .ok st
  | st, b :: rest =>
    match process e st b with
    | .error x => .error x
    | .ok st1 => processAll e st1 rest

/-- A run of the step: `process` for each buffer and `finish`. -/
def run (e : Env K) (bufs : List (Buf K)) : Except Err (St K) :=
  match processAll e (init e) bufs with
  | .error x => .error x
  | .ok st => finish e st

end

end DP3.DdeCal
