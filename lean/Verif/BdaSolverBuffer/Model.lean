import Mathlib.Algebra.Order.Floor.Defs
import Mathlib.Algebra.Field.Defs

/-!
# BdaSolverBuffer: the rows of BDA data per solution interval

Model of ddecal/gain_solvers/BdaSolverBuffer.h and .cc.

Simplifications: a row has its central time, interval and baseline, and an identification instead of
its data; a buffer is its list of rows.  The weighting of the data is in `Verif.SolverTools`.  Times
are exact.  `aocommon::Queue` is a list.  The asserts on the interval and the number of correlations
are not modelled; a row of a past interval, for which the code has an assert only, is undefined
behaviour (`Err.ub`).
-/

namespace DP3.BdaSolverBuffer

/-- The part of `BdaBuffer::Row` that matters here. -/
structure Row (F : Type) where
  id : Nat
  time : F
  interval : F
  bl : Nat
deriving DecidableEq, Repr

/-- Failures: undefined behaviour, or the exception "BDA rows are not properly ordered". -/
inductive Err where
  | ub
  | disorder
deriving DecidableEq, Repr

/-- `time_start_` and `time_interval_`: BdaSolverBuffer.h:199-201. -/
structure Config (F : Type) where
  start : F
  interval : F

/-- The state: BdaSolverBuffer.h:193-213. -/
structure State (F : Type) where
  data : List (List (Row F))
  done : List (List (Row F))
  current : Int
  lastComplete : List Int
  dataRows : List (List (Row F))

variable {F : Type} [Field F] [LinearOrder F] [FloorRing F]

/-- The constructor: BdaSolverBuffer.h:45-55. -/
def init (nBaselines : Nat) : State F :=
  { data := [], done := [], current := 0, lastComplete := List.replicate nBaselines (-1)
    dataRows := [[]] }

/-- `RelativeIndex`: BdaSolverBuffer.h:171-174. -/
def relativeIndex (c : Config F) (s : State F) (time : F) : Int :=
  ⌊(time - c.start) / c.interval⌋ - s.current

/-- The part of the loop over the rows in `AppendAndWeight` that stores a row:
BdaSolverBuffer.cc:133-161. -/
def appendRow (c : Config F) (s : State F) (r : Row F) : Except Err (State F) :=
  let queueIndex := relativeIndex c s r.time
  if queueIndex < 0 then .error .ub
  else
    let q := queueIndex.toNat
    let rows := s.dataRows ++ List.replicate (q + 1 - s.dataRows.length) []
    let rows := rows.modify q (· ++ [r])
    let currentStart := relativeIndex c s (r.time - r.interval / 2)
    match s.lastComplete[r.bl]? with
    | none => .error .ub
    | some last =>
      if currentStart < last then .error .disorder
      else .ok { s with dataRows := rows, lastComplete := s.lastComplete.set r.bl (currentStart - 1) }

/-- `AppendAndWeight`: BdaSolverBuffer.cc:29-166. -/
def append (c : Config F) (s : State F) (buffer : List (Row F)) : Except Err (State F) := do
  let s1 ← buffer.foldlM (appendRow c) s
  .ok { s1 with data := s1.data ++ [buffer] }

/-- `Clear`: BdaSolverBuffer.cc:168-177. -/
def clear (s : State F) : State F := { s with data := [], done := [], dataRows := [[]] }

/-- The loop that removes old buffers in `AdvanceInterval`: BdaSolverBuffer.cc:188-203. -/
def removeOld (c : Config F) (s : State F) :
    List (List (Row F)) → List (List (Row F)) → List (List (Row F)) × List (List (Row F))
  | [], done => ([], done)
  | b :: data, done =>
    if b.all fun r => decide (relativeIndex c s r.time < 0) then removeOld c s data (done ++ [b])
    else (b :: data, done)

/-- `AdvanceInterval`: BdaSolverBuffer.cc:179-204. -/
def advanceInterval (c : Config F) (s : State F) : State F :=
  let rows := s.dataRows.drop 1
  let rows := if rows.isEmpty then [[]] else rows
  let s1 : State F :=
    { data := s.data, done := s.done, current := s.current + 1
      lastComplete := s.lastComplete.map (· - 1), dataRows := rows }
  let r := removeOld c s1 s1.data s1.done
  { data := r.1, done := r.2, current := s1.current, lastComplete := s1.lastComplete
    dataRows := s1.dataRows }

/-- `GetIntervalRows`: BdaSolverBuffer.h:108-110. -/
def intervalRows (s : State F) : List (Row F) := s.dataRows.getD 0 []

/-- `GetDone`: BdaSolverBuffer.h:144-148. -/
def getDone (s : State F) : State F × List (List (Row F)) := ({ s with done := [] }, s.done)

/-- `IntervalIsComplete`: BdaSolverBuffer.h:84-87; `none` without baselines. -/
def isComplete (s : State F) : Option Bool :=
  if s.lastComplete.isEmpty then none else some (s.lastComplete.all fun v => decide (0 ≤ v))

/-- Calls. -/
inductive Op (F : Type) where
  | append (buffer : List (Row F))
  | advance
  | getDone

/-- What a user has seen so far: the rows of the intervals that were current when `AdvanceInterval`
was called, and the buffers returned by `GetDone`. -/
structure Seen (F : Type) where
  intervals : List (List (Row F))
  returned : List (List (Row F))

/-- One call. -/
def step (c : Config F) (x : State F × Seen F) : Op F → Except Err (State F × Seen F)
  | .append b => (append c x.1 b).map fun s => (s, x.2)
  | .advance =>
    .ok (advanceInterval c x.1,
      { intervals := x.2.intervals ++ [intervalRows x.1], returned := x.2.returned })
  | .getDone =>
    .ok ((getDone x.1).1,
      { intervals := x.2.intervals, returned := x.2.returned ++ (getDone x.1).2 })

/-- A sequence of calls after construction. -/
def run (c : Config F) (nBaselines : Nat) (ops : List (Op F)) : Except Err (State F × Seen F) :=
  ops.foldlM (step c) (init nBaselines, { intervals := [], returned := [] })

end DP3.BdaSolverBuffer
