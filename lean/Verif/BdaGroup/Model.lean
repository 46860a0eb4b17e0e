import Mathlib.Algebra.Order.Field.Basic
import Mathlib.Data.Rat.Defs
import Mathlib.Algebra.Order.Ring.Rat

/-!
# Prediction of BDA data per group of baselines

Model of `BdaGroupPredict` (steps/BdaGroupPredict.cc): the grouping of baselines, the collection of
rows until a group is complete, the write back of predicted data and the queue of buffers.

Simplifications: times are exact. The `Predict` step of a group is a function of the data that are in
its buffer, the coordinates of the baselines and the time. Rows are identified by the number of their
buffer in the stream and their position; a pointer to the data of a row is that pair, and a write
through a pointer to a buffer that is not in the queue any more is `Err.ub`.
-/

namespace DP3.BdaGroup

/-- The averaging of a BDA stream: `ntimeAvg(bl)`, `chanFreqs(bl)`, `timeInterval()`
(base/DPInfo.h:179-181, 193, 231-234). -/
structure Info where
  nBl : Nat
  timeAvg : Nat → Nat
  freqs : Nat → List ℚ
  timeInterval : ℚ

/-- The averaging key (steps/BdaGroupPredict.cc:195-196). -/
abbrev Key := Nat × Nat

/-- `averaging_key` of a baseline (steps/BdaGroupPredict.cc:195-196). -/
def key (c : Info) (bl : Nat) : Key := (c.timeAvg bl, (c.freqs bl).length)

/-- `averaging_to_baseline_group_map_` and `index_to_baseline_group_map_`
(steps/BdaGroupPredict.h:95, 100). -/
structure Setup where
  groups : Key → List Nat
  index : List (Key × Nat)

/-- One baseline in `updateInfo` (steps/BdaGroupPredict.cc:193-205). -/
def addBaseline (c : Info) (s : Setup) (bl : Nat) : Setup :=
  { groups := fun k => if k = key c bl then s.groups k ++ [bl] else s.groups k
    index := s.index ++ [(key c bl, (s.groups (key c bl)).length)] }

/-- The groups (steps/BdaGroupPredict.cc:189-205). -/
def setup (c : Info) : Setup :=
  (List.range c.nBl).foldl (addBaseline c) ⟨fun _ => [], []⟩

/-- The frequencies and the integration time that the `Predict` step of a group gets
(steps/BdaGroupPredict.cc:55, 69-73). -/
def groupFreqs (c : Info) (k : Key) : List ℚ := c.freqs (((setup c).groups k).headD 0)

/-- The integration time is that of the unaveraged data, from the copied `DPInfo`
(steps/BdaGroupPredict.cc:55, 73). -/
def groupInterval (c : Info) (_ : Key) : ℚ := c.timeInterval

/-- The frequencies of a baseline with `n` channels after BDA averaging (steps/BDAAverager.cc:41-43,
174-187). -/
def bdaFreqs (f : List ℚ) (n : Nat) : List ℚ :=
  (List.range n).map fun ch =>
    1 / 2 * (f.getD (ch * f.length / n) 0 + f.getD ((ch + 1) * f.length / n - 1) 0)

variable {U D : Type}

/-- A row of a BDA buffer (base/BdaBuffer.h:27-44); `time` is the centroid. -/
structure Row (U D : Type) where
  bl : Nat
  time : ℚ
  interval : ℚ
  uvw : U
  data : D
  deriving DecidableEq

/-- How processing can fail: an exception, or a write through an invalid pointer. -/
inductive Err
  | refused | ub
  deriving DecidableEq, Repr

/-- `BaselineGroup` (steps/BdaGroupPredict.cc:156-166). -/
structure Group (U D : Type) where
  requested : Nat
  time : ℚ
  uvw : Nat → U
  data : List D
  wb : Nat → Option (Nat × Nat)

/-- The groups, the data and counters of buffers, and the queue (steps/BdaGroupPredict.h:79-100). -/
structure State (U D : Type) where
  groups : Key → Group U D
  mem : Nat → Nat → D
  filled : Nat → Nat
  queue : List (Nat × List (Row U D))
  pushed : Nat

/-- Copies the result for one baseline and counts it (steps/BdaGroupPredict.cc:141-147). `out[j]` is
the result of the baseline. -/
def writeBack (wb : Nat → Option (Nat × Nat)) (out : List D) (s : State U D) (j : Nat) :
    Except Err (State U D) :=
  match wb j, out[j]? with
  | some (b, i), some d =>
    if b ∈ s.queue.map Prod.fst then
      .ok { s with
        mem := fun b' i' => if b' = b ∧ i' = i then d else s.mem b' i'
        filled := fun b' => if b' = b then s.filled b' + 1 else s.filled b' }
    else .error .ub
  | _, _ => .error .ub

/-- `Flush` (steps/BdaGroupPredict.cc:129-150). `P` is the `Predict` step. -/
def flush (c : Info) (P : Key → List D → List U → ℚ → List D) (k : Key) (g : Group U D)
    (s : State U D) : Except Err (State U D) :=
  let n := ((setup c).groups k).length
  let out := P k g.data ((List.range n).map g.uvw) g.time
  match (List.range n).foldlM (writeBack g.wb out) s with
  | .ok s => .ok { s with groups := fun k' => if k' = k then { g with requested := 0, data := out } else s.groups k' }
  | .error e => .error e

/-- `ProcessRow` for row `i` of buffer `b` (steps/BdaGroupPredict.cc:101-125, 250-255). -/
def processRow (c : Info) (P : Key → List D → List U → ℚ → List D) (b : Nat) (s : State U D)
    (x : Row U D × Nat) : Except Err (State U D) :=
  match (setup c).index[x.1.bl]? with
  | none => .error .ub
  | some (k, j) =>
    let g := s.groups k
    let t := x.1.time + x.1.interval / 2
    if g.requested ≠ 0 ∧ 1 / 1000 < |g.time - t| then .error .refused else
    let g := { g with
      uvw := fun j' => if j' = j then x.1.uvw else g.uvw j'
      wb := fun j' => if j' = j then some (b, x.2) else g.wb j'
      time := t
      requested := g.requested + 1 }
    if g.requested = ((setup c).groups k).length then flush c P k g s
    else .ok { s with groups := fun k' => if k' = k then g else s.groups k' }

/-- Whether all rows of a buffer are filled (steps/BdaGroupPredict.cc:259-260). -/
def full (s : State U D) (x : Nat × List (Row U D)) : Bool := x.2.length == s.filled x.1

/-- The rows of a buffer when it is sent (steps/BdaGroupPredict.cc:261). -/
def sent (s : State U D) (x : Nat × List (Row U D)) : Nat × List D :=
  (x.1, (List.range x.2.length).map (s.mem x.1))

/-- A buffer enters the queue; `AddData` keeps data that exist (steps/BdaGroupPredict.cc:241-245,
base/BdaBuffer.h:83-87). -/
def push (s : State U D) (l : List (Row U D)) : State U D :=
  { s with
    mem := fun b i => if b = s.pushed then (l[i]?.map (·.data)).getD (s.mem b i) else s.mem b i
    filled := fun b => if b = s.pushed then 0 else s.filled b
    queue := s.queue ++ [(s.pushed, l)]
    pushed := s.pushed + 1 }

/-- `process` (steps/BdaGroupPredict.cc:238-265), with the buffers that are sent to the next step. -/
def process (c : Info) (P : Key → List D → List U → ℚ → List D) (s : State U D) (l : List (Row U D)) :
    Except Err (State U D × List (Nat × List D)) :=
  match l.zipIdx.foldlM (processRow c P s.pushed) (push s l) with
  | .ok s => .ok ({ s with queue := s.queue.dropWhile (full s) }, (s.queue.takeWhile (full s)).map (sent s))
  | .error e => .error e

/-- `process` for all buffers of a stream. -/
def stream (c : Info) (P : Key → List D → List U → ℚ → List D) :
    State U D → List (List (Row U D)) → Except Err (State U D × List (Nat × List D))
  | s, [] => .ok (s, [])
  | s, l :: ls =>
    match process c P s l with
    | .error e => .error e
    | .ok (s, o) =>
      match stream c P s ls with
      | .error e => .error e
      | .ok (s, o') => .ok (s, o ++ o')

/-- All buffers and `finish` (steps/BdaGroupPredict.cc:267-274). -/
def run (c : Info) (P : Key → List D → List U → ℚ → List D) (s : State U D)
    (ls : List (List (Row U D))) : Except Err (List (Nat × List D)) :=
  match stream c P s ls with
  | .error e => .error e
  | .ok (s, o) => if s.queue = [] then .ok o else .error .refused

/-- The state after `updateInfo`; the data of the buffers of the groups are not initialized
(steps/BdaGroupPredict.cc:64, 76-80, 199: the counter of a new map entry is zero). -/
def start (u : U) (m : Nat → Nat → D) (d : Key → List D) : State U D :=
  { groups := fun k => ⟨0, 0, fun _ => u, d k, fun _ => none⟩
    mem := m, filled := fun _ => 0, queue := [], pushed := 0 }

/-! ### The operation of the `Predict` step -/

/-- `OnePredict::process` with operation replace or add, for a buffer whose data are `old`
(steps/OnePredict.cc:506-532). `model` is what is predicted. -/
def onePredict [Add D] (add : Bool) (model : List D) (old : List D) : List D :=
  if add then List.zipWith (· + ·) model old else model

end DP3.BdaGroup
