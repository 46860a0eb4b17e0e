import Mathlib.Algebra.Module.Defs
import Mathlib.Algebra.Order.Field.Basic
import Mathlib.Algebra.BigOperators.Group.List.Basic

/-!
Model of the step `steps/BDAAverager.cc` (baseline-dependent averaging).

* Weights, times, exposures and UVW values are elements of an ordered field `F`;
  visibilities are elements of a vector space `D` over `F`.
* A cube is a function of baseline, channel and correlation; the shape check at
  lines 241-246 is not modelled.  All buffers have the same data names (assertion
  at line 236); data are a function of the name.
* The output buffer is a list of rows with a capacity; that rows in it do not
  overlap and that their values stay with them is the subject of the topic
  `BdaBuffer`.
-/

namespace DP3.BdaAverager

/-- The part of a `DPBuffer` the step uses. -/
structure Slot (F D : Type) where
  time : F
  exposure : F
  uvw : Nat → Nat → F
  data : String → Nat → Nat → Nat → D
  weight : Nat → Nat → Nat → F
  flag : Nat → Nat → Nat → Bool

/-- `BaselineBuffer` without its constants, steps/BDAAverager.h; data and weights
are functions of output channel and correlation. -/
structure BaselineBuffer (F D : Type) where
  timesAdded : Nat
  start : F
  interval : F
  exposure : F
  data : String → Nat → Nat → D
  weight : Nat → Nat → F
  uvw : Nat → F

/-- Per-baseline averaging settings. -/
structure Baseline where
  timeFactor : Nat
  nChan : Nat

/-- Settings.  `relativeChannels` is the rounded-up sum of
steps/BDAAverager.cc:171 and 205; it is not used in any proof. -/
structure Config (F : Type) where
  nChan : Nat
  nCorr : Nat
  timeInterval : F
  tolerance : F
  useWeightsAndFlags : Bool
  baselines : List Baseline
  relativeChannels : Nat

/-- `input_channel_indices[i]`, steps/BDAAverager.cc:41-43. -/
def channelIndex (nIn nOut i : Nat) : Nat := i * nIn / nOut

/-- The input channels of an output channel: the loops at
steps/BDAAverager.cc:263-264 and 278-279. -/
def channelGroup (nIn nOut och : Nat) : List Nat :=
  (List.range (channelIndex nIn nOut (och + 1) - channelIndex nIn nOut och)).map fun k =>
    channelIndex nIn nOut och + k

section OutputChannels
variable {F : Type} [Field F] [LinearOrder F]

/-- Number of output channels of a baseline, steps/BDAAverager.cc:155-163.
`ceilChannels` is the value of line 157 (`ceil(length / base * nchan)`). -/
def outputChannels (frequencyBase : F) (ceilChannels nIn minChannels : Nat) : Nat :=
  if frequencyBase > 0 then
    if ceilChannels > nIn then nIn
    else if ceilChannels < minChannels then minChannels
    else ceilChannels
  else nIn

/-- Time averaging factor of a baseline, steps/BDAAverager.cc:145-150.
`byLength` is `floor(timebase / max(length, 0.1))` and `byInterval` is
`floor(maxinterval / interval)`. -/
def timeFactor (maxInterval interval : F) (byLength byInterval : Nat) : Nat :=
  let f := if maxInterval > 0 ∧ (byLength : F) * interval > maxInterval then byInterval else byLength
  max f 1

end OutputChannels

variable {F D : Type} [Field F] [LinearOrder F] [AddCommGroup D] [Module F D]

/-- `Clear`, steps/BDAAverager.cc:48-59. -/
def BaselineBuffer.clear : BaselineBuffer F D :=
  ⟨0, 0, 0, 0, fun _ _ _ => 0, fun _ _ => 0, fun _ => 0⟩

/-- Accumulation of one time slot, steps/BDAAverager.cc:249-296. -/
def accumulate (c : Config F) (b : Nat) (bl : Baseline) (bb : BaselineBuffer F D) (s : Slot F D) :
    BaselineBuffer F D where
  timesAdded := bb.timesAdded + 1
  start := if bb.timesAdded + 1 = 1 then s.time - c.timeInterval / 2 else bb.start
  interval := bb.interval + c.timeInterval
  exposure := bb.exposure + s.exposure
  data name och corr :=
    (channelGroup c.nChan bl.nChan och).foldl (fun acc ich =>
      if c.useWeightsAndFlags then
        if s.flag b ich corr then acc else acc + s.weight b ich corr • s.data name b ich corr
      else acc + s.data name b ich corr) (bb.data name och corr)
  weight och corr :=
    (channelGroup c.nChan bl.nChan och).foldl (fun acc ich =>
      if c.useWeightsAndFlags then
        if s.flag b ich corr then acc else acc + s.weight b ich corr
      else acc + 1) (bb.weight och corr)
  uvw i := bb.uvw i + s.uvw b i

/-- A row of the output buffer (base/BdaBuffer.h:27-42) with its data and weights. -/
structure Row (F D : Type) where
  baseline : Nat
  rowNr : Nat
  nChan : Nat
  time : F
  interval : F
  exposure : F
  data : String → Nat → Nat → D
  weight : Nat → Nat → F
  uvw : Nat → F

/-- Sum of all weights of a row, steps/BDAAverager.cc:340-349. -/
def totalWeight (nChan nCorr : Nat) (weight : Nat → Nat → F) : F :=
  ((List.range nChan).map fun och => ((List.range nCorr).map fun corr => weight och corr).sum).sum

/-- The row written by `AddBaseline`, steps/BDAAverager.cc:339-372. -/
def makeRow (c : Config F) (b : Nat) (bl : Baseline) (rowNr : Nat) (bb : BaselineBuffer F D) :
    Row F D where
  baseline := b
  rowNr := rowNr
  nChan := bl.nChan
  time := bb.start + bb.interval / 2
  interval := bb.interval
  exposure := bb.exposure
  data name och corr :=
    if bb.weight och corr > 0 then (bb.weight och corr)⁻¹ • bb.data name och corr
    else bb.data name och corr
  weight := bb.weight
  uvw i := if totalWeight bl.nChan c.nCorr bb.weight > 0 then bb.uvw i * (1 / (bb.timesAdded : F))
    else bb.uvw i

/-- The output BDA buffer: rows and remaining capacity. -/
structure OutBuffer (F D : Type) where
  capacity : Nat
  remaining : Nat
  rows : List (Row F D)

/-- Step state: per-baseline buffers, `bda_buffer_`, queue of size requests,
buffers passed to the next step, `row_counter_`. -/
structure State (F D : Type) where
  buffers : Nat → BaselineBuffer F D
  current : Option (OutBuffer F D)
  requests : List Nat
  sent : List (OutBuffer F D)
  rowCounter : Nat

/-- `bda_pool_size_`, steps/BDAAverager.cc:172 and 205-208. -/
def Config.poolSize (c : Config F) : Nat :=
  c.nCorr * max c.relativeChannels ((c.baselines.map Baseline.nChan).foldl max 0)

/-- `InitializeBdaBuffer`, steps/BDAAverager.cc:381-392. -/
def initializeBuffer (c : Config F) (st : State F D) : State F D :=
  match st.requests with
  | [] => { st with current := some ⟨c.poolSize, c.poolSize, []⟩ }
  | n :: rest => { st with current := some ⟨n, n, []⟩, requests := rest }

/-- The ordering check of `AddRow`, base/BdaBuffer.cc:108-112. -/
def misordered (c : Config F) (o : OutBuffer F D) (r : Row F D) : Bool :=
  match o.rows.getLast? with
  | none => false
  | some last => decide (r.time + r.interval / 2 < last.time - last.interval / 2 + c.tolerance)

/-- `AddRow`, base/BdaBuffer.cc:102-156: throws for a row before the last one,
refuses a row that does not fit (both `none`). -/
def addRow (c : Config F) (o : OutBuffer F D) (r : Row F D) : Option (OutBuffer F D) :=
  if misordered c o r then none
  else if o.remaining < r.nChan * c.nCorr then none
  else some { o with remaining := o.remaining - r.nChan * c.nCorr, rows := o.rows ++ [r] }

/-- Replace the buffer of one baseline. -/
def State.setBuffer (st : State F D) (b : Nat) (bb : BaselineBuffer F D) : State F D :=
  { st with buffers := fun b' => if b' = b then bb else st.buffers b' }

/-- Pass the current buffer to the next step. -/
def send (st : State F D) : State F D :=
  { st with current := none, sent := st.sent ++ st.current.toList }

/-- `AddBaseline`, steps/BDAAverager.cc:334-375.  `none`: `AddRow` threw, or it
refused the row, in which case line 371 accesses a row that does not exist. -/
def addBaseline (c : Config F) (b : Nat) (bl : Baseline) (st : State F D) : Option (State F D) :=
  match st.current with
  | none => none  -- null pointer; see `process` and `finish`
  | some o =>
    let st1 := if o.remaining < bl.nChan * c.nCorr then initializeBuffer c (send st) else st
    match st1.current with
    | none => none
    | some o1 =>
      match addRow c o1 (makeRow c b bl st1.rowCounter (st1.buffers b)) with
      | none => none
      | some o2 => some
        { st1 with
          current := some o2
          rowCounter := st1.rowCounter + 1
          buffers := (st1.setBuffer b .clear).buffers }

/-- The loop body for one baseline, steps/BDAAverager.cc:248-301. -/
def processBaseline (c : Config F) (s : Slot F D) (st : State F D) (b : Nat) : Option (State F D) :=
  match c.baselines[b]? with
  | none => some st
  | some bl =>
    let bb := accumulate c b bl (st.buffers b) s
    let st1 := st.setBuffer b bb
    if bb.timesAdded = bl.timeFactor then addBaseline c b bl st1 else some st1

/-- `process`, steps/BDAAverager.cc:214-314. -/
def process (c : Config F) (st : State F D) (s : Slot F D) : Option (State F D) := do
  let st1 := if st.current.isNone then initializeBuffer c st else st
  let st2 ← (List.range c.baselines.length).foldlM (processBaseline c s) st1
  some (match st2.current with
    | some o => if o.remaining = 0 then send st2 else st2
    | none => st2)

/-- The loop body of `finish` for one baseline, steps/BDAAverager.cc:317-324. -/
def finishBaseline (c : Config F) (st : State F D) (b : Nat) : Option (State F D) :=
  match c.baselines[b]? with
  | none => some st
  | some bl =>
    if (st.buffers b).timesAdded > 0 then
      addBaseline c b bl (if st.current.isNone then initializeBuffer c st else st)
    else some st

/-- `finish`, steps/BDAAverager.cc:316-332: all buffers passed on. -/
def finish (c : Config F) (st : State F D) : Option (List (OutBuffer F D)) := do
  let st1 ← (List.range c.baselines.length).foldlM (finishBaseline c) st
  some (match st1.current with
    | some o => if o.capacity - o.remaining > 0 then (send st1).sent else st1.sent
    | none => st1.sent)

/-- Calls to the step: a time slot, or `PushBufferSizeRequest`
(steps/BDAAverager.cc:377-379). -/
inductive Call (F D : Type) where
  | slot (s : Slot F D)
  | request (size : Nat)

/-- One call. -/
def call (c : Config F) (st : State F D) : Call F D → Option (State F D)
  | .slot s => process c st s
  | .request n => some { st with requests := st.requests ++ [n] }

/-- State after construction. -/
def State.init : State F D := ⟨fun _ => .clear, none, [], [], 0⟩

/-- All buffers passed on for a sequence of calls followed by `finish`; `none` if
a row could not be added. -/
def run (c : Config F) (calls : List (Call F D)) : Option (List (OutBuffer F D)) := do
  let st ← calls.foldlM (call c) State.init
  finish c st

end DP3.BdaAverager
