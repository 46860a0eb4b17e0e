import Mathlib.Algebra.Module.Defs
import Mathlib.Algebra.Field.Defs

/-!
Model of the step `steps/Interpolate.cc`, which replaces flagged samples by a
weighted mean of the unflagged samples around them.

* A visibility is an `Option V`: `none` is a non-finite value, `some v` a finite
  value in a vector space `V` over the field `F`.  Sums and products with a
  non-finite value are non-finite; overflow is not modelled.
* A cube is a function of baseline, channel and polarisation; the shape is fixed.
* The kernel values are an arbitrary function of the squared distance.
-/

namespace DP3.Interpolate

/-- The part of a `DPBuffer` the step uses. -/
structure Buffer (V : Type) where
  data : Nat → Nat → Nat → Option V
  flag : Nat → Nat → Nat → Bool

/-- Settings: half the window size (the window size is odd,
steps/Interpolate.cc:32-34), the kernel as a function of the squared distance, and
the shape of the data. -/
structure Config (F : Type) where
  half : Nat
  gauss : Nat → F
  nBaselines : Nat
  nChannels : Nat
  nPol : Nat

variable {F V : Type}

/-- `window_size_`. -/
def Config.window (c : Config F) : Nat := 2 * c.half + 1

/-- `kernel_lookup_`, steps/Interpolate.cc:36-47. -/
def Config.kernelLookup (c : Config F) : List F :=
  (List.range c.window).flatMap fun (t : Nat) =>
    (List.range c.window).map fun (ch : Nat) =>
      let y : Int := (t : Int) - (c.half : Int)
      let x : Int := (ch : Int) - (c.half : Int)
      c.gauss (x * x + y * y).toNat

/-- First and one past last index of the window around `i` in `n` elements,
steps/Interpolate.cc:174-181. -/
def Config.windowBegin (c : Config F) (i : Nat) : Nat :=
  if i > c.window / 2 then i - c.window / 2 else 0

/-- See `windowBegin`. -/
def Config.windowEnd (c : Config F) (i n : Nat) : Nat := min (i + c.window / 2 + 1) n

/-- The indices in the window. -/
def Config.windowIndices (c : Config F) (i n : Nat) : List Nat :=
  List.range' (c.windowBegin i) (c.windowEnd i n - c.windowBegin i)

variable [Field F] [DecidableEq F] [AddCommGroup V] [Module F V]

/-- `value_sum += *data * w`; a non-finite operand gives a non-finite sum. -/
def addScaled (sum : Option V) (w : F) (d : Option V) : Option V :=
  match sum, d with
  | some s, some v => some (s + w • v)
  | _, _ => none

/-- The loop body at steps/Interpolate.cc:196-201.  Reading outside the kernel
table would be undefined behaviour; it is `none` here. -/
def addCell (c : Config F) (bufs : List (Buffer V)) (timestep bl chan pol : Nat)
    (acc : Option (Option V × F)) (cell : Nat × Nat) : Option (Option V × F) :=
  match acc, bufs[cell.1]? with
  | some (valueSum, windowSum), some b =>
    if b.flag bl cell.2 pol then some (valueSum, windowSum)
    else
      let row := c.window * (cell.1 + c.window / 2 - timestep)
      match c.kernelLookup[row + (cell.2 + c.window / 2 - chan)]? with
      | some w => some (addScaled valueSum w (b.data bl cell.2 pol), windowSum + w)
      | none => none
  | _, _ => none

/-- The cells visited for a sample, in order, steps/Interpolate.cc:186 and 195. -/
def cells (c : Config F) (nTimes timestep chan : Nat) : List (Nat × Nat) :=
  (c.windowIndices timestep nTimes).flatMap fun t =>
    (c.windowIndices chan c.nChannels).map fun ch => (t, ch)

/-- The value assigned at steps/Interpolate.cc:213-217; the outer `none` is an
access outside an array. -/
def resultOf (acc : Option (Option V × F)) : Option (Option V) :=
  acc.map fun p => if p.2 = 0 then none else p.1.map fun v => p.2⁻¹ • v

/-- Write one data value of a buffer. -/
def Buffer.setData (b : Buffer V) (bl chan pol : Nat) (v : Option V) : Buffer V :=
  { b with data := fun bl' ch' p' => if bl' = bl ∧ ch' = chan ∧ p' = pol then v else b.data bl' ch' p' }

/-- A sample to interpolate: baseline, channel, polarisation. -/
abbrev Sample := Nat × Nat × Nat

/-- The write to `buffers_[timestep]`, steps/Interpolate.cc:209-217. -/
def writeSample (index : Nat) (bufs : List (Buffer V)) (s : Sample) (v : Option V) :
    List (Buffer V) :=
  bufs.modify index (fun b => b.setData s.1 s.2.1 s.2.2 v)

/-- `interpolateSample`, steps/Interpolate.cc:169-218. -/
def interpolateSample (c : Config F) (index : Nat) (bufs : List (Buffer V)) (s : Sample) :
    Option (List (Buffer V)) :=
  (resultOf ((cells c bufs.length index s.2.1).foldl (addCell c bufs index s.1 s.2.1 s.2.2)
    (some (some 0, 0)))).map fun v =>
      writeSample index bufs s v

/-- The samples handed to the threads for a time step: the flagged ones,
steps/Interpolate.cc:144-154. -/
def workList (c : Config F) (b : Buffer V) : List Sample :=
  (List.range c.nBaselines).flatMap fun bl =>
    (List.range c.nChannels).flatMap fun ch =>
      ((List.range c.nPol).filter fun p => b.flag bl ch p).map fun p => (bl, ch, p)

/-- `interpolateTimestep`, steps/Interpolate.cc:131-158, with the samples treated
one by one in order (see `Schedule` for the threads). -/
def interpolateTimestep (c : Config F) (index : Nat) (bufs : List (Buffer V)) :
    Option (List (Buffer V)) :=
  match bufs[index]? with
  | none => none
  | some b => (workList c b).foldlM (interpolateSample c index) bufs

/-- Output of `sendFrontBufferToNextStep`, steps/Interpolate.cc:90-102: flags are
cleared, non-finite values are set to zero and flagged. -/
def output (c : Config F) (b : Buffer V) : Buffer V where
  data bl ch p :=
    if bl < c.nBaselines ∧ ch < c.nChannels ∧ p < c.nPol then
      some ((b.data bl ch p).getD 0)
    else b.data bl ch p
  flag bl ch p :=
    if bl < c.nBaselines ∧ ch < c.nChannels ∧ p < c.nPol then (b.data bl ch p).isNone
    else b.flag bl ch p

/-- Step state: `buffers_` and `interpolated_pos_`. -/
structure State (V : Type) where
  buffers : List (Buffer V)
  pos : Nat

/-- Interpolate time steps `pos` up to (not including) `stop`: the loops at
steps/Interpolate.cc:69-72 and 116-119.  `rounds` is `stop - pos`. -/
def interpolateUpTo (c : Config F) : Nat → State V → Option (State V)
  | 0, st => some st
  | rounds + 1, st =>
    match interpolateTimestep c st.pos st.buffers with
    | none => none
    | some bufs => interpolateUpTo c rounds ⟨bufs, st.pos + 1⟩

/-- `sendFrontBufferToNextStep`, steps/Interpolate.cc:83-110: the buffer passed on
and the new state. -/
def sendFront (c : Config F) (st : State V) : State V × List (Buffer V) :=
  match st.buffers with
  | [] => (st, [])
  | b :: rest => (⟨rest, st.pos - 1⟩, [output c b])

/-- `process`, steps/Interpolate.cc:61-81. -/
def process (c : Config F) (st : State V) (b : Buffer V) : Option (State V × List (Buffer V)) :=
  let st1 : State V := { st with buffers := st.buffers ++ [b] }
  if st1.buffers.length ≥ c.window then
    (interpolateUpTo c (c.window / 2 + 1 - st1.pos) st1).map (sendFront c)
  else some (st1, [])

/-- `finish`, steps/Interpolate.cc:112-127: all buffers passed on. -/
def finish (c : Config F) (st : State V) : Option (List (Buffer V)) :=
  (interpolateUpTo c (st.buffers.length - st.pos) st).map fun st1 => st1.buffers.map (output c)

/-- All buffers passed on for a stream of time slots; `none` if the code accesses
memory outside an array. -/
def run (c : Config F) : State V → List (Buffer V) → Option (List (Buffer V))
  | st, [] => finish c st
  | st, b :: rest =>
    match process c st b with
    | none => none
    | some (st1, out) => (run c st1 rest).map fun more => out ++ more

/-! ### Threads -/

/-- A worker thread treating a sample: the cells still to be read and the sums so
far.  `written` is set after the write at steps/Interpolate.cc:209-217. -/
structure Task (F V : Type) where
  sample : Sample
  todo : List (Nat × Nat)
  acc : Option (Option V × F)
  written : Bool

/-- Start of `interpolateSample` for a sample. -/
def Task.start (c : Config F) (nTimes index : Nat) (s : Sample) : Task F V :=
  ⟨s, cells c nTimes index s.2.1, some (some 0, 0), false⟩

/-- A task reads a cell of the shared buffers and updates its own sums,
steps/Interpolate.cc:196-201. -/
def Task.read (t : Task F V) (c : Config F) (bufs : List (Buffer V)) (index : Nat)
    (cell : Nat × Nat) (rest : List (Nat × Nat)) : Task F V :=
  ⟨t.sample, rest, addCell c bufs index t.sample.1 t.sample.2.1 t.sample.2.2 t.acc cell, t.written⟩

/-- Shared buffers and the tasks in progress. -/
structure Pool (F V : Type) where
  buffers : List (Buffer V)
  tasks : List (Task F V)

/-- One step of task number `i`: it reads one cell, or, when all cells have been
read, writes its result. -/
def Pool.step (c : Config F) (index : Nat) (p : Pool F V) (i : Nat) : Pool F V :=
  match p.tasks[i]? with
  | none => p
  | some t =>
    match t.todo with
    | cell :: rest =>
      { p with tasks := p.tasks.set i (t.read c p.buffers index cell rest) }
    | [] =>
      match resultOf t.acc with
      | none => p
      | some v =>
        { buffers := writeSample index p.buffers t.sample v
          tasks := p.tasks.set i ⟨t.sample, [], t.acc, true⟩ }

/-- Run a schedule: the numbers of the tasks that take the successive steps. -/
def Pool.run (c : Config F) (index : Nat) (p : Pool F V) (schedule : List Nat) : Pool F V :=
  schedule.foldl (Pool.step c index) p

end DP3.Interpolate
