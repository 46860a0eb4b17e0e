import Mathlib.Data.List.Basic

/-!
# The windows of the AOFlagger step

A model of steps/AOFlaggerStep.cc (`process`, `flag`, `flagBaseline`, `finish`): time slots are collected until a
window with the overlap is full, the strategy is run on the data of each baseline in the window, the flags are updated
and the first slots of the window go to the next step.

Simplified: the strategy of the AOFlagger library is a function of the baseline and the data of the time slots in the
window. The flag counters are modelled by baseline and channel together; the counters per baseline and per channel of
the code are its sums. Threads are not modelled: each baseline has its own part of the flags.
-/

namespace DP3.AoFlagger

/-- A time slot: its data, and the flags by baseline, channel and correlation. -/
structure Slot (D : Type) where
  data : D
  flags : Nat → Nat → Nat → Bool

/-- The settings. -/
structure Config (D : Type) where
  /-- `window_size_` -/
  window : Nat
  /-- `overlap_` -/
  overlap : Nat
  /-- Whether a baseline is flagged, AOFlaggerStep.cc:315: not for autocorrelations unless told so. -/
  active : Nat → Bool
  /-- The strategy for a baseline, by time in the window and channel, AOFlaggerStep.cc:394. -/
  strategy : Nat → List D → Nat → Nat → Bool

/-- The state of the step: the slots in `buffer_`, what the next step received, the flag counts by baseline and
channel, and the size of the quality statistics. -/
structure State (D : Type) where
  buffer : List (Slot D)
  out : List (Slot D)
  count : Nat → Nat → Nat
  /-- The number of time slots added to the quality statistics of an active baseline. -/
  samples : Nat

section
variable {D : Type}

/-- The flags of the correlations of one point, AOFlaggerStep.cc:403-420. -/
def newFlags (mask : Bool) (flags : Nat → Bool) : Nat → Bool := if !flags 0 && mask then fun _ => true else flags

/-- The slot at `time` of the window with new flags, AOFlaggerStep.cc:398-423. -/
def flagSlot (c : Config D) (datas : List D) (slot : Slot D) (time : Nat) : Slot D :=
  { slot with flags := fun bl ch =>
      if c.active bl then newFlags (c.strategy bl datas time ch) (slot.flags bl ch) else slot.flags bl ch }

/-- Whether a point is counted, AOFlaggerStep.cc:403-415. -/
def counted (c : Config D) (datas : List D) (bl ch : Nat) (slot : Slot D) (time : Nat) : Bool :=
  c.active bl && (!slot.flags bl ch 0 && c.strategy bl datas time ch)

/-- The slots of a window with their new flags, AOFlaggerStep.cc:313-320. -/
def flagSlots (c : Config D) (buffer : List (Slot D)) : List (Slot D) :=
  buffer.zipIdx.map fun p => flagSlot c (buffer.map (·.data)) p.1 p.2

/-- The counts of a window, AOFlaggerStep.cc:322-324. -/
def newCount (c : Config D) (buffer : List (Slot D)) (bl ch : Nat) : Nat :=
  buffer.zipIdx.countP fun p => counted c (buffer.map (·.data)) bl ch p.1 p.2

/-- `flag`, AOFlaggerStep.cc:269-353 and 425-430, with a window of `window` slots and the rest as right
overlap. The statistics get all slots. -/
def flag (c : Config D) (window : Nat) (s : State D) : State D :=
  let flagged := flagSlots c s.buffer
  { buffer := flagged.drop window
    out := s.out ++ flagged.take window
    count := fun bl ch => s.count bl ch + newCount c s.buffer bl ch
    samples := s.samples + s.buffer.length }

/-- `process`, AOFlaggerStep.cc:227-240. -/
def process (c : Config D) (s : State D) (slot : Slot D) : State D :=
  let s' := { s with buffer := s.buffer ++ [slot] }
  if s'.buffer.length = c.window + 2 * c.overlap then flag c c.window s' else s'

/-- `finish`, AOFlaggerStep.cc:242-256. -/
def finish (c : Config D) (s : State D) : State D :=
  if 0 < s.buffer.length then flag c s.buffer.length s else s

/-- A new step, AOFlaggerStep.cc:44-107: nothing in the buffer, no counts. -/
def initial : State D := ⟨[], [], fun _ _ => 0, 0⟩

/-- All slots, and the end: the calls of the previous step, AOFlaggerStep.cc:227-256. -/
def run (c : Config D) (slots : List (Slot D)) : State D := finish c (slots.foldl (process c) initial)

end

end DP3.AoFlagger
