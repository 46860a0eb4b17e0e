import Mathlib.Algebra.Order.Ring.Rat
import Mathlib.Algebra.Field.Rat
import Mathlib.Algebra.Order.Floor.Defs
import Mathlib.Data.Rat.Floor

/-!
# The step that makes images while data are processed

Models steps/ImageStep.cc. WSClean itself (wsclean::Image) is not modelled: what counts are the in-memory measurement sets and the names
that it is called with. Times and intervals are rational numbers, visibilities and weights are elements of any types.
-/

namespace DP3.ImageStep

/-- A buffer: per baseline the visibilities of all channels and polarizations, with weights and flags, and the uvw coordinates. -/
structure Buffer (V W U : Type) where
  time : ℚ
  data : List (List V)
  weights : List (List W)
  flags : List (List Bool)
  uvw : List U

/-- wsclean::InMemoryRow, as filled in steps/ImageStep.cc:169-188. -/
structure Row (V W U : Type) where
  antenna1 : Nat
  antenna2 : Nat
  time : ℚ
  interval : ℚ
  data : List V
  weights : List W
  uvw : U
  deriving DecidableEq

/-- What the step knows about the data: the time interval and the antennas of the baselines. -/
structure Info where
  interval : ℚ
  startTime : ℚ
  ant1 : List Nat
  ant2 : List Nat
  names : List String

/-- wsclean::InMemoryMs: the meta data of steps/ImageStep.cc:128-138, and the rows. Polarizations and channels, which are copied in the same
way, are left out. -/
structure Ms (V W U : Type) where
  startTime : ℚ
  names : List String
  rows : List (Row V W U)
  deriving DecidableEq

/-- Rounding halves away from zero, for a number that is not negative; `std::round` in steps/ImageStep.cc:43. -/
def roundNat (x : ℚ) : Nat := ⌊x + 1 / 2⌋₊

/-- `updateInfo`, steps/ImageStep.cc:33-47: the number of time slots per image; `none` is an exception. -/
def perImage (cadence interval : ℚ) : Option Nat := if cadence < interval then none else some (roundNat (cadence / interval))

/-- `setAntUsed`, base/DPInfo.cc:273-291: the antennas that are in a baseline, in order. Numbers of antennas that are too high are refused there. -/
def usedAntennas (info : Info) : List Nat := (List.range info.names.length).filter fun i => decide (i ∈ info.ant1 ∨ i ∈ info.ant2)

/-- `GetUsedAntennaNames`, base/DPInfo.cc:454-461. -/
def usedNames (info : Info) : List String := (usedAntennas info).filterMap fun i => info.names[i]?

/-- `InitializeInMemoryMs`, steps/ImageStep.cc:120-159. -/
def initMs (V W U : Type) (info : Info) : Ms V W U := ⟨info.startTime, usedNames info, []⟩

/-- Weights of flagged data are zero, steps/ImageStep.cc:85-86. -/
def zeroFlagged {W : Type} [Zero W] (weights : List (List W)) (flags : List (List Bool)) : List (List W) :=
  List.zipWith (fun ws fs => List.zipWith (fun w f => if f then 0 else w) ws fs) weights flags

/-- The row of a baseline, steps/ImageStep.cc:169-188; `none` is an access out of range. -/
def rowOf {V W U : Type} [Zero W] (info : Info) (b : Buffer V W U) (bl : Nat) : Option (Row V W U) := do
  let a1 ← info.ant1[bl]?
  let a2 ← info.ant2[bl]?
  let d ← b.data[bl]?
  let w ← (zeroFlagged b.weights b.flags)[bl]?
  let u ← b.uvw[bl]?
  pure ⟨a1, a2, b.time, info.interval, d, w, u⟩

/-- `AddCurrentBufferToInMemoryMs`, steps/ImageStep.cc:161-190. -/
def addBuffer {V W U : Type} [Zero W] (info : Info) (b : Buffer V W U) (ms : Ms V W U) : Option (Ms V W U) :=
  ((List.range b.data.length).mapM (rowOf info b)).map fun rows => { ms with rows := ms.rows ++ rows }

/-- The decimal digits of a number. -/
def digits (n : Nat) : List Nat := if n < 10 then [n] else digits (n / 10) ++ [n % 10]

/-- The number with `setw` and `setfill('0')`, steps/ImageStep.cc:193-198: zeros in front, and longer if the number is. -/
def padded (width n : Nat) : List Nat := List.replicate (width - (digits n).length) 0 ++ digits n

/-- The digit as character. -/
def digitChar (d : Nat) : Char := Char.ofNat (48 + d)

/-- `FormatImageNamePrefix`, steps/ImageStep.cc:192-201. -/
def imageName (fitsPrefix : List Char) (counter : Nat) : List Char := fitsPrefix ++ ['-'] ++ (padded 5 counter).map digitChar

/-- The state of the step, steps/ImageStep.h:82-93, and what was sent to WSClean and to the next step. -/
structure State (V W U : Type) where
  imageCounter : Nat
  counter : Nat
  ms : Option (Ms V W U)
  images : List (List Char × Ms V W U)
  sent : List (Buffer V W U)

/-- The start. -/
def start (V W U : Type) : State V W U := ⟨0, 0, none, [], []⟩

/-- The measurement set that rows are added to, steps/ImageStep.cc:77-83; `none` is a null pointer. -/
def currentMs {V W U : Type} (info : Info) (s : State V W U) : Option (Ms V W U) :=
  if s.counter ≤ 0 then some (initMs V W U info) else s.ms

/-- `process`, steps/ImageStep.cc:74-110; `none` is undefined behaviour. After an image the measurement set is moved from; it is made anew
before it is used again. -/
def process {V W U : Type} [Zero W] (info : Info) (fitsPrefix : List Char) (n : Nat) (s : State V W U) (b : Buffer V W U) :
    Option (State V W U) :=
  (currentMs info s).bind fun ms =>
  (addBuffer info b ms).bind fun ms =>
  if s.counter + 1 ≥ n then
    let name := if fitsPrefix = [] then [] else imageName fitsPrefix s.imageCounter
    some ⟨s.imageCounter + 1, 0, none, s.images ++ [(name, ms)], s.sent ++ [b]⟩
  else
    some ⟨s.imageCounter, s.counter + 1, some ms, s.images, s.sent ++ [b]⟩

/-- All buffers, one after another. -/
def processAll {V W U : Type} [Zero W] (info : Info) (fitsPrefix : List Char) (n : Nat) :
    State V W U → List (Buffer V W U) → Option (State V W U)
  | s, [] => some s
  | s, b :: bs => (process info fitsPrefix n s b).bind fun s => processAll info fitsPrefix n s bs

/-- `finish`, steps/ImageStep.cc:118: nothing is done with what was collected. -/
def finish {V W U : Type} (s : State V W U) : State V W U := s

/-- A whole run. -/
def run {V W U : Type} [Zero W] (info : Info) (fitsPrefix : List Char) (n : Nat) (bs : List (Buffer V W U)) : Option (State V W U) :=
  (processAll info fitsPrefix n (start V W U) bs).map finish

end DP3.ImageStep
