import Mathlib.Order.Defs.LinearOrder
import Mathlib.Data.List.Basic

/-!
# The clipper

A model of steps/Clipper.cc (`process`): every `timestep` buffers it predicts the visibilities for a part of the
baselines and every `freqstep`-th channel, and flags what is predicted to be too bright. The result is used for all
channels, and for the buffers up to the next prediction.

Simplified: the prediction itself (its amplitudes) is an input of the model. Flags and amplitudes are functions of
baseline, channel and correlation; the dimensions are given separately.
-/

namespace DP3.Clipper

/-- Flags by baseline, channel and correlation. -/
abbrev Flags := Nat → Nat → Nat → Bool

/-- The settings, Clipper.cc:20-28, and the dimensions. -/
structure Config (K : Type) where
  timeStep : Nat
  freqStep : Nat
  allCorrelations : Bool
  maxAmplitude : K
  nChannels : Nat
  nCorrelations : Nat

/-- The part of a buffer that the clipper uses; the last two are the result of the sub-steps for this buffer. -/
structure Buffer (K : Type) where
  /-- `GetRowNumbers` -/
  rows : List Nat
  flags : Flags
  /-- The row numbers of the filtered baselines. -/
  filteredRows : List Nat
  /-- The number of filtered baselines. -/
  nFiltered : Nat
  /-- The predicted amplitudes by filtered baseline, predicted channel and correlation. -/
  amplitudes : Nat → Nat → Nat → K

/-- The inner loop, Clipper.cc:128-130, on the row numbers from `index`; none if it goes beyond the end. -/
def advance (filterRow : Nat) : List Nat → Nat → Option Nat
  | [], _ => none
  | row :: rows, index => if row < filterRow then advance filterRow rows (index + 1) else some index

/-- Clipper.cc:126-133: the indices in the buffer of the filtered rows. -/
def rowIndices (rows : List Nat) : List Nat → Nat → Option (List Nat)
  | [], _ => some []
  | filterRow :: filterRows, index =>
    match advance filterRow (rows.drop index) index with
    | none => none
    | some found => (rowIndices rows filterRows (found + 1)).map (found :: ·)

section
variable {K : Type} [LinearOrder K]

/-- The number of predicted channels, Clipper.cc:72-73 and 142-143. -/
def nPredicted (c : Config K) : Nat := (c.nChannels + c.freqStep - 1) / c.freqStep

/-- Whether one amplitude is too large, Clipper.cc:149. -/
def exceeds (c : Config K) (amplitudes : Nat → Nat → Nat → K) (channel bl corr : Nat) : Bool :=
  decide (c.maxAmplitude < amplitudes bl channel corr)

/-- `result_flags` for one predicted channel, Clipper.cc:148-165. -/
def resultFlags (c : Config K) (amplitudes : Nat → Nat → Nat → K) (channel bl corr : Nat) : Bool :=
  if c.allCorrelations then (List.range c.nCorrelations).any (exceeds c amplitudes channel bl)
  else exceeds c amplitudes channel bl corr

/-- One row of one channel is assigned, Clipper.cc:167-171. -/
def assignRow (channel : Nat) (result : Nat → Nat → Bool) (flags : Flags) (p : Nat × Nat) : Flags :=
  fun bl ch corr => if bl = p.1 ∧ ch = channel then result p.2 corr else flags bl ch corr

/-- One channel is assigned, Clipper.cc:167-171. -/
def assignRows (indices : List Nat) (channel : Nat) (result : Nat → Nat → Bool) (flags : Flags) : Flags :=
  indices.zipIdx.foldl (assignRow channel result) flags

/-- The channels of one predicted channel, Clipper.cc:145-147 and 166-172. -/
def assignChannels (c : Config K) (indices : List Nat) (amplitudes : Nat → Nat → Nat → K) (flags : Flags)
    (channel : Nat) : Flags :=
  (List.range (min c.freqStep (c.nChannels - channel * c.freqStep))).foldl
    (fun flags i => assignRows indices (channel * c.freqStep + i) (resultFlags c amplitudes channel) flags) flags

/-- `last_flags_` after a prediction, Clipper.cc:117-173. None stands for an index beyond the row numbers or a
different number of rows in the assignment. -/
def predictFlags (c : Config K) (b : Buffer K) : Option Flags :=
  match rowIndices b.rows b.filteredRows 0 with
  | none => none
  | some indices =>
    if indices.length = b.nFiltered then
      some ((List.range (nPredicted c)).foldl (assignChannels c indices b.amplitudes) fun _ _ _ => false)
    else none

/-- The state of the step: `counter_` and `last_flags_`. -/
structure State where
  counter : Nat
  lastFlags : Flags

/-- The state of a new step, Clipper.cc:22. -/
def initial : State := ⟨0, fun _ _ _ => false⟩

/-- The flags after the prediction, if there is one, Clipper.cc:107 and 174. -/
def nextFlags (c : Config K) (s : State) (b : Buffer K) : Option State :=
  if s.counter % c.timeStep = 0 then (predictFlags c b).map fun flags => ⟨0, flags⟩ else some s

/-- process, Clipper.cc:104-182: the new state and the flags of the buffer. -/
def process (c : Config K) (s : State) (b : Buffer K) : Option (State × Flags) :=
  (nextFlags c s b).map fun s =>
    (⟨s.counter + 1, s.lastFlags⟩, fun bl ch corr => b.flags bl ch corr || s.lastFlags bl ch corr)

/-- All buffers. -/
def run (c : Config K) : State → List (Buffer K) → Option (List Flags)
  | _, [] => some []
  | s, b :: bs =>
    match process c s b with
    | none => none
    | some r => (run c r.1 bs).map (r.2 :: ·)

end

end DP3.Clipper
