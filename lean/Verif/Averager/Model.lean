import Mathlib.Algebra.Module.Defs
import Mathlib.Algebra.Field.Defs
import Mathlib.Algebra.BigOperators.Group.List.Basic

/-!
Model of the step `steps/Averager.cc` (averaging in time and frequency).

* Weights, times and UVW values are elements of a field `F`; visibilities are
  elements of a vector space `D` over `F` (complex numbers over the reals).
* A cube is a function of baseline, channel and correlation; the shape is fixed
  (the check at steps/Averager.cc:188-191 is not modelled).
* The parallel loop over baselines (line 268) writes disjoint output elements and
  is modelled by the pointwise definition.
* Times and exposure of the output (lines 157-161) are not modelled.
-/

namespace DP3.Averager

/-- One visibility with its weight and flag. -/
structure Sample (F D : Type) where
  data : D
  weight : F
  flag : Bool

/-- The part of a `DPBuffer` the step uses: UVW per baseline and coordinate, and
the data, weights and flags cubes (baseline, channel, correlation). -/
structure Slot (F D : Type) where
  uvw : Nat → Nat → F
  sample : Nat → Nat → Nat → Sample F D

/-- The accumulated members `itsBuf` (uvw, data, weights), `itsNPoints`,
`itsAvgAll`, `itsWeightAll`. -/
structure Acc (F D : Type) where
  uvw : Nat → Nat → F
  data : Nat → Nat → Nat → D
  weight : Nat → Nat → Nat → F
  nPoints : Nat → Nat → Nat → Nat
  avgAll : Nat → Nat → Nat → D
  weightAll : Nat → Nat → Nat → F

/-- Settings: `itsNChanAvg`, `itsNTimeAvg`, `itsMinNPoint`, `itsMinPerc`, the
number of input channels, and `itsNoAvg` (steps/Averager.cc:108). -/
structure Config where
  nChanAvg : Nat
  nTimeAvg : Nat
  minPoints : Nat
  minPerc : Rat
  nChanIn : Nat
  noAvg : Bool

variable {F D : Type} [Field F] [DecidableEq F] [AddCommGroup D] [Module F D]

/-- First time slot of a chunk, steps/Averager.cc:147-182. -/
def firstSlot (s : Slot F D) : Acc F D where
  uvw := s.uvw
  data bl ch co := if (s.sample bl ch co).flag then 0
    else (s.sample bl ch co).weight • (s.sample bl ch co).data
  weight bl ch co := if (s.sample bl ch co).flag then 0 else (s.sample bl ch co).weight
  nPoints bl ch co := if (s.sample bl ch co).flag then 0 else 1
  avgAll bl ch co := (s.sample bl ch co).weight • (s.sample bl ch co).data
  weightAll bl ch co := (s.sample bl ch co).weight

/-- A further time slot, steps/Averager.cc:184-217. -/
def addSlot (a : Acc F D) (s : Slot F D) : Acc F D where
  uvw bl i := a.uvw bl i + s.uvw bl i
  data bl ch co := if (s.sample bl ch co).flag then a.data bl ch co
    else a.data bl ch co + (s.sample bl ch co).weight • (s.sample bl ch co).data
  weight bl ch co := if (s.sample bl ch co).flag then a.weight bl ch co
    else a.weight bl ch co + (s.sample bl ch co).weight
  nPoints bl ch co := if (s.sample bl ch co).flag then a.nPoints bl ch co
    else a.nPoints bl ch co + 1
  avgAll bl ch co := a.avgAll bl ch co + (s.sample bl ch co).weight • (s.sample bl ch co).data
  weightAll bl ch co := a.weightAll bl ch co + (s.sample bl ch co).weight

/-- Number of output channels, steps/Averager.cc:255. -/
def Config.nChanOut (c : Config) : Nat := (c.nChanIn + c.nChanAvg - 1) / c.nChanAvg

/-- Input channels of an output channel, steps/Averager.cc:272-275. -/
def Config.channels (c : Config) (chanOut : Nat) : List Nat :=
  let first := chanOut * c.nChanAvg
  (List.range (min c.nChanAvg (c.nChanIn - first))).map fun i => first + i

/-- `average`, steps/Averager.cc:246-314. -/
def average (c : Config) (nTimes : Nat) (a : Acc F D) : Slot F D where
  uvw bl i := a.uvw bl i / (nTimes : F)
  sample bl chanOut corr :=
    let chans := c.channels chanOut
    let nAveragedAll := chans.length * nTimes
    let sumData := (chans.map fun ch => a.data bl ch corr).sum
    let sumAllData := (chans.map fun ch => a.avgAll bl ch corr).sum
    let sumWeights := (chans.map fun ch => a.weight bl ch corr).sum
    let sumAllWeights := (chans.map fun ch => a.weightAll bl ch corr).sum
    let sumNPoints := (chans.map fun ch => a.nPoints bl ch corr).sum
    if sumWeights = 0 ∨ sumNPoints < c.minPoints ∨
        (sumNPoints : Rat) < (nAveragedAll : Rat) * c.minPerc then
      { data := if sumAllWeights = 0 then 0 else sumAllWeights⁻¹ • sumAllData
        weight := sumAllWeights
        flag := true }
    else
      { data := sumWeights⁻¹ • sumData
        weight := sumWeights
        flag := false }

/-- Step state: `itsNTimes` and the accumulated buffer. -/
structure State (F D : Type) where
  nTimes : Nat
  acc : Option (Acc F D)

/-- State after construction. -/
def State.init : State F D := ⟨0, none⟩

/-- Accumulate a slot: start a chunk if none is pending, steps/Averager.cc:147
and 183. -/
def accumulate (st : State F D) (s : Slot F D) : Acc F D :=
  match st.acc with
  | none => firstSlot s
  | some a => if st.nTimes = 0 then firstSlot s else addSlot a s

/-- `process`, steps/Averager.cc:136-231: new state and the buffers passed to the
next step. -/
def process (c : Config) (st : State F D) (s : Slot F D) : State F D × List (Slot F D) :=
  if c.noAvg then (st, [s])
  else
    let acc := accumulate st s
    let n := st.nTimes + 1
    if n ≥ c.nTimeAvg then (⟨0, none⟩, [average c n acc])
    else (⟨n, some acc⟩, [])

/-- `finish`, steps/Averager.cc:233-244. -/
def finish (c : Config) (st : State F D) : List (Slot F D) :=
  match st.acc with
  | none => []
  | some a => if st.nTimes > 0 then [average c st.nTimes a] else []

/-- All buffers passed on for an input stream. -/
def run (c : Config) : State F D → List (Slot F D) → List (Slot F D)
  | st, [] => finish c st
  | st, s :: rest => (process c st s).2 ++ run c (process c st s).1 rest

end DP3.Averager
