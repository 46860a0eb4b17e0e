import Mathlib.Data.Rat.Floor

/-!
Model of the step `steps/BdaExpander.cc`, which turns baseline-dependent averaged
data into regular data.

* Times, intervals, weights and UVW values are rational numbers; visibilities are
  values of any type `D` (they are only copied).
* All of data, weights and flags are present in the input buffers (the null checks
  at lines 216, 221 and 234 always succeed).
* A row holds its own values (topic `BdaBuffer` shows that rows do not share
  values).
* The key of the map `RB_elements` is an integer; the conversion of a negative
  index to `unsigned int` is not modelled.
* Time and exposure of the output buffer are not modelled.
-/

namespace DP3.BdaExpander

/-- A row of a BDA buffer with its values (averaged channel, correlation). -/
structure Row (D : Type) where
  baseline : Nat
  time : Rat
  interval : Rat
  uvw : Nat → Rat
  data : Nat → Nat → D
  weight : Nat → Nat → Rat
  flag : Nat → Nat → Bool

/-- `RegularBufferElement`, steps/BdaExpander.h:71-78: which baselines were seen,
and the regular buffer (baseline, channel, correlation). -/
structure Element (D : Type) where
  seen : Nat → Bool
  uvw : Nat → Nat → Rat
  data : Nat → Nat → Nat → D
  weight : Nat → Nat → Nat → Rat
  flag : Nat → Nat → Nat → Bool

/-- Settings: number of baselines, channels, start time and interval of the output,
`channels_mapping_`, and the test `casacore::near` of line 119 for a row interval. -/
structure Config where
  nBaselines : Nat
  startTime : Rat
  interval : Rat
  mapping : Nat → List Nat
  near : Rat → Bool

/-- Number of output intervals in a duration: conversion to `int` truncates,
steps/BdaExpander.cc:105-108. -/
def nOutIntervals (c : Config) (duration : Rat) : Int :=
  let q := (duration + c.interval / 2) / c.interval
  if 0 ≤ q then ⌊q⌋ else ⌈q⌉

variable {D : Type}

/-- Start of a row relative to the start time, steps/BdaExpander.cc:111-113. -/
def relativeStart (c : Config) (r : Row D) : Rat := r.time - r.interval / 2 - c.startTime

/-- Time averaging factor of a row, steps/BdaExpander.cc:119, 135 and 142. -/
def factor (c : Config) (r : Row D) : Nat :=
  if c.near r.interval then 1 else (nOutIntervals c r.interval).toNat

/-- Indices of the time slots a row is copied to, steps/BdaExpander.cc:112-113 and
143-147. -/
def slotIndices (c : Config) (r : Row D) : List Int :=
  if c.near r.interval then [nOutIntervals c (relativeStart c r)]
  else (List.range (factor c r)).map fun (i : Nat) =>
    nOutIntervals c (relativeStart c r + (i : Rat) * c.interval)

/-- Constructor of `RegularBufferElement`, steps/BdaExpander.cc:246-264. -/
def Element.init (zero : D) : Element D :=
  ⟨fun _ => false, fun _ _ => 0, fun _ _ _ => zero, fun _ _ _ => 0, fun _ _ _ => false⟩

/-- `CopyData` and the line before its call, steps/BdaExpander.cc:134-135, 160-162
and 195-244.  Channels without an entry in the mapping are read out of bounds in
the code; they are left as they are here. -/
def copyData (c : Config) (r : Row D) (timeFactor : Nat) (e : Element D) : Element D where
  seen b := if b = r.baseline then true else e.seen b
  uvw b i := if b = r.baseline then r.uvw i else e.uvw b i
  data b chan corr := if b = r.baseline then
      match (c.mapping b)[chan]? with
      | some j => r.data j corr
      | none => e.data b chan corr
    else e.data b chan corr
  weight b chan corr := if b = r.baseline then
      match (c.mapping b)[chan]? with
      | some j => r.weight j corr / ((timeFactor * (c.mapping b).count j : Nat) : Rat)
      | none => e.weight b chan corr
    else e.weight b chan corr
  flag b chan corr := if b = r.baseline then
      match (c.mapping b)[chan]? with
      | some j => r.flag j corr
      | none => e.flag b chan corr
    else e.flag b chan corr

/-- `RB_elements`: a map as an association list. -/
abbrev Elements (D : Type) := List (Int × Element D)

/-- `std::map::find`. -/
def find (m : Elements D) (k : Int) : Option (Element D) :=
  (m.find? fun p => p.1 == k).map Prod.snd

/-- Find or create the element of slot `k` and copy the row to it,
steps/BdaExpander.cc:120-135 and 149-162. -/
def addToSlot (c : Config) (zero : D) (r : Row D) (m : Elements D) (k : Int) : Elements D :=
  let m1 := if (find m k).isNone then m ++ [(k, Element.init zero)] else m
  m1.map fun p => if p.1 == k then (p.1, copyData c r (factor c r) p.2) else p

/-- Copy a row to all its slots, steps/BdaExpander.cc:110-165. -/
def addRow (c : Config) (zero : D) (m : Elements D) (r : Row D) : Elements D :=
  (slotIndices c r).foldl (addToSlot c zero r) m

/-- Whether all baselines of an element were seen, steps/BdaExpander.cc:171-173. -/
def complete (c : Config) (e : Element D) : Bool := (List.range c.nBaselines).all e.seen

/-- Step state: `RB_elements`, `next_time_slot_to_process_`. -/
structure State (D : Type) where
  elements : Elements D
  next : Nat

/-- The loop at steps/BdaExpander.cc:169-182; every round removes an element, so
the number of elements bounds the number of rounds. -/
def emit (c : Config) : Nat → State D → State D × List (Element D)
  | 0, st => (st, [])
  | fuel + 1, st =>
    match find st.elements (st.next : Int) with
    | none => (st, [])
    | some e =>
      if complete c e then
        let rest := emit c fuel ⟨st.elements.filter fun p => !(p.1 == (st.next : Int)), st.next + 1⟩
        (rest.1, e :: rest.2)
      else (st, [])

/-- `process`, steps/BdaExpander.cc:99-186: new state and buffers passed on. -/
def process (c : Config) (zero : D) (st : State D) (rows : List (Row D)) :
    State D × List (Element D) :=
  let m := rows.foldl (addRow c zero) st.elements
  emit c m.length ⟨m, st.next⟩

/-- All buffers passed on for a sequence of BDA buffers; `finish`
(steps/BdaExpander.cc:188-193) passes on nothing. -/
def run (c : Config) (zero : D) (st : State D) : List (List (Row D)) → List (Element D)
  | [] => []
  | rows :: rest =>
    (process c zero st rows).2 ++ run c zero (process c zero st rows).1 rest

/-- The channel mapping of a baseline, steps/BdaExpander.cc:63-82: averaged channel
`i` stands for `counts[i]` channels. -/
def buildMapping (counts : List Nat) : List Nat :=
  (List.range counts.length).flatMap fun i =>
    if counts[i]?.getD 0 = 1 then [i] else List.replicate (counts[i]?.getD 0) i

end DP3.BdaExpander
