import Mathlib.Algebra.Order.Field.Basic
import Mathlib.Algebra.Order.Group.Abs
import Mathlib.Algebra.Order.Floor.Defs

/-!
Model of parts of `steps/MsReader.cc`: the walk over the time slots of the
measurement set (`process`), the time selection (`ParseTimeSelection`,
`SkipFirstTimes`), the flagging of invalid data (`FlagInfinityNan`) and the channel
selection (`ParseChannelSelection`).

Times are elements of an ordered field, so rounding is not modelled.  The comparison
`casacore::near(a, b)`, which has a relative tolerance of 1e-13, is modelled as a
comparison with an absolute tolerance `endTol` in `process` and as equality in
`SkipFirstTimes`.  Table access is not modelled: the table iterator is the list of
its time slots.
-/

namespace DP3.MsReader

/-- A time slot of the measurement set: its time and its rows. -/
structure MsSlot (F R : Type) where
  time : F
  rows : R

/-- A buffer passed on: its time, and the rows it was read from, or `none` for an
inserted, fully flagged time slot without row numbers (steps/MsReader.cc:238-249). -/
structure Out (F R : Type) where
  time : F
  rows : Option R

/-- `firstTime()`, `lastTime()`, `timeInterval()` of the output info,
`time_tolerance_`, and the tolerance of `casacore::near` on the last time. -/
structure Config (F : Type) where
  first : F
  last : F
  interval : F
  tol : F
  endTol : F

/-- Reader state; `count` is `n_read_ + n_inserted_`. -/
structure State (F R : Type) where
  ms : List (MsSlot F R)
  next : F
  prev : F
  correction : F
  count : Nat

variable {F R : Type} [Field F] [LinearOrder F]

/-- `casacore::nearAbs`. -/
def nearAbs (a b tol : F) : Prop := |b - a| ≤ tol

instance (a b tol : F) : Decidable (nearAbs a b tol) := by unfold nearAbs; infer_instance

/-- The loop at steps/MsReader.cc:196-226: the remaining slots, `previous_time_`,
and, if the slot at the front is to be used, the time to use for it. -/
def scan (c : Config F) (correctedFirst next : F) :
    List (MsSlot F R) → F → List (MsSlot F R) × F × Option F
  | [], prev => ([], prev, none)
  | s :: rest, prev =>
    if s.time < prev then scan c correctedFirst next rest s.time
    else if nearAbs s.time next c.tol then (s :: rest, prev, some next)
    else if s.time > correctedFirst ∧ s.time < next then (s :: rest, prev, some s.time)
    else if s.time > next then (s :: rest, prev, none)
    else scan c correctedFirst next rest s.time

/-- `process`, steps/MsReader.cc:169-369, as far as times and rows are concerned;
`none` when it returns false. -/
def process (c : Config F) (st : State F R) : Option (State F R × Out F R) :=
  let r := scan c (c.first + st.correction) st.next st.ms st.prev
  match r.2.2 with
  | some t =>
    if (t > c.last ∧ ¬ nearAbs t c.last c.endTol) ∨ t = 0 then none
    else
      let correction := st.correction - (st.next - t)
      some (⟨r.1.tail, c.first + correction + ((st.count + 1 : Nat) : F) * c.interval, t, correction,
        st.count + 1⟩, ⟨t, r.1.head?.map fun s => s.rows⟩)
  | none =>
    if (st.next > c.last ∧ ¬ nearAbs st.next c.last c.endTol) ∨ st.next = 0 then none
    else
      some (⟨r.1, c.first + st.correction + ((st.count + 1 : Nat) : F) * c.interval, r.2.1,
        st.correction, st.count + 1⟩, ⟨st.next, none⟩)

/-- Call `process` until it returns false, at most `fuel` times; the second component
tells whether it returned false. -/
def run (c : Config F) : Nat → State F R → List (Out F R) × Bool
  | 0, _ => ([], false)
  | fuel + 1, st =>
    match process c st with
    | none => ([], true)
    | some (st1, o) => ((o :: (run c fuel st1).1), (run c fuel st1).2)

/-- State after the constructor, steps/MsReader.cc:534 and MsReader.h:242-246. -/
def start (c : Config F) (ms : List (MsSlot F R)) (prev : F) : State F R :=
  ⟨ms, c.first, prev, 0, 0⟩

/-- `n_times_`, base/DPInfo.cc:80. -/
def nTimes [FloorRing F] (c : Config F) : Int := ⌊(c.last - c.first) / c.interval + 3 / 2⌋

/-! ### Time selection -/

/-- `SkipFirstTimes`, steps/MsReader.cc:865-895: the new first time and
`previous_time_` and the remaining slots. -/
def skipFirstTimes [FloorRing F] (interval first : F) :
    List (MsSlot F R) → F → F × F × List (MsSlot F R)
  | [], prev => (first, prev, [])
  | s :: rest, prev =>
    if s.time < prev then skipFirstTimes interval first rest s.time
    else if s.time = first then (s.time, prev, s :: rest)
    else if s.time > first then
      let msTime := s.time - (⌊(s.time - first) / interval⌋ : F) * interval
      (if first = msTime - interval then msTime - interval else msTime, prev, s :: rest)
    else skipFirstTimes interval first rest s.time

/-- `ParseTimeSelection` with a start and an end time, steps/MsReader.cc:468-485 and
501-535: the configuration and state for `process`.  `none`: an exception, or no
data.  `msFirst`, `msLast` are the times of the first and last slot of the
measurement set. -/
def selectTimes [FloorRing F] (msFirst msLast interval tol endTol startTime endTime : F)
    (ms : List (MsSlot F R)) : Option (Config F × State F R) :=
  if startTime > msLast then none
  else
    let r := skipFirstTimes interval startTime ms 0
    if r.2.2.isEmpty then none
    else if endTime < msFirst - interval / 2 then none
    else
      let last := r.1 + (⌊(endTime - r.1) / interval⌋ : F) * interval
      if last < r.1 then none
      else some (⟨r.1, last, interval, tol, endTol⟩, ⟨r.2.2, r.1, r.2.1, 0, 0⟩)

/-! ### Invalid data -/

/-- The loop at steps/MsReader.cc:384-386. -/
def fillTrue (flags : Nat → Bool) (i n : Nat) : Nat → Bool :=
  fun k => if i ≤ k ∧ k < i + n then true else flags k

/-- The loop at steps/MsReader.cc:376-389 over `n` remaining correlations from index
`j` of the visibility that starts at `i`: flags and counters per correlation. -/
def flagVisibility (finite : Nat → Bool) (ncorr i : Nat) :
    Nat → Nat → (Nat → Bool) × (Nat → Nat) → (Nat → Bool) × (Nat → Nat)
  | 0, _, st => st
  | n + 1, j, (flags, counts) =>
    let bad := !finite j
    let counts1 := if bad then fun k => if k = j - i then counts k + 1 else counts k else counts
    if bad || flags j then (fillTrue flags i ncorr, counts1)
    else flagVisibility finite ncorr i n (j + 1) (flags, counts1)

/-- `FlagInfinityNan`, steps/MsReader.cc:371-391, for `nvis` visibilities of `ncorr`
correlations.  `finite k` tells whether data value `k` is finite. -/
def flagInfinityNan (finite : Nat → Bool) (nvis ncorr : Nat) (flags : Nat → Bool)
    (counts : Nat → Nat) : (Nat → Bool) × (Nat → Nat) :=
  (List.range nvis).foldl
    (fun st v => flagVisibility finite ncorr (v * ncorr) ncorr (v * ncorr) st) (flags, counts)

/-- The flags after reading a time slot that exists, steps/MsReader.cc:301-329.  When
no visibilities are read, the data array is empty and `FlagInfinityNan` loops over
nothing. -/
def readFlags (readData : Bool) (finite : Nat → Bool) (nvis ncorr : Nat) (flags : Nat → Bool)
    (counts : Nat → Nat) : (Nat → Bool) × (Nat → Nat) :=
  flagInfinityNan finite (if readData then nvis else 0) ncorr flags counts

/-! ### Channel selection -/

/-- `ParseChannelSelection`, steps/MsReader.cc:537-561, given the values of the two
expressions (not negative); `none`: an exception. -/
def parseChannelSelection [FloorRing F] (startValue nValue : F) (nAll : Nat) :
    Option (Nat × Nat) :=
  let start := ⌊startValue + 1 / 1000⌋₊
  let n := ⌊nValue + 1 / 10000⌋₊
  if start ≥ nAll then none
  else
    let maxN := nAll - start
    some (start, if n = 0 then maxN else min n maxN)

end DP3.MsReader
