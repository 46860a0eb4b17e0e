import Mathlib.Algebra.Field.Basic
import Mathlib.Algebra.Order.Group.Abs

/-!
# Model of the MADFlagger step

`dp3::steps::MadFlagger` (steps/MadFlagger.cc) flags samples that exceed the median of the
amplitudes in a window of times and channels by more than a number of median absolute deviations.

Simplifications:

* amplitudes are of a linearly ordered field `F`; the constant 1.4826 is a parameter;
* arrays over (baseline, channel, correlation) are functions; the ring buffers `itsBuffers` and
  `itsAmplitudes` are functions of the index that give nothing outside of what was stored;
* a read outside of a vector, of an emptied buffer, or an unsigned underflow is the result `none`;
* `std::nth_element` is an arbitrary function that is asked to meet its contract in the theorems;
* flag counters, timers and threads (every thread has its own `tempBuffer`) are left out; the
  expressions for the window sizes are given as numbers per baseline.
-/

namespace DP3.MadFlagger

/-! ## Window sizes and the window of channels -/

/-- The clipping of a window size in `MadFlagger::getExprValues`: steps/MadFlagger.cc:486-489 (and
494-500): at least 1, at most `maxN`, made odd. -/
def clipWindow (w maxN : Int) : Int :=
  let v := min (max 1 w) maxN
  if v % 2 = 0 then v - 1 else v

/-- The two ranges of channels in `MadFlagger::computeFactors`: steps/MadFlagger.cc:410-422;
`s1`, `e1`, `s2`, `e2`. -/
def channelRanges (window chan nchan : Int) : (Int × Int) × (Int × Int) :=
  let hw := window / 2
  let s1 := chan - hw
  let e1 := chan + hw + 1
  if s1 < 0 then ((0, e1), (1, -s1 + 1))
  else if e1 > nchan then ((s1, nchan), (nchan + nchan - e1 - 1, nchan - 1))
  else ((s1, e1), (1, 1))

/-- The integers from `s` up to `e`: a `for` loop. -/
def loopRange (r : Int × Int) : List Int := (List.range (r.2 - r.1).toNat).map fun (k : Nat) => r.1 + k

/-- The channels visited for one time entry: steps/MadFlagger.cc:434-443. -/
def windowChannels (window chan nchan : Int) : List Int :=
  let r := channelRanges window chan nchan
  loopRange r.1 ++ loopRange r.2

/-! ## The correlations to flag on -/

/-- The loop over the given correlations in `MadFlagger::updateInfo`: steps/MadFlagger.cc:138-143.
The loop variable holds the values of the list, but is used as an index into it. -/
def validCorr (given : List Nat) (ncorr : Nat) : List Nat → Option (List Nat)
  | [] => some []
  | ip :: rest =>
    match given[ip]? with
    | none => none
    | some v => (validCorr given ncorr rest).map fun r => if v < ncorr then v :: r else r

/-- `itsFlagCorr` after `MadFlagger::updateInfo`: steps/MadFlagger.cc:130-151. -/
def flagCorr (given : List Nat) (ncorr : Nat) : Option (List Nat) :=
  if given.isEmpty then some (List.range ncorr)
  else (validCorr given ncorr given).map fun r => if r.isEmpty then [0] else r

/-! ## The ring of time slots -/

/-- A buffer given to the next step, and the buffers used for its medians in the order in which
`timeEntries` lists them. -/
structure Emit (B : Type) where
  buf : B
  window : List B
deriving DecidableEq, Repr

/-- The members for the time window: steps/MadFlagger.h:128-139.  `ring i` holds the buffer of
`itsBuffers[i]` and `itsAmplitudes[i]`, and whether the buffer still has its data (after it was
given to the next step a copy of the flags remains). -/
structure Ring (B : Type) where
  nTimes : Nat
  nDone : Nat
  ring : Nat → Option (B × Bool)

variable {B : Type}

/-- The start of `MadFlagger::flag` and the use of `timeEntries`: steps/MadFlagger.cc:304-306,
424-432.  `tw` is the largest element of `itsTimeWindowArr`, the number of entries that are read. -/
def flagSlot (tw : Nat) (s : Ring B) (index : Nat) (entries : List Nat) :
    Option (Ring B × Emit B) :=
  match s.ring index with
  | some (b, true) =>
    if entries.length < tw then none
    else (entries.mapM fun e => (s.ring e).map Prod.fst).map fun w =>
      ({ s with ring := fun i => if i = index then some (b, false) else s.ring i
                nDone := s.nDone + 1 }, { buf := b, window := w })
  | _ => none

/-- The time entries used in `process` and in the first loop of `finish`:
steps/MadFlagger.cc:186-191, 211-217. -/
def entriesLeft (done window : Nat) : List Nat :=
  (done % window) :: ((List.range (window / 2)).flatMap fun k =>
    [((done : Int) - ((k + 1 : Nat) : Int)).natAbs % window, (done + (k + 1)) % window])

/-- The time entries used in the second loop of `finish`: steps/MadFlagger.cc:224-235. -/
def entriesRight (done window nTimes : Nat) : List Nat :=
  (done % window) :: ((List.range (window / 2)).flatMap fun k =>
    [((done : Int) - ((k + 1 : Nat) : Int)).natAbs % window,
     (if done + (k + 1) ≥ nTimes then 2 * (nTimes - 1) - (done + (k + 1)) else done + (k + 1)) %
       window])

/-- `MadFlagger::process`: steps/MadFlagger.cc:156-197. -/
def process (tw window : Nat) (s : Ring B) (b : B) : Option (Ring B × List (Emit B)) :=
  let s1 : Ring B :=
    { nTimes := s.nTimes + 1, nDone := s.nDone
      ring := fun i => if i = s.nTimes % window then some (b, true) else s.ring i }
  if s1.nTimes > window / 2 then
    (flagSlot tw s1 (s1.nDone % window) (entriesLeft s1.nDone window)).map fun r => (r.1, [r.2])
  else some (s1, [])

/-- The first loop of `MadFlagger::finish`: steps/MadFlagger.cc:209-220, with fuel. -/
def finishLeft (tw window : Nat) : Nat → Ring B → Option (Ring B × List (Emit B))
  | 0, s => some (s, [])
  | k + 1, s =>
    if s.nDone + window / 2 < s.nTimes then
      (flagSlot tw s s.nDone (entriesLeft s.nDone window)).bind fun r =>
        (finishLeft tw window k r.1).map fun q => (q.1, r.2 :: q.2)
    else some (s, [])

/-- The second loop of `MadFlagger::finish`: steps/MadFlagger.cc:223-238, with fuel. -/
def finishRight (tw window : Nat) : Nat → Ring B → Option (Ring B × List (Emit B))
  | 0, s => some (s, [])
  | k + 1, s =>
    if s.nDone < s.nTimes then
      (flagSlot tw s (s.nDone % window) (entriesRight s.nDone window s.nTimes)).bind fun r =>
        (finishRight tw window k r.1).map fun q => (q.1, r.2 :: q.2)
    else some (s, [])

/-- `MadFlagger::finish`: steps/MadFlagger.cc:199-242.  Without time slots `itsNTimes - 1`
underflows. -/
def finish (tw window : Nat) (s : Ring B) : Option (List (Emit B)) :=
  if s.nTimes = 0 then none
  else
    let w := if s.nTimes < window then 1 + ((s.nTimes - 1) / 2) * 2 else window
    (finishLeft tw w s.nTimes s).bind fun r =>
      (finishRight tw w s.nTimes r.1).map fun q => r.2 ++ q.2

/-- Calls of `process` for a sequence of buffers. -/
def processAll (tw window : Nat) : List B → Ring B → Option (Ring B × List (Emit B))
  | [], s => some (s, [])
  | b :: bs, s =>
    (process tw window s b).bind fun r =>
      (processAll tw window bs r.1).map fun q => (q.1, r.2 ++ q.2)

/-- All calls for a sequence of buffers: what the next step receives.  The constructor and
`updateInfo` leave an empty ring: steps/MadFlagger.cc:51-52, 123-128. -/
def run (window : Nat) (bs : List B) : Option (List (Emit B)) :=
  (processAll window window bs { nTimes := 0, nDone := 0, ring := fun _ => none }).bind fun r =>
    (finish window window r.1).map fun q => r.2 ++ q

/-! ## Medians and flagging -/

section Flag

variable {F : Type} [Field F] [LinearOrder F]

/-- `common::Median`: common/Median.h:17-31; the result and the reordered vector. `nth v k` is the
vector after `std::nth_element(begin, begin + k, end)`. -/
def median (nth : List F → Nat → List F) (v : List F) : F × List F :=
  if v.isEmpty then (0, v)
  else
    let v1 := nth v (v.length / 2)
    let target := v1.getD (v.length / 2) 0
    if v.length % 2 = 1 then (target, v1)
    else
      let v2 := nth v1 (v.length / 2 - 1)
      ((v2.getD (v.length / 2) 0 + v2.getD (v.length / 2 - 1) 0) / 2, v2)

/-- The end of `MadFlagger::computeFactors`: steps/MadFlagger.cc:434-459.  `values` are the
unflagged amplitudes of the window; they are written to the start of `tempBuffer`, whose other
elements keep their values, and the medians are taken over the whole of `tempBuffer`.  The result
is `Z1`, `Z2` and the new contents of `tempBuffer`. -/
def factors (nth : List F → Nat → List F) (temp values : List F) : F × F × List F :=
  if values.isEmpty then (-1, 0, temp)
  else
    let t0 := values ++ temp.drop values.length
    let m1 := median nth t0
    let t1 := m1.2.mapIdx fun i x => if i < values.length then |x - m1.1| else x
    let m2 := median nth t1
    (m1.1, m2.1, m2.2)

/-- One time slot as the flagger sees it: amplitudes and flags by baseline, channel and
correlation. -/
structure Slot (F : Type) where
  ampl : Nat → Int → Nat → F
  flag : Nat → Int → Nat → Bool

/-- The unflagged amplitudes in the window: steps/MadFlagger.cc:423-444.  `slots` are the buffers of
the first `itsTimeWindowArr[bl]` time entries. -/
def windowValues (slots : List (Slot F)) (bl : Nat) (chans : List Int) (corr : Nat) : List F :=
  slots.flatMap fun s => chans.filterMap fun c => if s.flag bl c corr then none else some (s.ampl bl c corr)

/-- The loop over the correlations in `MadFlagger::flagBaseline` for one baseline and channel:
steps/MadFlagger.cc:264-286.  The result is `corrIsFlagged` and the new `tempBuffer`. -/
def flagChannel (nth : List F → Nat → List F) (mad threshold : F) (slot : Slot F)
    (slots : List (Slot F)) (bl : Nat) (chan : Int) (chans : List Int) :
    List Nat → List F → Bool × List F
  | [], temp => (false, temp)
  | ip :: rest, temp =>
    if slot.flag bl chan ip then (true, temp)
    else
      let f := factors nth temp (windowValues slots bl chans ip)
      if slot.ampl bl chan ip > f.1 + threshold * f.2.1 * mad then (true, f.2.2)
      else flagChannel nth mad threshold slot slots bl chan chans rest f.2.2

/-- The application of the autocorrelation flags to a baseline in `MadFlagger::flag`:
steps/MadFlagger.cc:357-390 for one baseline and channel: the new flag of a correlation.  `flag` are
the flags after `flagBaseline`, `auto a` is `itsAutoCorrIndex[a]`, `inRange` whether the length of
the baseline is within the given limits. -/
def applyAuto (flag : Nat → Int → Nat → Bool) (auto : Nat → Int) (ant1 ant2 : Nat → Nat)
    (inRange : Bool) (bl : Nat) (chan : Int) (corr : Nat) : Bool :=
  if ant1 bl ≠ ant2 bl ∧ inRange then
    let inx1 := auto (ant1 bl)
    let inx2 := auto (ant2 bl)
    if inx1 ≥ 0 ∨ inx2 ≥ 0 then
      let inx1' := if inx1 < 0 then inx2 else inx1
      let inx2' := if inx1 < 0 then inx2 else if inx2 < 0 then inx1 else inx2
      if !flag bl chan 0 && (flag inx1'.toNat chan 0 || flag inx2'.toNat chan 0) then true
      else flag bl chan corr
    else flag bl chan corr
  else flag bl chan corr

end Flag

end DP3.MadFlagger
