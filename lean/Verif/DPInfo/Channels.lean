import Mathlib.Algebra.Field.Basic
import Mathlib.Algebra.Order.Floor.Defs
import Mathlib.Algebra.Order.Floor.Semiring

/-!
# Model of the channel and time bookkeeping of `DPInfo`

The functions `setTimes`, `setChannels`, `update` and `SelectChannels` of `dp3::base::DPInfo`
(base/DPInfo.cc) for regular data; the per-baseline channel layout of baseline-dependent
averaging, for which `update` and `SelectChannels` throw, is not modelled here.

Simplifications: `double` is an ordered field `F` with a floor; `unsigned int` is `Nat`; an
exception, a failing assertion and a division by zero are the result `none`; the spectral window
number is left out.
-/

namespace DP3.DPInfo

variable {F : Type} [Field F] [LinearOrder F] [FloorSemiring F]

/-- The members of `DPInfo` for channels and times: base/DPInfo.h:344-354, 370-375. -/
structure Axes (F : Type) where
  nChannels : Nat
  startChannel : Nat
  /-- `channel_averaging_factor_` -/
  chanFactor : Nat
  /-- `channel_frequencies_.front()` -/
  freqs : List F
  widths : List F
  resols : List F
  /-- `effective_bandwidth_.front()` -/
  effBW : List F
  totalBW : F
  refFreq : F
  firstTime : F
  lastTime : F
  interval : F
  nTimes : Nat
  /-- `time_averaging_factors_.front()` -/
  timeFactor : Nat
deriving DecidableEq, Repr

/-- `DPInfo::setTimes`: base/DPInfo.cc:62-81.  The assignment of a `double` to an unsigned integer
truncates. -/
def setTimes (s : Axes F) (first last interval : F) : Option (Axes F) :=
  if last < first then none
  else if interval ≤ 0 then none
  else some { s with
    firstTime := first, lastTime := last, interval := interval
    nTimes := ⌊(last - first) / interval + 3 / 2⌋₊ }

/-- `DPInfo::setChannels` for one list of channels: base/DPInfo.cc:93-136.  Without channels and
without reference frequency the code reads outside of the list: `none`. -/
def setChannels (s : Axes F) (freqs widths resols effBW : List F) (ref : F) : Option (Axes F) :=
  let resols := if resols.isEmpty then widths else resols
  let effBW := if effBW.isEmpty then widths else effBW
  let n := freqs.length
  if n ≠ widths.length then none
  else if resols.length ≠ n then none
  else if effBW.length ≠ n then none
  else if ref = 0 ∧ n = 0 then none
  else some { s with
    nChannels := n
    refFreq := if ref = 0 then
      (freqs.getD ((n - 1) / 2) 0 + freqs.getD (n / 2) 0) / 2 else ref
    freqs := freqs, widths := widths, resols := resols, effBW := effBW
    totalBW := effBW.foldl (· + ·) 0 }

/-- The inner loop of `DPInfo::update` for one channel `i` and one list:
base/DPInfo.cc:345-349. -/
def binSum (l : List F) (c i : Nat) : F :=
  (List.range c).foldl (fun acc j => acc + l.getD (i * c + j) 0) 0

/-- `DPInfo::update(chanAvg, timeAvg)`: base/DPInfo.cc:305-358. -/
def update (s : Axes F) (chanAvg timeAvg : Nat) : Option (Axes F) :=
  let c := if chanAvg > s.nChannels then s.nChannels else chanAvg
  let t := if timeAvg > s.nTimes then s.nTimes else timeAvg
  if c = 0 ∨ t = 0 then none
  else if s.nChannels % c ≠ 0 then none
  else
    let n := (s.nChannels + c - 1) / c
    let nt := (s.nTimes + t - 1) / t
    let first := s.firstTime + ((t - 1 : Nat) : F) / 2 * s.interval
    let interval := s.interval * (t : F)
    let effBW := (List.range n).map (binSum s.effBW c)
    some { s with
      nChannels := n
      chanFactor := s.chanFactor * c
      timeFactor := s.timeFactor * t
      nTimes := nt
      firstTime := first
      interval := interval
      lastTime := first + ((nt - 1 : Nat) : F) * interval
      freqs := (List.range n).map fun i =>
        (s.freqs.getD (i * c) 0 + s.freqs.getD ((i + 1) * c - 1) 0) / 2
      widths := (List.range n).map (binSum s.widths c)
      resols := (List.range n).map (binSum s.resols c)
      effBW := effBW
      totalBW := effBW.foldl (· + ·) 0 }

/-- `DPInfo::SelectChannels`: base/DPInfo.cc:364-404. -/
def selectChannels (s : Axes F) (start n : Nat) : Option (Axes F) :=
  if start = 0 ∧ n = s.nChannels then some s
  else if s.freqs.length ≠ s.widths.length ∨ s.freqs.length ≠ s.resols.length ∨
      s.freqs.length ≠ s.effBW.length then none
  else if start + n > s.freqs.length then none
  else some { s with
    freqs := (s.freqs.drop start).take n
    widths := (s.widths.drop start).take n
    resols := (s.resols.drop start).take n
    effBW := (s.effBW.drop start).take n
    startChannel := s.startChannel + start
    nChannels := n }

/-- The calls that change the channels and times: base/DPInfo.h:47, 71-75, 113, 124. -/
inductive AxisOp (F : Type)
  | setChannels (freqs widths resols effBW : List F) (ref : F)
  | setTimes (first last interval : F)
  | update (chanAvg timeAvg : Nat)
  | select (start n : Nat)

/-- The effect of one call. -/
def axisStep (s : Axes F) : AxisOp F → Option (Axes F)
  | .setChannels f w r e ref => setChannels s f w r e ref
  | .setTimes a b i => setTimes s a b i
  | .update c t => update s c t
  | .select a n => selectChannels s a n

/-- The effect of a sequence of calls. -/
def axisRun : List (AxisOp F) → Axes F → Option (Axes F)
  | [], s => some s
  | o :: os, s => (axisStep s o).bind (axisRun os)

/-- A newly constructed `DPInfo`: base/DPInfo.cc:32-60 (without channels and correlations). -/
def initial : Axes F :=
  { nChannels := 0, startChannel := 0, chanFactor := 1, freqs := [], widths := [], resols := []
    effBW := [], totalBW := 0, refFreq := 0, firstTime := 0, lastTime := 0, interval := 1
    nTimes := 1, timeFactor := 1 }

end DP3.DPInfo
