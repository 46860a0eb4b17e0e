import Verif.Cx.Basic
import Verif.StringTools.Model

/-!
# Applying gains to visibilities

Model of the static functions of `ApplyCal` (steps/ApplyCal.cc), of the loops and the time administration of
`OneApplyCal` (steps/OneApplyCal.cc), and of `base::apply` (base/Apply.cc). Data are exact complex numbers; a
gain that is not finite is `none`. For the weights, which are divided, infinity and NaN are modelled.
-/

namespace DP3.ApplyCal

open DP3.StringTools

/-! ## Floating point numbers that are not negative -/

/-- A weight or variance: a number that is not negative, infinity or NaN (IEEE 754, as used in
steps/ApplyCal.cc:231-263). -/
inductive Flt (K : Type) where
  | fin (x : K)
  | inf
  | nan
  deriving DecidableEq, Repr

namespace Flt

variable {K : Type} [Field K] [DecidableEq K]

/-- Addition (ApplyCal.cc:240). -/
def add : Flt K → Flt K → Flt K
  | fin x, fin y => fin (x + y)
  | nan, _ => nan
  | _, nan => nan
  | _, _ => inf

/-- The product with a number (ApplyCal.cc:240): infinity times zero is NaN. -/
def mulFin : Flt K → K → Flt K
  | fin x, y => fin (x * y)
  | inf, y => if y = 0 then nan else inf
  | nan, _ => nan

/-- `1. / x` (ApplyCal.cc:235 and 244). -/
def inv : Flt K → Flt K
  | fin x => if x = 0 then inf else fin x⁻¹
  | inf => fin 0
  | nan => nan

/-- `/=` by a number (ApplyCal.cc:138). -/
def divFin : Flt K → K → Flt K
  | fin x, y => if y = 0 then (if x = 0 then nan else inf) else fin (x / y)
  | inf, _ => inf
  | nan, _ => nan

end Flt

/-! ## One visibility -/

/-- Four values in the order XX, XY, YX, YY (DPBuffer has these contiguous, base/DPBuffer.h). -/
structure Four (X : Type) where
  xx : X
  xy : X
  yx : X
  yy : X
  deriving DecidableEq, Repr

/-- The data, flags and weights of a baseline and channel. -/
structure Sample (K : Type) where
  data : M2 K
  flags : Four Bool
  weights : Four (Flt K)
  deriving DecidableEq

variable {K : Type}

/-- Flags after `fill(true)`, ApplyCal.cc:127. -/
def allFlags : Four Bool := ⟨true, true, true, true⟩

/-- Not applied: the flags are set, and the sample is counted if the first correlation was not flagged yet,
ApplyCal.cc:119-129, 156-165 and 211-219. -/
def flagSample (s : Sample K) : Sample K × Bool := ({ s with flags := allFlags }, !s.flags.xx)

section Apply
variable [Field K] [DecidableEq K]

/-- ApplyWeights, ApplyCal.cc:231-263. -/
def applyWeights (a b : M2 K) (w : Four (Flt K)) : Four (Flt K) :=
  let c0 := w.xx.inv
  let c1 := w.xy.inv
  let c2 := w.yx.inv
  let c3 := w.yy.inv
  let sum (p0 p1 q0 q1 : K) : Flt K :=
    ((((c0.mulFin (p0 * q0)).add (c1.mulFin (p0 * q1))).add (c2.mulFin (p1 * q0))).add (c3.mulFin (p1 * q1))).inv
  ⟨sum a.a.normSq a.b.normSq b.a.normSq b.b.normSq, sum a.a.normSq a.b.normSq b.c.normSq b.d.normSq,
    sum a.c.normSq a.d.normSq b.a.normSq b.b.normSq, sum a.c.normSq a.d.normSq b.c.normSq b.d.normSq⟩

/-- The check on NaN and infinity, ApplyCal.cc:203-210. -/
def finite4 (g : Four (Option (Cx K))) : Option (M2 K) :=
  match g.xx, g.xy, g.yx, g.yy with
  | some a, some b, some c, some d => some ⟨a, b, c, d⟩
  | _, _, _, _ => none

/-- ApplyFull, ApplyCal.cc:196-229. -/
def applyFull (ga gb : Four (Option (Cx K))) (updateWeights : Bool) (s : Sample K) : Sample K × Bool :=
  match finite4 ga, finite4 gb with
  | some a, some b =>
    (⟨a * (s.data * b.herm), s.flags, if updateWeights then applyWeights a b s.weights else s.weights⟩, false)
  | _, _ => flagSample s

/-- ApplyDiag, ApplyCal.cc:112-147. -/
def applyDiag (ga gb : Option (Cx K) × Option (Cx K)) (updateWeights : Bool) (s : Sample K) :
    Sample K × Bool :=
  match ga, gb with
  | (some a0, some a1), (some b0, some b1) =>
    (⟨(D2.mk a0 a1).toM2 * s.data * (D2.mk b0 b1).herm.toM2, s.flags,
      if updateWeights then
        ⟨s.weights.xx.divFin (a0.normSq * b0.normSq), s.weights.xy.divFin (a0.normSq * b1.normSq),
          s.weights.yx.divFin (a1.normSq * b0.normSq), s.weights.yy.divFin (a1.normSq * b1.normSq)⟩
      else s.weights⟩, false)
  | _, _ => flagSample s

/-- ApplyScalar, ApplyCal.cc:149-179. -/
def applyScalar (ga gb : Option (Cx K)) (updateWeights : Bool) (s : Sample K) : Sample K × Bool :=
  match ga, gb with
  | some a, some b =>
    (⟨s.data.smul (a * b.conj), s.flags,
      if updateWeights then
        ⟨s.weights.xx.divFin (a.normSq * b.normSq), s.weights.xy.divFin (a.normSq * b.normSq),
          s.weights.yx.divFin (a.normSq * b.normSq), s.weights.yy.divFin (a.normSq * b.normSq)⟩
      else s.weights⟩, false)
  | _, _ => flagSample s

/-- `invert`, ApplyCal.cc:181-192; a zero determinant, for which the result is not finite, gives nothing. -/
def invert (v : M2 K) : Option (M2 K) :=
  if v.a * v.d - v.b * v.c = 0 then none
  else
    let invDet := Cx.div 1 (v.a * v.d - v.b * v.c)
    some ⟨v.d * invDet, v.b * -invDet, v.c * -invDet, v.a * invDet⟩

end Apply

/-! ## A buffer -/

/-- A buffer of a time slot with its counters (base/FlagCounter.h:49-52). -/
structure Buf (K : Type) where
  sample : Nat → Nat → Sample K
  perBaseline : Nat → Nat
  perChannel : Nat → Nat

/-- Applying at one baseline and channel, OneApplyCal.cc:543-557: `f` is ApplyFull or ApplyDiag with the gains. -/
def applyAt (f : Nat → Nat → Sample K → Sample K × Bool) (buf : Buf K) (p : Nat × Nat) : Buf K :=
  let r := f p.1 p.2 (buf.sample p.1 p.2)
  { sample := fun bl ch => if bl = p.1 ∧ ch = p.2 then r.1 else buf.sample bl ch
    perBaseline := fun bl => if bl = p.1 ∧ r.2 = true then buf.perBaseline bl + 1 else buf.perBaseline bl
    perChannel := fun ch => if ch = p.2 ∧ r.2 = true then buf.perChannel ch + 1 else buf.perChannel ch }

/-- The loops over baselines and channels, OneApplyCal.cc:537-559, for one order of them. -/
def loopOrder (nBl nChan : Nat) : List (Nat × Nat) :=
  (List.range nBl).flatMap fun bl => (List.range nChan).map fun ch => (bl, ch)

/-- The gains of a direction, `gains(corr, antenna, time * nchan + channel)` (OneApplyCal.cc:529-547). -/
abbrev Gains (G : Type) := Nat → Nat → G

/-- CorrectionLoop, OneApplyCal.cc:527-560, with the order in which the threads visit the samples. -/
def correctionLoop {G : Type} (apply : G → G → Sample K → Sample K × Bool) (ant1 ant2 : Nat → Nat)
    (gains : Gains G) (nchan timeStep : Nat) (order : List (Nat × Nat)) (buf : Buf K) : Buf K :=
  order.foldl (applyAt fun bl ch =>
    apply (gains (ant1 bl) (timeStep * nchan + ch)) (gains (ant2 bl) (timeStep * nchan + ch))) buf

/-- Model data of several directions at one baseline and channel, OneApplyCal.cc:510-512: each direction has its
own data, and flags and weights are those of the buffer. -/
def modelDataLoop (apply : List (Sample K → Sample K × Bool)) (data : List (M2 K)) (flags : Four Bool)
    (weights : Four (Flt K)) : List (M2 K) × Four Bool × Four (Flt K) :=
  match apply, data with
  | f :: fs, d :: ds =>
    let r := (f ⟨d, flags, weights⟩).1
    let rest := modelDataLoop fs ds r.flags r.weights
    (r.data :: rest.1, rest.2)
  | _, _ => ([], flags, weights)

/-! ## Times -/

/-- The settings of the time administration: the interval and last time of the input, and
timeslotsperparmupdate. -/
structure TimeSettings (K : Type) where
  interval : K
  lastTime : K
  slots : Nat

/-- `itsLastTime`, `itsTimeStep`, and the times for which there are gains. -/
structure TimeState (K : Type) where
  lastTime : K
  timeStep : Nat
  times : List K

section Times
variable [Field K] [LinearOrder K]

/-- CalculateBufferTimes, OneApplyCal.cc:562-588, without the half interval that is used for a ParmDB. `round` is
`std::round`. `std::clamp` with an upper limit below the lower limit is undefined. -/
def calculateBufferTimes (round : K → Nat) (c : TimeSettings K) (start : K) : Except Err (K × List K) :=
  let first := start - c.interval / 2
  let last := first + c.slots * c.interval
  let lastMs := c.lastTime + c.interval / 2
  let mk (n : Nat) : List K := (List.range n).map fun (t : Nat) => start + (t : K) * c.interval
  if lastMs < last then
    let remaining := round ((lastMs - first) / c.interval)
    if remaining < 1 then .error .ub
    else .ok (lastMs, mk (min (max c.slots 1) remaining))
  else .ok (last, mk c.slots)

/-- The times in process, OneApplyCal.cc:412-417 and 476-479, and 487-508 for model data. -/
def timeProcess (round : K → Nat) (c : TimeSettings K) (st : TimeState K) (time : K) :
    Except Err (TimeState K) :=
  if st.lastTime < time then
    match calculateBufferTimes round c time with
    | .error e => .error e
    | .ok (last, times) => .ok ⟨last, 0, times⟩
  else .ok { st with timeStep := st.timeStep + 1 }

/-- The time for which the gains of a buffer are, for each buffer: what is at `itsTimeStep`. -/
def timesUsed (round : K → Nat) (c : TimeSettings K) : TimeState K → List K → Except Err (List (Option K))
  | _, [] => .ok []
  | st, t :: ts =>
    match timeProcess round c st t with
    | .error e => .error e
    | .ok st' =>
      match timesUsed round c st' ts with
      | .error e => .error e
      | .ok used => .ok (st'.times[st'.timeStep]? :: used)

/-- The initial values, OneApplyCal.cc:66-68. -/
def initialTime : TimeState K := ⟨-1, 0, []⟩

end Times

/-! ## base::apply -/

section BaseApply
variable [CommRing K]

/-- One visibility, base/Apply.cc:38-58: `jp` and `jq` have the elements of the Jones matrices. -/
def applyVis (jp jq data : M2 K) : M2 K :=
  let q00 := jq.a.conj
  let q01 := jq.b.conj
  let q10 := jq.c.conj
  let q11 := jq.d.conj
  let t1 := q00 * data.a + q01 * data.b
  let t2 := q00 * data.c + q01 * data.d
  let t3 := q10 * data.a + q11 * data.b
  let t4 := q10 * data.c + q11 * data.d
  ⟨jp.a * t1 + jp.b * t2, jp.a * t3 + jp.b * t4, jp.c * t1 + jp.d * t2, jp.c * t3 + jp.d * t4⟩

/-- The loop over channels, Apply.cc:19-66. -/
def applyBaseline (coeff : Nat → M2 K) (p q : Nat) (channels : List (M2 K)) : List (M2 K) :=
  if p ≠ q then channels.map (applyVis (coeff p) (coeff q)) else channels

/-- base::apply, Apply.cc:13-72. -/
def baseApply (coeff : Nat → M2 K) : List (Nat × Nat) → List (List (M2 K)) → List (List (M2 K))
  | (p, q) :: baselines, channels :: data => applyBaseline coeff p q channels :: baseApply coeff baselines data
  | _, data => data

end BaseApply

end DP3.ApplyCal
