import Mathlib.Analysis.Complex.Norm
import Mathlib.Analysis.Real.Sqrt

/-!
# GainCal: model of GainCalAlgorithm.cc, and of the parts of GainCal.cc that use it

Complex and real numbers are exact. The arrays of visibilities are flat memories, as the code uses pointers in them.
-/

namespace DP3.GainCal

open Complex

noncomputable section

/-- The modes, base/GainCalAlgorithm.h:26. -/
inductive Mode | default | phaseOnly | amplitudeOnly | fullJones
  deriving DecidableEq

/-- The values returned by the iterations, base/GainCalAlgorithm.h:24. -/
inductive Status | converged | notConverged | stalled | failed
  deriving DecidableEq

/-- The settings of the constructor, base/GainCalAlgorithm.cc:24-38. -/
structure Cfg where
  nSt : Nat
  solInt : Nat
  nChan : Nat
  mode : Mode
  scalar : Bool
  tolerance : ℝ
  detectStalling : Bool

/-- `_nUn`, base/GainCalAlgorithm.cc:62-66. -/
def nUn (c : Cfg) : Nat := if c.scalar || c.mode == .fullJones then c.nSt else 2 * c.nSt

/-- `_nSp`, base/GainCalAlgorithm.cc:42-57. -/
def nSp (c : Cfg) : Nat := if c.mode == .fullJones then 1 else if c.scalar then 2 else 1

/-- `_nCr`, base/GainCalAlgorithm.cc:42-57. -/
def nCr (c : Cfg) : Nat := if c.mode == .fullJones then 4 else 1

/-- The address of an element in an array with the shape of `_vis`, base/GainCalAlgorithm.cc:59: the first axis varies
fastest. -/
def offset (c : Cfg) (st2 p2 t ch p1 st1 : Nat) : Nat :=
  st2 + c.nSt * (p2 + 2 * (t + c.solInt * (ch + c.nChan * (p1 + 2 * st1))))

/-! ## The steps -/

/-- The address of element `index` of a station, base/GainCalAlgorithm.cc:360-362 and 367. -/
def elem (c : Cfg) (st1 i st2 : Nat) : Nat :=
  offset c 0 0 0 0 (st1 / c.nSt) (st1 % c.nSt) + (i * nUn c + st2)

/-- The body of the loops, base/GainCalAlgorithm.cc:367-370. -/
def addSums (c : Cfg) (vis mvis : Nat → ℂ) (h : Nat → ℂ) (st1 i : Nat) (r : ℝ × ℂ) (st2 : Nat) : ℝ × ℂ :=
  (r.1 + normSq (h st2 * mvis (elem c st1 i st2)),
    r.2 + (starRingEnd ℂ) (h st2 * mvis (elem c st1 i st2)) * vis (elem c st1 i st2))

/-- The sums `ww` and `tt` for one unknown, base/GainCalAlgorithm.cc:357-372, with `h` the conjugated gains. -/
def sums (c : Cfg) (vis mvis : Nat → ℂ) (h : Nat → ℂ) (st1 : Nat) : ℝ × ℂ :=
  (List.range (nSp c * c.nChan * c.solInt * nSp c)).foldl (fun r i =>
    (List.range (nUn c)).foldl (addSums c vis mvis h st1 i) r) (0, 0)

/-- A station without data, base/GainCalAlgorithm.cc:375. -/
def noData (c : Cfg) (vis mvis : Nat → ℂ) (h : Nat → ℂ) (st1 : Nat) : Prop :=
  (sums c vis mvis h st1).1 = 0 ∨ (sums c vis mvis h st1).2 = 0

/-- The constraints, base/GainCalAlgorithm.cc:382-394; the exceptions cannot occur as `tt` is not zero. -/
def constrain (m : Mode) (x : ℂ) : ℂ :=
  match m with
  | .phaseOnly => x / (‖x‖ : ℂ)
  | .amplitudeOnly => (‖x‖ : ℂ)
  | _ => x

/-- The other unknown of the same station. -/
def partner (c : Cfg) (u : Nat) : Nat := if u < c.nSt then u + c.nSt else u - c.nSt

/-- An unknown is skipped, base/GainCalAlgorithm.cc:354-356, if its station is flagged. The tasks run in parallel, and
both unknowns of a station have one flag: `sees u` is whether the task of u starts after the task of its partner could
have set it. -/
def skipped (c : Cfg) (vis mvis : Nat → ℂ) (h : Nat → ℂ) (flagged : Nat → Bool) (sees : Nat → Bool) (u : Nat) : Prop :=
  flagged (u % c.nSt) = true ∨
    (nUn c = 2 * c.nSt ∧ sees u = true ∧ sees (partner c u) = false ∧ noData c vis mvis h (partner c u))

open Classical in
/-- `doStep_unpolarized`, base/GainCalAlgorithm.cc:345-396: the new gains and flags. -/
def stepUnpolarized (c : Cfg) (vis mvis : Nat → ℂ) (sees : Nat → Bool) (g : Nat → ℂ) (flagged : Nat → Bool) :
    (Nat → ℂ) × (Nat → Bool) :=
  let h := fun u => (starRingEnd ℂ) (g u)
  (fun u =>
    if u < nUn c ∧ ¬ skipped c vis mvis h flagged sees u then
      if noData c vis mvis h u then 0
      else constrain c.mode ((sums c vis mvis h u).2 / ((sums c vis mvis h u).1 : ℂ))
    else g u,
   fun s => flagged s || decide (∃ u, u < nUn c ∧ u % c.nSt = s ∧ ¬ skipped c vis mvis h flagged sees u ∧
     noData c vis mvis h u))

/-- A two by two matrix by its elements 0 to 3. -/
structure Mat where
  a : ℂ
  b : ℂ
  c : ℂ
  d : ℂ

/-- The elements of `_z` of one time, channel and station, base/GainCalAlgorithm.cc:230-266, for the conjugated gains
`h` of the station and the elements of the model with polarizations p2 and p1. -/
def zOf (h : Mat) (m : Nat → Nat → ℂ) : Mat :=
  ⟨h.a * m 0 0 + h.c * m 1 0, h.a * m 0 1 + h.c * m 1 1, h.b * m 0 0 + h.d * m 1 0, h.b * m 0 1 + h.d * m 1 1⟩

/-- The elements of `w`, base/GainCalAlgorithm.cc:274-279: what one station, channel and time add. -/
def wOf (z : Mat) : Mat :=
  let cj := starRingEnd ℂ
  ⟨cj z.a * z.a + cj z.c * z.c, cj z.a * z.b + cj z.c * z.d, 0, cj z.b * z.b + cj z.d * z.d⟩

/-- The elements of `t`, base/GainCalAlgorithm.cc:287-330: what one station, channel and time add. -/
def tOf (z : Mat) (v : Nat → Nat → ℂ) : Mat :=
  let cj := starRingEnd ℂ
  ⟨cj z.a * v 0 0 + cj z.c * v 1 0, cj z.a * v 0 1 + cj z.c * v 1 1,
    cj z.b * v 0 0 + cj z.d * v 1 0, cj z.b * v 0 1 + cj z.d * v 1 1⟩

/-- Elementwise sum. -/
def Mat.add (x y : Mat) : Mat := ⟨x.a + y.a, x.b + y.b, x.c + y.c, x.d + y.d⟩

/-- All (time, channel, station) of the loops, base/GainCalAlgorithm.cc:270-272. -/
def cells (c : Cfg) : List (Nat × Nat × Nat) :=
  (List.range c.solInt).flatMap fun t => (List.range c.nChan).flatMap fun ch => (List.range c.nSt).map fun st2 => (t, ch, st2)

/-- The element of a cell by polarizations, base/GainCalAlgorithm.cc:233-263. -/
def block (c : Cfg) (mem : Nat → ℂ) (st1 : Nat) (x : Nat × Nat × Nat) (p2 p1 : Nat) : ℂ :=
  mem (offset c x.2.2 p2 x.1 x.2.1 p1 st1)

/-- `w` and `t` of one station, base/GainCalAlgorithm.cc:268-330. -/
def wSum (c : Cfg) (mvis : Nat → ℂ) (h : Nat → Mat) (st1 : Nat) : Mat :=
  let w := (cells c).foldl (fun (r : Mat) x => r.add (wOf (zOf (h x.2.2) (block c mvis st1 x)))) ⟨0, 0, 0, 0⟩
  ⟨w.a, w.b, (starRingEnd ℂ) w.b, w.d⟩

/-- See `wSum`. -/
def tSum (c : Cfg) (vis mvis : Nat → ℂ) (h : Nat → Mat) (st1 : Nat) : Mat :=
  (cells c).foldl (fun (r : Mat) x => r.add (tOf (zOf (h x.2.2) (block c mvis st1 x)) (block c vis st1 x))) ⟨0, 0, 0, 0⟩

/-- The solution of the two by two equations, base/GainCalAlgorithm.cc:331 and 337-341. -/
def solve2 (w t : Mat) : Mat :=
  let invdet := 1 / (w.a * w.d - w.b * w.c)
  ⟨invdet * (w.d * t.a - w.b * t.c), invdet * (w.d * t.b - w.b * t.d), invdet * (w.a * t.c - w.c * t.a),
    invdet * (w.a * t.d - w.c * t.b)⟩

/-- The conjugated elements, base/GainCalAlgorithm.cc:213-218. -/
def Mat.conj (x : Mat) : Mat :=
  ⟨(starRingEnd ℂ) x.a, (starRingEnd ℂ) x.b, (starRingEnd ℂ) x.c, (starRingEnd ℂ) x.d⟩

open Classical in
/-- `doStep_polarized`, base/GainCalAlgorithm.cc:210-343: the new gains and flags. -/
def stepPolarized (c : Cfg) (vis mvis : Nat → ℂ) (g : Nat → Mat) (flagged : Nat → Bool) : (Nat → Mat) × (Nat → Bool) :=
  let h := fun st => (g st).conj
  let det := fun st => (wSum c mvis h st).a * (wSum c mvis h st).d - (wSum c mvis h st).b * (wSum c mvis h st).c
  (fun st =>
    if st < c.nSt ∧ flagged st = false then
      if det st = 0 then ⟨0, (g st).b, (g st).c, (g st).d⟩
      else solve2 (wSum c mvis h st) (tSum c vis mvis h st)
    else g st,
   fun st => flagged st || decide (st < c.nSt ∧ det st = 0))

/-! ## Relaxation -/

/-- The state of the iterations: the gains by unknown and correlation, the earlier gains, the flags and the convergence;
base/GainCalAlgorithm.h:85-117. -/
structure State where
  g : Nat → Nat → ℂ
  gold : Nat → Nat → ℂ
  gx : Nat → Nat → ℂ
  gxx : Nat → Nat → ℂ
  flagged : Nat → Bool
  dg : ℝ
  dgx : ℝ
  badIters : Nat
  veryBadIters : Nat

/-- The sum of the squared moduli over all unknowns and correlations, base/GainCalAlgorithm.cc:468-478. -/
def fro (c : Cfg) (x : Nat → Nat → ℂ) : ℝ :=
  (List.range (nUn c)).foldl (fun r ant =>
    (List.range (nCr c)).foldl (fun r cr => r + ‖x ant cr * x ant cr‖) r) 0

open Classical in
/-- The counters of the stalling detection, base/GainCalAlgorithm.cc:436-450. -/
def count (s : State) : State :=
  let improvement := s.dgx - s.dg
  if |improvement| < 5.0e-2 * s.dg then { s with badIters := s.badIters + 1 }
  else if improvement < 0 then { s with veryBadIters := s.veryBadIters + 1 }
  else { s with badIters := 0 }

open Classical in
/-- The extrapolation, base/GainCalAlgorithm.cc:499-545; `sstep` is a local variable that is always 0 here, and `threestep`
is one that is always false before. -/
def extrapolate (iter : Nat) (dgxx : ℝ) (s : State) : State :=
  if iter + 1 ≥ 24 ∨ (max s.dg (max s.dgx dgxx) ≤ 1.0e-3 ∧ s.dg < s.dgx ∧ s.dgx < dgxx) then
    if s.dg ≤ 0.5 * s.dgx then { s with g := fun a cr => 1.5 * s.g a cr + -0.5 * s.gx a cr }
    else if s.dg ≤ s.dgx then { s with g := fun a cr => 2.5 * s.g a cr + -1.0 * s.gx a cr + -0.5 * s.gxx a cr }
    else if s.dg ≤ 1.2 * s.dgx then { s with g := s.gx }
    else { s with g := s.gxx }
  else s

/-- The relative change of the gains, base/GainCalAlgorithm.cc:468-480. -/
def change (c : Cfg) (s : State) : ℝ :=
  Real.sqrt (fro c fun a cr => s.g a cr - s.gold a cr) / Real.sqrt (fro c s.g)

open Classical in
/-- The end of `relax`, base/GainCalAlgorithm.cc:465-546. Nothing where all gains are zero, as the change is not a number
then. -/
def relaxEnd (c : Cfg) (iter : Nat) (s : State) : Option (State × Status) :=
  if fro c s.g = 0 then none
  else
    let s' := { s with dgx := s.dg, dg := change c s }
    if s'.dg ≤ c.tolerance then some (s', .converged)
    else
      some (extrapolate iter s.dgx { s' with g := fun a cr => (1 - 0.5) * s.g a cr + 0.5 * s.gold a cr }, .notConverged)

/-- `relax`, base/GainCalAlgorithm.cc:415-547. -/
def relax (c : Cfg) (iter : Nat) (s : State) : Option (State × Status) :=
  if c.nSt = 0 then some (s, .converged)
  else if c.detectStalling = true ∧ iter > 3 then
    if (count s).badIters ≥ 3 ∨ (count s).veryBadIters > 3 then some (count s, .stalled)
    else relaxEnd c iter (count s)
  else relaxEnd c iter s

/-- One step of the gains, base/GainCalAlgorithm.cc:199-207. -/
def halfStep (c : Cfg) (vis mvis : Nat → ℂ) (sees : Nat → Bool) (s : State) : State :=
  if c.mode = .fullJones then
    let r := stepPolarized c vis mvis (fun st => ⟨s.g st 0, s.g st 1, s.g st 2, s.g st 3⟩) s.flagged
    { s with
      gold := s.g
      g := fun st cr => if cr = 0 then (r.1 st).a else if cr = 1 then (r.1 st).b else if cr = 2 then (r.1 st).c
        else if cr = 3 then (r.1 st).d else s.g st cr
      flagged := r.2 }
  else
    let r := stepUnpolarized c vis mvis sees (fun u => s.g u 0) s.flagged
    { s with
      gold := s.g
      g := fun u cr => if cr = 0 then r.1 u else s.g u cr
      flagged := r.2 }

/-- `doStep`, base/GainCalAlgorithm.cc:183-208. -/
def doStep (c : Cfg) (vis mvis : Nat → ℂ) (sees : Nat → Nat → Bool) (iter : Nat) (s : State) : Option (State × Status) :=
  let s := { s with gxx := s.gx, gx := s.g }
  if (List.range c.nSt).all s.flagged then some (s, .converged)
  else relax c (2 * iter) (halfStep c vis mvis (sees 1) (halfStep c vis mvis (sees 0) s))

/-! ## Start and end -/

/-- The start values of the convergence, base/GainCalAlgorithm.cc:89-94. -/
def startState (g : Nat → Nat → ℂ) (old : State) : State :=
  { old with g := g, dg := 1.0e29, dgx := 1.0e30, badIters := 0, veryBadIters := 0 }

/-- The size of the arrays. -/
def visSize (c : Cfg) : Nat := c.nSt * 2 * c.solInt * c.nChan * 2 * c.nSt

/-- The sum of the squared moduli of an array, base/GainCalAlgorithm.cc:106-110. -/
def fronorm (c : Cfg) (mem : Nat → ℂ) : ℝ := (List.range (visSize c)).foldl (fun r i => r + normSq (mem i)) 0

open Classical in
/-- `ginit` with `initSolutions`, base/GainCalAlgorithm.cc:97-119. -/
def ginit (c : Cfg) (vis mvis : Nat → ℂ) : ℝ :=
  if c.mode = .phaseOnly then 1
  else if |Real.sqrt (fronorm c mvis)| > 1.0e-15 then
    Real.sqrt (Real.sqrt (fronorm c vis) / Real.sqrt (fronorm c mvis))
  else 1

/-- Equal gains for a station, base/GainCalAlgorithm.cc:121-130 and 146-153. -/
def uniform (x : ℝ) (cr : Nat) : ℂ := if cr = 0 ∨ cr = 3 then (x : ℂ) else 0

/-- What one unknown adds, base/GainCalAlgorithm.cc:167-174. -/
def addAverage (c : Cfg) (r : ℝ × Nat) : Option (Nat → ℂ) → ℝ × Nat
  | none => r
  | some x => if nCr c = 4 then (r.1 + ‖x 0‖ + ‖x 3‖, r.2 + 2) else (r.1 + ‖x 0‖, r.2 + 1)

/-- `getAverageUnflaggedSolution`, base/GainCalAlgorithm.cc:159-175, as total and number; the gains of an unknown are `none`
if they are not finite. -/
def averageSums (c : Cfg) (g : Nat → Option (Nat → ℂ)) : ℝ × Nat :=
  (List.range (nUn c)).foldl (fun r ant => addAverage c r (g ant)) (0, 0)

/-- The average, base/GainCalAlgorithm.cc:176-180. -/
def average (c : Cfg) (g : Nat → Option (Nat → ℂ)) : ℝ :=
  if (averageSums c g).2 = 0 then 0 else (averageSums c g).1 / ((averageSums c g).2 : ℝ)

/-- `init`, base/GainCalAlgorithm.cc:88-157, with no station flagged, as `clearStationFlagged` is called for each solution
interval, GainCal.cc:441-447: the new gains. The average is computed at the first unknown that is not finite. -/
def init (c : Cfg) (vis mvis : Nat → ℂ) (initSolutions : Bool) (g : Nat → Option (Nat → ℂ)) : Nat → Nat → ℂ :=
  open Classical in
  if initSolutions = true ∨ ((∃ u, u < nUn c ∧ g u = none) ∧ average c g = 0) then
    fun _ => uniform (ginit c vis mvis)
  else fun u => (g u).getD (uniform (average c g))

/-- `getSolution(true)`, base/GainCalAlgorithm.cc:400-413. -/
def getSolution (c : Cfg) (s : State) (u : Nat) : Option (Nat → ℂ) :=
  if s.flagged (u % c.nSt) then none else some (s.g u)

/-! ## The loop of GainCal::calibrate -/

/-- One frequency cell: its settings, its data, its state and `converged`. -/
structure Freq where
  cfg : Cfg
  vis : Nat → ℂ
  mvis : Nat → ℂ
  sees : Nat → Nat → Nat → Bool
  state : State
  status : Status

/-- One iteration for a cell, GainCal.cc:643-653. -/
def freqStep (iter : Nat) (f : Freq) : Option Freq :=
  if f.status ≠ .converged then
    (doStep f.cfg f.vis f.mvis (f.sees iter) iter f.state).map fun r => { f with state := r.1, status := r.2 }
  else some f

/-- The loop, GainCal.cc:640-760, without the fits of the modes `tec` and `tecandphase`: with the number of iterations that
are left. It ends if no cell is `NOTCONVERGED` after a step. -/
def calibrate : Nat → Nat → List Freq → Option (List Freq)
  | 0, _, fs => some fs
  | n + 1, iter, fs =>
    match fs.mapM (freqStep iter) with
    | none => none
    | some fs' => if fs'.all (fun f => f.status != .notConverged) then some fs' else calibrate n (iter + 1) fs'

/-- The solutions that are written and applied, GainCal.cc:791-816: the Jones matrix elements 0 to 3, or the diagonal. -/
def jones (c : Cfg) (g : Nat → Nat → ℂ) (st : Nat) : Mat :=
  if c.mode = .fullJones then
    ⟨(starRingEnd ℂ) (g st 0), (starRingEnd ℂ) (g st 2), (starRingEnd ℂ) (g st 1), (starRingEnd ℂ) (g st 3)⟩
  else ⟨(starRingEnd ℂ) (g st 0), 0, 0, (starRingEnd ℂ) (g (if c.scalar then st else st + c.nSt) 0)⟩

/-! ## GainCal::fillMatrices -/

/-- One baseline and channel of one time: the antennas, and the data, model and weights by correlation. -/
structure Row where
  ant1 : Nat
  ant2 : Nat
  step : Nat
  ch : Nat
  data : Nat → ℂ
  model : Nat → ℂ
  weight : Nat → ℝ
  used : Bool

/-- The address of an element of the span, GainCal.cc:55-70: the shape is reversed and the last axis varies fastest. -/
def spanOffset (c : Cfg) (i0 i1 i2 i3 i4 i5 : Nat) : Nat :=
  ((((i0 * 2 + i1) * c.nChan + i2) * c.solInt + i3) * 2 + i4) * c.nSt + i5

/-- `n_crDiv`, GainCal.cc:593. -/
def crDiv (nCorr : Nat) : Nat := if nCorr = 4 then 2 else 1

/-- The writes of one correlation in `_vis`, GainCal.cc:589-608, or in `_mvis` with the model. -/
def writeCorr (c : Cfg) (nCorr : Nat) (r : Row) (value : Nat → ℂ) (mem : Nat → ℂ) (cr : Nat) : Nat → ℂ :=
  Function.update
    (Function.update mem (spanOffset c r.ant2 (cr % 2) r.ch r.step (cr / crDiv nCorr) r.ant1)
      (value cr * (Real.sqrt (r.weight cr) : ℂ)))
    (spanOffset c r.ant1 (cr / crDiv nCorr) r.ch r.step (cr % 2) r.ant2)
    ((starRingEnd ℂ) (value cr) * (Real.sqrt (r.weight cr) : ℂ))

/-- The body of the loop over baselines, GainCal.cc:568-609: rows that are not used are baselines that are not selected, the
flagged rows and the rows of flagged stations; autocorrelations are skipped. -/
def writeRow (c : Cfg) (nCorr : Nat) (value : Row → Nat → ℂ) (mem : Nat → ℂ) (r : Row) : Nat → ℂ :=
  if r.used = false ∨ r.ant1 = r.ant2 then mem
  else (List.range nCorr).foldl (writeCorr c nCorr r (value r)) mem

/-- The array after all time steps of a solution interval, from `resetVis`, base/GainCalAlgorithm.cc:80-84, and
`fillMatrices`, GainCal.cc:549-611. -/
def fill (c : Cfg) (nCorr : Nat) (value : Row → Nat → ℂ) (rows : List Row) : Nat → ℂ :=
  rows.foldl (writeRow c nCorr value) fun _ => 0

end

end DP3.GainCal
