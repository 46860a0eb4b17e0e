import Mathlib.Analysis.SpecialFunctions.Complex.Arg

/-!
# The rotation constraints

A model of ddecal/constraints/RotationConstraint.{h,cc} and RotationAndDiagonalConstraint.{h,cc}.

Simplified: floating point numbers are real numbers, `std::arg`, `std::cos` and `std::sin` are the exact functions.
The solution of an antenna is `none` if one of its four values is NaN; infinite values are not modelled. The arrays of
the results are functions of the index.
-/

namespace DP3.Rotation

noncomputable section

/-- The solution of an antenna: the four values of a 2x2 Jones matrix, row by row. -/
@[ext] structure J where
  d0 : ℂ
  d1 : ℂ
  d2 : ℂ
  d3 : ℂ

/-- `RotationConstraint::FitRotation`, RotationConstraint.h:29-38. -/
def fitRotation (j : J) : ℝ :=
  1 / 2 * (Complex.arg (j.d0 + j.d3 + Complex.I * (j.d2 - j.d1)) -
    Complex.arg (j.d0 + j.d3 + Complex.I * (j.d1 - j.d2)))

/-- `RotationConstraint::SetRotation`, RotationConstraint.h:40-45. -/
def setRotation (angle : ℝ) : J := ⟨Real.cos angle, -Real.sin angle, Real.sin angle, Real.cos angle⟩

/-- `std::fmod` for non-negative numerators; the code adds 3.5π to get these. -/
def fmod (x y : ℝ) : ℝ := x - y * ⌊x / y⌋

/-- The restriction to [-π/2, π/2), RotationAndDiagonalConstraint.cc:225 and 324. -/
def wrap (angle : ℝ) : ℝ := fmod (angle + 3.5 * Real.pi) Real.pi - 0.5 * Real.pi

/-- The modes of the diagonal, RotationAndDiagonalConstraint.cc:46-62; others are refused. -/
inductive Mode where
  | diagonal | diagonalAmplitude | diagonalPhase | scalar | scalarAmplitude | scalarPhase
  deriving DecidableEq

/-- `GetNPolarizations`, base/CalType.h:37-61, for these modes. -/
def nPol : Mode → Nat
  | .diagonal | .diagonalAmplitude | .diagonalPhase => 2
  | .scalar | .scalarAmplitude | .scalarPhase => 1

/-- `ConstrainDiagonal`, RotationAndDiagonalConstraint.cc:64-107. -/
def constrain (mode : Mode) (d : ℂ × ℂ) : ℂ × ℂ :=
  match mode with
  | .diagonal => d
  | .diagonalAmplitude => (‖d.1‖, ‖d.2‖)
  | .diagonalPhase => (d.1 / ‖d.1‖, d.2 / ‖d.2‖)
  | .scalar => ((d.1 + d.2) * 0.5, (d.1 + d.2) * 0.5)
  | .scalarAmplitude => (‖(d.1 + d.2) * 0.5‖, ‖(d.1 + d.2) * 0.5‖)
  | .scalarPhase => ((d.1 + d.2) * 0.5 / ‖(d.1 + d.2) * 0.5‖, (d.1 + d.2) * 0.5 / ‖(d.1 + d.2) * 0.5‖)

/-- The angle of `FitRotationAndDiagonal`, RotationAndDiagonalConstraint.cc:221-225. -/
def fitAngle (j : J) : ℝ := wrap (fitRotation j)

/-- The diagonal of `FitRotationAndDiagonal`, RotationAndDiagonalConstraint.cc:227-231. -/
def fitDiagonal (j : J) : ℂ × ℂ :=
  (j.d0 * Real.cos (fitAngle j) - j.d1 * Real.sin (fitAngle j),
    j.d3 * Real.cos (fitAngle j) + j.d2 * Real.sin (fitAngle j))

/-- The constrained solution, RotationAndDiagonalConstraint.cc:333-337. -/
def rebuild (d : ℂ × ℂ) (angle : ℝ) : J :=
  ⟨d.1 * Real.cos angle, -d.1 * Real.sin angle, d.2 * Real.sin angle, d.2 * Real.cos angle⟩

/-- The first loop of `Limit`, RotationAndDiagonalConstraint.cc:31-33, with a maximum number of steps. -/
def grow (mean maxRatio : ℝ) : Nat → ℂ → Option ℂ
  | 0, _ => none
  | n + 1, v =>
    open Classical in if ‖v * 1.2‖ / mean < 1 / maxRatio then grow mean maxRatio n (v * 1.2) else some (v * 1.2)

/-- The second loop of `Limit`, RotationAndDiagonalConstraint.cc:34-36, with a maximum number of steps. -/
def shrink (mean maxRatio : ℝ) : Nat → ℂ → Option ℂ
  | 0, _ => none
  | n + 1, v =>
    open Classical in if ‖v / 1.2‖ / mean > maxRatio then shrink mean maxRatio n (v / 1.2) else some (v / 1.2)

/-- `Limit`, RotationAndDiagonalConstraint.cc:22-39: the new value and the returned boolean. -/
def limit (fuel : Nat) (v : ℂ) (mean maxRatio : ℝ) : Option (ℂ × Bool) :=
  open Classical in
  if 0 < mean then
    if ‖v‖ / mean < 1 / maxRatio ∨ maxRatio < ‖v‖ / mean then some (v, true)
    else ((grow mean maxRatio fuel v).bind (shrink mean maxRatio fuel)).map fun w => (w, false)
  else some (v, false)

/-- The sizes and the settings. -/
structure Config where
  nAnt : Nat
  nSub : Nat
  nCh : Nat
  mode : Mode
  /-- `do_rotation_reference_` -/
  reference : Bool

/-- A `ConstraintResult`, ddecal/constraints/Constraint.h: values and weights. -/
structure Result where
  vals : Nat → ℝ
  weights : Nat → ℝ

/-- The solutions by channel block, antenna and sub-solution, and `results_`: the rotation, and the amplitude and the
phase as far as the mode has these. -/
structure State where
  sol : Nat → Nat → Nat → Option J
  rotation : Result
  amplitude : Result
  phase : Result

/-- Whether `MakeDiagonalResults` has an amplitude, RotationAndDiagonalConstraint.cc:132-141. -/
def hasAmplitude : Mode → Bool
  | .diagonal | .diagonalAmplitude | .scalar | .scalarAmplitude => true
  | _ => false

/-- Whether `MakeDiagonalResults` has a phase, RotationAndDiagonalConstraint.cc:143-152. -/
def hasPhase : Mode → Bool
  | .diagonal | .diagonalPhase | .scalar | .scalarPhase => true
  | _ => false

/-- The index in an array of shape (antennas, sub-solutions, channel blocks),
RotationAndDiagonalConstraint.cc:286-287 and RotationConstraint.cc:45-46. -/
def index (c : Config) (ant sub ch : Nat) : Nat := (ant * c.nSub + sub) * c.nCh + ch

/-- `SetWeights` for the rotation, RotationAndDiagonalConstraint.cc:183-186 and, with the same outcome,
RotationConstraint.cc:26-32: block by block. -/
def rotationWeights (c : Config) (weights old : Nat → ℝ) : Nat → ℝ :=
  (List.range c.nSub).foldl
    (fun w i k => if c.nAnt * c.nCh * i ≤ k ∧ k < c.nAnt * c.nCh * i + c.nAnt * c.nCh
      then weights (k - c.nAnt * c.nCh * i) else w k) old

/-- A step of the loop of `SetWeights` for the diagonal over the channel blocks,
RotationAndDiagonalConstraint.cc:198-205: the weights with the total index and the input index. -/
def diagonalWeightsChannel (p : Nat) (weights : Nat → ℝ) (s : (Nat → ℝ) × Nat × Nat) : (Nat → ℝ) × Nat × Nat :=
  (fun k => if s.2.1 ≤ k ∧ k < s.2.1 + p then weights s.2.2 else s.1 k, s.2.1 + p, s.2.2 + 1)

/-- The loop over the channel blocks of one antenna and sub-solution, RotationAndDiagonalConstraint.cc:197-205. -/
def diagonalWeightsSub (c : Config) (p : Nat) (weights : Nat → ℝ) (ant : Nat) (s : (Nat → ℝ) × Nat) : (Nat → ℝ) × Nat :=
  let r := (List.range c.nCh).foldl (fun s _ => diagonalWeightsChannel p weights s) (s.1, s.2, ant * c.nCh)
  (r.1, r.2.1)

/-- `SetWeights` for the diagonal, RotationAndDiagonalConstraint.cc:190-207. -/
def diagonalWeights (c : Config) (weights old : Nat → ℝ) : Nat → ℝ :=
  ((List.range c.nAnt).foldl
    (fun s ant => (List.range c.nSub).foldl (fun s _ => diagonalWeightsSub c (nPol c.mode) weights ant s) s)
    (old, 0)).1

/-- `SetWeights`, RotationAndDiagonalConstraint.cc:178-211. -/
def setWeights (c : Config) (weights : Nat → ℝ) (s : State) : State :=
  let first := if hasAmplitude c.mode then s.amplitude.weights else s.phase.weights
  let d := diagonalWeights c weights first
  { s with
    rotation := { s.rotation with weights := rotationWeights c weights s.rotation.weights }
    amplitude := { s.amplitude with weights := if hasAmplitude c.mode then d else s.amplitude.weights }
    phase := { s.phase with weights := if hasPhase c.mode then d else s.phase.weights } }

/-- `StoreDiagonal` for one of the results, RotationAndDiagonalConstraint.h:60-99. -/
def store (mode : Mode) (i : Nat) (f : ℂ → ℝ) (d : ℂ × ℂ) (vals : Nat → ℝ) : Nat → ℝ :=
  if nPol mode = 2 then Function.update (Function.update vals (i * 2) (f d.1)) (i * 2 + 1) (f d.2)
  else Function.update vals i (f d.1)

/-- Negative weights for the polarizations of a point, RotationAndDiagonalConstraint.cc:292-297. -/
def negative (p i : Nat) (weights : Nat → ℝ) : Nat → ℝ :=
  fun k => if i * p ≤ k ∧ k < i * p + p then -1 else weights k

/-- `SetChannelWeights`, RotationAndDiagonalConstraint.cc:234-242. -/
def setChannelWeights (c : Config) (p ch : Nat) (weights : Nat → ℝ) : Nat → ℝ :=
  (List.range c.nAnt).foldl (fun w ant => negative p (ant * c.nCh + ch) w) weights

/-- All weights of all results, with `f` for the number of polarizations, RotationAndDiagonalConstraint.cc:291-297 and
343-351. -/
def mapWeights (c : Config) (f : Nat → (Nat → ℝ) → Nat → ℝ) (s : State) : State :=
  { s with
    rotation := { s.rotation with weights := f 1 s.rotation.weights }
    amplitude := { s.amplitude with
      weights := if hasAmplitude c.mode then f (nPol c.mode) s.amplitude.weights else s.amplitude.weights }
    phase := { s.phase with
      weights := if hasPhase c.mode then f (nPol c.mode) s.phase.weights else s.phase.weights } }

/-- The amplitude of a valid antenna is added, RotationAndDiagonalConstraint.cc:257-275. -/
def addAbs (f : ℂ × ℂ → ℂ) (m : ℝ) : Option J → ℝ
  | none => m
  | some j => m + ‖f (fitDiagonal j)‖

/-- The mean amplitude over the antennas, RotationAndDiagonalConstraint.cc:254-278; `f` takes one of the diagonal. -/
def meanAbs (c : Config) (f : ℂ × ℂ → ℂ) (s : Nat → Option J) : ℝ :=
  (List.range c.nAnt).foldl (fun m ant => addAbs f m (s ant)) 0 / c.nAnt

/-- The state of the second loop over the antennas: `angle0` and `diverged`. -/
structure Loop where
  state : State
  angle0 : Option ℝ
  diverged : Bool

/-- The angle after referencing, RotationAndDiagonalConstraint.cc:316-326. -/
def referenced (c : Config) (angle0 : Option ℝ) (angle : ℝ) : ℝ :=
  if c.reference then
    match angle0 with
    | none => 0
    | some a => wrap (angle - a)
  else angle

/-- The new `angle0`, RotationAndDiagonalConstraint.cc:319-321. -/
def newAngle0 (c : Config) (angle0 : Option ℝ) (angle : ℝ) : Option ℝ :=
  if c.reference then
    match angle0 with
    | none => some angle
    | some a => some a
  else angle0

/-- `Limit` with the value of the code, RotationAndDiagonalConstraint.cc:305-312. One step of its loops is enough, see
`limit_spec`. -/
def limited (v : ℂ) (mean other : ℝ) : ℂ × Bool :=
  open Classical in if 0 < other then (limit 1 v mean 5).getD (v, true) else (v, false)

/-- One antenna of the second loop, RotationAndDiagonalConstraint.cc:284-338. The mean of the first diagonal is used
for both values. -/
def applyAntenna (c : Config) (aMean bMean : ℝ) (sub ch : Nat) (l : Loop) (ant : Nat) : Loop :=
  match l.state.sol ch ant sub with
  | none => { l with state := mapWeights c (fun p => negative p (index c ant sub ch)) l.state }
  | some j =>
    let a := limited (fitDiagonal j).1 aMean aMean
    let b := limited (fitDiagonal j).2 aMean bMean
    let d := constrain c.mode (a.1, b.1)
    let angle := referenced c l.angle0 (fitAngle j)
    let i := index c ant sub ch
    let s := l.state
    { state :=
        { sol := Function.update s.sol ch (Function.update (s.sol ch) ant
            (Function.update (s.sol ch ant) sub (some (rebuild d angle))))
          rotation := { s.rotation with vals := Function.update s.rotation.vals i angle }
          amplitude := { s.amplitude with
            vals := if hasAmplitude c.mode then store c.mode i (fun z => ‖z‖) d s.amplitude.vals else s.amplitude.vals }
          phase := { s.phase with
            vals := if hasPhase c.mode then store c.mode i Complex.arg d s.phase.vals else s.phase.vals } }
      angle0 := newAngle0 c l.angle0 (fitAngle j)
      diverged := l.diverged || a.2 || b.2 }

/-- One channel block of one sub-solution, RotationAndDiagonalConstraint.cc:252-351. -/
def applyChannel (c : Config) (s : State) (p : Nat × Nat) : State :=
  let aMean := meanAbs c Prod.fst (fun ant => s.sol p.2 ant p.1)
  let bMean := meanAbs c Prod.snd (fun ant => s.sol p.2 ant p.1)
  let l := (List.range c.nAnt).foldl (applyAntenna c aMean bMean p.1 p.2) ⟨s, none, false⟩
  if l.diverged then mapWeights c (fun n => setChannelWeights c n p.2) l.state else l.state

/-- `RotationAndDiagonalConstraint::Apply`, RotationAndDiagonalConstraint.cc:244-354: all sub-solutions and channel
blocks. -/
def apply (c : Config) (s : State) : State :=
  ((List.range c.nSub).flatMap fun sub => (List.range c.nCh).map fun ch => (sub, ch)).foldl (applyChannel c) s

/-- `RotationConstraint::Apply`, RotationConstraint.cc:34-54, for one antenna: the angle and the solution. -/
def applyRotation (j : J) : ℝ × J := (fitRotation j, setRotation (fitRotation j))

end

end DP3.Rotation
