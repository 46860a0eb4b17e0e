import Verif.Rotation.Model
import Verif.PhaseLine.Model

/-!
# The Faraday rotation constraint

A model of ddecal/constraints/FaradayConstraint.cc for one antenna and one sub-solution, and of its weights.

Simplified as in `Verif.Rotation.Model`. The weights are not rounded to float.
-/

namespace DP3.Rotation

noncomputable section

/-- The settings: the number of channel blocks, their frequencies, the speed of light, the mode of the diagonal (`none`
is `CalType::kRotation`) and `max_rotation_value_`, FaradayConstraint.h:22-25. -/
structure Faraday where
  nCh : Nat
  freqs : Nat → ℝ
  speedOfLight : ℝ
  mode : Option Mode
  limit : Option ℝ

/-- The square of the wavelength, FaradayConstraint.cc:28-29 and 138-140. -/
def lambda2 (c : Faraday) (ch : Nat) : ℝ := c.speedOfLight / c.freqs ch * (c.speedOfLight / c.freqs ch)

/-- The x values of the fitter, from the last channel block to the first, FaradayConstraint.cc:24-30. -/
def grid (c : Faraday) : List ℝ := (List.range c.nCh).map fun i => lambda2 c (c.nCh - i - 1)

/-- The limit of the range, FaradayConstraint.cc:32-39. -/
def limitRange (limit : Option ℝ) (r : PhaseLine.Range) : PhaseLine.Range :=
  match limit with
  | none => r
  | some l =>
    open Classical in
    if r.wrapStep * r.maxWraps > l ∧ r.wrapStep ≠ 0 then { r with maxWraps := ⌈l / r.wrapStep⌉ } else r

/-- `fit_range_`, FaradayConstraint.cc:24-39; `none` is the undefined behaviour of `GetRange`. -/
def fitRange (c : Faraday) : Option PhaseLine.Range := (PhaseLine.getRange (grid c) none).map (limitRange c.limit)

/-- The sample of a channel block, FaradayConstraint.cc:132-152. -/
def sample (c : Faraday) (weights : Nat → ℝ) (sol : Nat → Option J) (ch : Nat) : PhaseLine.Sample :=
  match sol ch with
  | none => ⟨lambda2 c ch, 0 * 2, 0⟩
  | some j => ⟨lambda2 c ch, fitRotation j * 2, weights ch⟩

/-- The samples, from the last channel block to the first, FaradayConstraint.cc:128-153. -/
def samples (c : Faraday) (weights : Nat → ℝ) (sol : Nat → Option J) : List PhaseLine.Sample :=
  (List.range c.nCh).map fun i => sample c weights sol (c.nCh - i - 1)

/-- The slope, FaradayConstraint.cc:155-156. -/
def slope (c : Faraday) (range : PhaseLine.Range) (weights : Nat → ℝ) (sol : Nat → Option J) : ℝ :=
  0.5 * PhaseLine.fitSlope (samples c weights sol) range

/-- The diagonal of the derotated solution, FaradayConstraint.cc:169-173. -/
def derotated (j : J) (angle : ℝ) : ℂ × ℂ :=
  (j.d0 * Real.cos angle - j.d1 * Real.sin angle, j.d2 * Real.sin angle + j.d3 * Real.cos angle)

/-- `ConstrainDiagonal` with `kRotation`, RotationAndDiagonalConstraint.cc:64-107. -/
def constrainMode : Option Mode → ℂ × ℂ → ℂ × ℂ
  | none, _ => (1, 1)
  | some mode, d => constrain mode d

/-- The new solution: the columns of the rotation are multiplied, FaradayConstraint.cc:179-183. -/
def columns (d : ℂ × ℂ) (angle : ℝ) : J :=
  ⟨(setRotation angle).d0 * d.1, (setRotation angle).d1 * d.2, (setRotation angle).d2 * d.1, (setRotation angle).d3 * d.2⟩

/-- The new solution of one channel block, FaradayConstraint.cc:159-184: NaN values stay NaN unless the diagonal is not
used. -/
def newChannel (c : Faraday) (slope : ℝ) (sol : Nat → Option J) (ch : Nat) : Option J :=
  match sol ch with
  | none => if c.mode.isNone then some (columns (1, 1) (lambda2 c ch * slope)) else none
  | some j => some (columns (constrainMode c.mode (derotated j (lambda2 c ch * slope))) (lambda2 c ch * slope))

/-- `PerformFit`, FaradayConstraint.cc:124-185: the rotation measure and the new solutions. -/
def performFit (c : Faraday) (range : PhaseLine.Range) (weights : Nat → ℝ) (sol : Nat → Option J) : ℝ × (Nat → Option J) :=
  (slope c range weights sol, newChannel c (slope c range weights sol) sol)

/-- `SetWeights`, FaradayConstraint.cc:55-84, for the amplitude or phase. -/
def faradayWeights (nAnt nSub nCh nPol : Nat) (weights : Nat → ℝ) : List ℝ :=
  (List.range nAnt).flatMap fun ant => (List.range nSub).flatMap fun _ => (List.range nCh).flatMap fun ch =>
    List.replicate nPol (weights (ant * nCh + ch))

/-- `SetSubSolutionWeights`, FaradayConstraint.cc:86-104, for the amplitude or phase, with the weights of each
sub-solution. -/
def faradaySubWeights (nAnt nSub nCh : Nat) (weights : Nat → Nat → ℝ) : List ℝ :=
  (List.range nAnt).flatMap fun ant => (List.range nSub).flatMap fun sub => (List.range nCh).map fun ch =>
    weights sub (ant * nCh + ch)

/-- The weights of the rotation measure, FaradayConstraint.cc:66-72 and 92-102. -/
def measureWeights (nAnt nSub nCh : Nat) (weights : Nat → Nat → ℝ) : List ℝ :=
  (List.range nAnt).flatMap fun ant => (List.range nSub).map fun sub =>
    (List.range nCh).foldl (fun sum ch => sum + weights sub (ant * nCh + ch)) 0

end

end DP3.Rotation
