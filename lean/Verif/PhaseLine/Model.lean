import Mathlib.Analysis.SpecialFunctions.Trigonometric.Basic

/-!
# Fitting a line through phases

A model of common/PhaseLineFitter.h.

Simplified: floating point numbers are real numbers. A division by zero is only met where the code also ends with zero: with
the step of `GetRange` if all x values are zero, where the denominator of each fit is zero too.
-/

namespace DP3.PhaseLine

noncomputable section

/-- `FitSample`, common/PhaseLineFitter.h:15-26. -/
structure Sample where
  x : ℝ
  y : ℝ
  weight : ℝ

/-- `SlopeFitRange`, common/PhaseLineFitter.h:28-31. -/
structure Range where
  maxWraps : ℤ
  wrapStep : ℝ

/-- `std::fmod`: the remainder has the sign of the first argument. -/
def fmod (a b : ℝ) : ℝ := a - b * (if 0 ≤ a / b then ⌊a / b⌋ else ⌈a / b⌉ : ℤ)

/-- The cost of a sample without its weight, common/PhaseLineFitter.h:37-39. -/
def distance (slope : ℝ) (s : Sample) : ℝ :=
  open Classical in
  if fmod |slope * s.x - s.y| (2 * Real.pi) > Real.pi then 2 * Real.pi - fmod |slope * s.x - s.y| (2 * Real.pi)
  else fmod |slope * s.x - s.y| (2 * Real.pi)

/-- `SlopeModelCost`, common/PhaseLineFitter.h:33-48. -/
def slopeModelCost (data : List Sample) (slope : ℝ) : ℝ :=
  let r := data.foldl (fun (r : ℝ × ℝ) s => (r.1 + distance slope s * s.weight, r.2 + s.weight)) (0, 0)
  open Classical in if r.2 = 0 then 0 else r.1 / r.2

/-- The unwrapped phase of a sample, common/PhaseLineFitter.h:59-65. -/
def unwrapped (slope : ℝ) (s : Sample) : ℝ :=
  let difference := fmod (s.y - slope * s.x) (2 * Real.pi)
  open Classical in
  slope * s.x + (if difference ≥ Real.pi then difference - 2 * Real.pi
    else if difference < -Real.pi then difference + 2 * Real.pi else difference)

/-- `UnwrapAndFit`, common/PhaseLineFitter.h:50-74. -/
def unwrapAndFit (data : List Sample) (slope : ℝ) : ℝ :=
  let r := data.foldl (fun (r : ℝ × ℝ) s =>
    (r.1 + s.x * s.weight * unwrapped slope s, r.2 + s.x * s.weight * s.x)) (0, 0)
  open Classical in if r.2 ≠ 0 then r.1 / r.2 else 0

/-- `std::numeric_limits<double>::max()`. -/
def doubleMax : ℝ := (2 - (2 : ℝ)⁻¹ ^ 52) * 2 ^ 1023

/-- A step of the loop over the neighbours, common/PhaseLineFitter.h:97-99. -/
def smaller (m delta : ℝ) : ℝ := open Classical in if delta > 0 ∧ delta < m then delta else m

/-- The smallest positive distance between neighbours, common/PhaseLineFitter.h:95-100. -/
def minDelta (xs : List ℝ) : ℝ := (List.zipWith (fun a b => b - a) xs xs.tail).foldl smaller doubleMax

/-- The x value that is used for the range, common/PhaseLineFitter.h:101-103. -/
def maxAbsX (xs : List ℝ) : ℝ := open Classical in if xs.getLastD 0 < 0 then -xs.headD 0 else xs.getLastD 0

/-- The number of wraps after the first upper bound, common/PhaseLineFitter.h:119-122. -/
def boundWraps (n : Nat) (wraps : ℤ) : ℤ := if n < 20 then min wraps (10 * (2 * 2 ^ n)) else wraps

/-- `GetRange`, common/PhaseLineFitter.h:90-136, for the x values; `none` is undefined behaviour: the conversion of a too
large value to an int. -/
def getRange (xs : List ℝ) (limit : Option ℤ) : Option Range :=
  if xs = [] then some ⟨0, 0⟩
  else if ⌈maxAbsX xs / minDelta xs⌉ < 2 ^ 31 ∧ -(2 ^ 31) ≤ ⌈maxAbsX xs / minDelta xs⌉ then
    some ⟨match limit with
      | none => boundWraps xs.length ⌈maxAbsX xs / minDelta xs⌉
      | some l => min (boundWraps xs.length ⌈maxAbsX xs / minDelta xs⌉) l, Real.pi / maxAbsX xs⟩
  else none

/-- The wraps that `FitSlope` goes through, common/PhaseLineFitter.h:147. -/
def wraps (range : Range) : List ℤ :=
  (List.range (2 * range.maxWraps + 1).toNat).map fun (i : Nat) => (i : ℤ) - range.maxWraps

/-- One wrap, common/PhaseLineFitter.h:148-154: the best cost and the best estimate. -/
def tryWrap (data : List Sample) (range : Range) (best : ℝ × ℝ) (i : ℤ) : ℝ × ℝ :=
  let estimate := unwrapAndFit data (range.wrapStep * i)
  open Classical in
  if slopeModelCost data estimate < best.1 then (slopeModelCost data estimate, estimate) else best

/-- `FitSlope`, common/PhaseLineFitter.h:143-160. -/
def fitSlope (data : List Sample) (range : Range) : ℝ :=
  unwrapAndFit data ((wraps range).foldl (tryWrap data range) (doubleMax, 0)).2

/-- `FitSlope` without a range, common/PhaseLineFitter.h:185-187. -/
def fitSlopeAuto (data : List Sample) : Option ℝ := (getRange (data.map Sample.x) none).map (fitSlope data)

end

end DP3.PhaseLine
