import Verif.Estimate.Model
import Mathlib.Analysis.SpecialFunctions.Log.Basic

/-!
# The robust cost of the demixer

base/EstimateMixedLBFGS.cc has the loops of base/EstimateMixed.cc twice, line by line: lines 77-207 and 248-450 visit
the same visibilities with the same cursors, residuals and coefficients. They are modelled by the equations of
`Estimate.iteration`; the cost and the gradient are what is done with each equation. Real numbers are exact.
-/

namespace DP3.Robust

open DP3.Estimate

/-- The cost of an equation: the real and the imaginary part of a residual are equations of their own.
base/EstimateMixedLBFGS.cc:148-151. -/
noncomputable def cost (ν : ℝ) (r : Row ℝ) : ℝ := Real.log (1 + r.weight * r.obs * r.obs / ν)

/-- `cost_func`. base/EstimateMixedLBFGS.cc:63-210. -/
noncomputable def costFunc (mem : Mem ℝ) (c : Curs) (nDir nSt nBl nCh : ℕ) (ν : ℝ) (u : ℕ → ℝ) : ℝ :=
  (((iteration mem nDir nSt nBl nCh u c).2).map (cost ν)).sum

/-- What one equation adds to the gradient at an unknown. base/EstimateMixedLBFGS.cc:387-394. -/
noncomputable def gradRow (ν : ℝ) (i : ℕ) (r : Row ℝ) : ℝ :=
  ((r.index.zip r.coef).map fun a => if a.1 = i then -(2 * a.2 * r.weight * r.obs / (ν + r.weight * r.obs * r.obs)) else 0).sum

/-- `grad_func`. base/EstimateMixedLBFGS.cc:227-451. -/
noncomputable def gradFunc (mem : Mem ℝ) (c : Curs) (nDir nSt nBl nCh : ℕ) (ν : ℝ) (u : ℕ → ℝ) (i : ℕ) : ℝ :=
  (((iteration mem nDir nSt nBl nCh u c).2).map (gradRow ν i)).sum

end DP3.Robust
