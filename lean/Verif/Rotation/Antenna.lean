import Verif.Rotation.Model
import Mathlib.Analysis.SpecialFunctions.Complex.Circle
import Mathlib.Tactic.Linarith
import Mathlib.Tactic.Ring
import Mathlib.Tactic.FieldSimp

/-!
# The rotation constraints on the solution of one antenna (C102)
-/

namespace DP3.Rotation

open Real

/-- C102. The restricted angle is in [-π/2, π/2) and differs by a multiple of π. -/
theorem wrap_spec (x : ℝ) : -(π / 2) ≤ wrap x ∧ wrap x < π / 2 ∧ ∃ k : ℤ, wrap x = x + k * π := by
  have hpi := Real.pi_pos
  unfold wrap fmod
  have h1 := Int.floor_le ((x + 3.5 * π) / π)
  have h2 := Int.lt_floor_add_one ((x + 3.5 * π) / π)
  rw [le_div_iff₀ hpi] at h1
  rw [div_lt_iff₀ hpi] at h2
  refine ⟨by nlinarith, by nlinarith, 3 - ⌊(x + 3.5 * π) / π⌋, ?_⟩
  push_cast
  ring

/-- Angles in [-π/2, π/2) are determined by their value modulo π. -/
theorem wrap_eq (x y : ℝ) (k : ℤ) (h : y = x + k * π) (h1 : -(π / 2) ≤ x) (h2 : x < π / 2) : wrap y = x := by
  have hpi := Real.pi_pos
  obtain ⟨h3, h4, m, hm⟩ := wrap_spec y
  have hd : wrap y = x + ((m + k : ℤ) : ℝ) * π := by rw [hm, h]; push_cast; ring
  have : m + k = 0 := by
    by_contra hne
    rcases lt_or_gt_of_ne hne with h0 | h0
    · have : ((m + k : ℤ) : ℝ) ≤ -1 := by exact_mod_cast (by omega : m + k ≤ -1)
      nlinarith
    · have : (1 : ℝ) ≤ ((m + k : ℤ) : ℝ) := by exact_mod_cast (by omega : 1 ≤ m + k)
      nlinarith
  rw [hd, this]
  simp

private theorem arg_diff (z : ℂ) (hz : z ≠ 0) (φ : ℝ) :
    ∃ k : ℤ, Complex.arg (z * (Complex.cos φ + Complex.sin φ * Complex.I)) -
      Complex.arg (z * (Complex.cos ((-φ : ℝ) : ℂ) + Complex.sin ((-φ : ℝ) : ℂ) * Complex.I)) = 2 * φ + 2 * π * k := by
  have hne : ∀ ψ : ℝ, Complex.cos ψ + Complex.sin ψ * Complex.I ≠ 0 := by
    intro ψ
    rw [← Complex.exp_mul_I]
    exact Complex.exp_ne_zero _
  have h1 := Complex.arg_mul_coe_angle hz (hne φ)
  have h2 := Complex.arg_mul_coe_angle hz (hne (-φ))
  have hcs : ∀ ψ : ℝ, (Complex.arg (Complex.cos ψ + Complex.sin ψ * Complex.I) : Real.Angle) = ψ := by
    intro ψ
    have := Complex.arg_cos_add_sin_mul_I_coe_angle (ψ : Real.Angle)
    rwa [Real.Angle.cos_coe, Real.Angle.sin_coe, Complex.ofReal_cos, Complex.ofReal_sin] at this
  rw [hcs] at h1 h2
  have : ((Complex.arg (z * (Complex.cos φ + Complex.sin φ * Complex.I)) -
      Complex.arg (z * (Complex.cos ((-φ : ℝ) : ℂ) + Complex.sin ((-φ : ℝ) : ℂ) * Complex.I)) : ℝ) : Real.Angle) =
      ((2 * φ : ℝ) : Real.Angle) := by
    rw [Real.Angle.coe_sub, h1, h2, two_mul, Real.Angle.coe_add, Real.Angle.coe_neg]
    abel
  obtain ⟨k, hk⟩ := Real.Angle.angle_eq_iff_two_pi_dvd_sub.mp this
  exact ⟨k, by linarith⟩

private theorem ll_rebuild (d : ℂ × ℂ) (φ : ℝ) :
    (rebuild d φ).d0 + (rebuild d φ).d3 + Complex.I * ((rebuild d φ).d2 - (rebuild d φ).d1) =
      (d.1 + d.2) * (Complex.cos φ + Complex.sin φ * Complex.I) := by
  simp only [rebuild, Complex.ofReal_cos, Complex.ofReal_sin]
  ring

private theorem rr_rebuild (d : ℂ × ℂ) (φ : ℝ) :
    (rebuild d φ).d0 + (rebuild d φ).d3 + Complex.I * ((rebuild d φ).d1 - (rebuild d φ).d2) =
      (d.1 + d.2) * (Complex.cos ((-φ : ℝ) : ℂ) + Complex.sin ((-φ : ℝ) : ℂ) * Complex.I) := by
  simp only [rebuild, Complex.ofReal_cos, Complex.ofReal_sin, Complex.ofReal_neg, Complex.cos_neg, Complex.sin_neg]
  ring

/-- The fitted rotation of a diagonal times a rotation is that rotation, modulo π. -/
theorem fitRotation_rebuild (d : ℂ × ℂ) (φ : ℝ) (h : d.1 + d.2 ≠ 0) :
    ∃ k : ℤ, fitRotation (rebuild d φ) = φ + k * π := by
  obtain ⟨k, hk⟩ := arg_diff _ h φ
  refine ⟨k, ?_⟩
  unfold fitRotation
  rw [ll_rebuild, rr_rebuild, hk]
  ring

private theorem pm_sq (k : ℤ) : ((-1 : ℝ) ^ k) * ((-1 : ℝ) ^ k) = 1 := by
  rw [← zpow_add₀ (by norm_num), ← two_mul, zpow_mul]
  norm_num

private theorem diagonal_shift (d : ℂ × ℂ) (φ θ : ℝ) (k : ℤ) (h : θ = φ + k * π) :
    ((rebuild d φ).d0 * Real.cos θ - (rebuild d φ).d1 * Real.sin θ,
      (rebuild d φ).d3 * Real.cos θ + (rebuild d φ).d2 * Real.sin θ) =
      (((-1 : ℝ) ^ k : ℝ) * d.1, ((-1 : ℝ) ^ k : ℝ) * d.2) := by
  have hc : Real.cos θ = (-1) ^ k * Real.cos φ := by rw [h, Real.cos_add_int_mul_pi]
  have hs : Real.sin θ = (-1) ^ k * Real.sin φ := by rw [h, Real.sin_add_int_mul_pi]
  have hcs : (Real.cos φ : ℂ) * Real.cos φ + Real.sin φ * Real.sin φ = 1 := by
    rw [← Complex.ofReal_mul, ← Complex.ofReal_mul, ← Complex.ofReal_add, ← sq, ← sq, Real.cos_sq_add_sin_sq,
      Complex.ofReal_one]
  rw [hc, hs]
  simp only [rebuild, Complex.ofReal_mul]
  generalize (((-1 : ℝ) ^ k : ℝ) : ℂ) = e
  generalize (Real.cos φ : ℂ) = x at *
  generalize (Real.sin φ : ℂ) = y at *
  refine Prod.ext ?_ ?_
  · show d.1 * x * (e * x) - -d.1 * y * (e * y) = e * d.1
    linear_combination (e * d.1) * hcs
  · show d.2 * x * (e * x) + d.2 * y * (e * y) = e * d.2
    linear_combination (e * d.2) * hcs

private theorem rebuild_sign (d : ℂ × ℂ) (φ θ e : ℝ) (he : e * e = 1) (hc : Real.cos θ = e * Real.cos φ)
    (hs : Real.sin θ = e * Real.sin φ) : rebuild (e * d.1, e * d.2) θ = rebuild d φ := by
  have he' : (e : ℂ) * e = 1 := by rw [← Complex.ofReal_mul, he, Complex.ofReal_one]
  unfold rebuild
  rw [hc, hs]
  simp only [Complex.ofReal_mul]
  ext <;> simp only
  · linear_combination (d.1 * (Real.cos φ : ℂ)) * he'
  · linear_combination (-d.1 * (Real.sin φ : ℂ)) * he'
  · linear_combination (d.2 * (Real.sin φ : ℂ)) * he'
  · linear_combination (d.2 * (Real.cos φ : ℂ)) * he'

/-- C102. A solution that is a diagonal times a rotation is not changed by fitting and rebuilding; the angle is that of
the rotation modulo π. -/
theorem rebuild_fit (d : ℂ × ℂ) (φ : ℝ) (h : d.1 + d.2 ≠ 0) :
    rebuild (fitDiagonal (rebuild d φ)) (fitAngle (rebuild d φ)) = rebuild d φ ∧
    ∃ k : ℤ, fitAngle (rebuild d φ) = φ + k * π := by
  obtain ⟨k, hk⟩ := fitRotation_rebuild d φ h
  obtain ⟨-, -, m, hm⟩ := wrap_spec (fitRotation (rebuild d φ))
  have ha : fitAngle (rebuild d φ) = φ + ((k + m : ℤ) : ℝ) * π := by
    unfold fitAngle; rw [hm, hk]; push_cast; ring
  refine ⟨?_, _, ha⟩
  have hd : fitDiagonal (rebuild d φ) = (((-1 : ℝ) ^ (k + m) : ℝ) * d.1, ((-1 : ℝ) ^ (k + m) : ℝ) * d.2) := by
    unfold fitDiagonal
    exact diagonal_shift d φ _ _ ha
  have hc : Real.cos (fitAngle (rebuild d φ)) = (-1) ^ (k + m) * Real.cos φ := by rw [ha, Real.cos_add_int_mul_pi]
  have hs : Real.sin (fitAngle (rebuild d φ)) = (-1) ^ (k + m) * Real.sin φ := by rw [ha, Real.sin_add_int_mul_pi]
  rw [hd]
  exact rebuild_sign d φ _ _ (pm_sq _) hc hs

/-- C102. With an angle in [-π/2, π/2), the diagonal and the angle are found back. -/
theorem fit_rebuild (d : ℂ × ℂ) (φ : ℝ) (h : d.1 + d.2 ≠ 0) (h1 : -(π / 2) ≤ φ) (h2 : φ < π / 2) :
    fitAngle (rebuild d φ) = φ ∧ fitDiagonal (rebuild d φ) = d := by
  obtain ⟨k, hk⟩ := fitRotation_rebuild d φ h
  have ha : fitAngle (rebuild d φ) = φ := by
    unfold fitAngle
    exact wrap_eq φ _ k hk h1 h2
  refine ⟨ha, ?_⟩
  unfold fitDiagonal
  rw [diagonal_shift d φ _ 0 (by rw [ha]; simp)]
  simp

/-- The phase of the diagonal is defined. -/
def Defined (mode : Mode) (d : ℂ × ℂ) : Prop :=
  match mode with
  | .diagonalPhase => d.1 ≠ 0 ∧ d.2 ≠ 0
  | .scalarPhase => d.1 + d.2 ≠ 0
  | _ => True

/-- The diagonals that a mode asks for. -/
def Allowed (mode : Mode) (d : ℂ × ℂ) : Prop :=
  match mode with
  | .diagonal => True
  | .diagonalAmplitude => (∃ a b : ℝ, 0 ≤ a ∧ 0 ≤ b ∧ d = ((a : ℂ), (b : ℂ)))
  | .diagonalPhase => ‖d.1‖ = 1 ∧ ‖d.2‖ = 1
  | .scalar => d.1 = d.2
  | .scalarAmplitude => ∃ a : ℝ, 0 ≤ a ∧ d = ((a : ℂ), (a : ℂ))
  | .scalarPhase => d.1 = d.2 ∧ ‖d.1‖ = 1

private theorem norm_div_norm (z : ℂ) (h : z ≠ 0) : ‖z / (‖z‖ : ℂ)‖ = 1 := by
  rw [norm_div, Complex.norm_real, norm_norm, div_self (norm_ne_zero_iff.mpr h)]

/-- C102. The constrained diagonal is as the mode asks for, and allowed diagonals are not changed. -/
theorem constrain_spec (mode : Mode) (d : ℂ × ℂ) (h : Defined mode d) :
    Allowed mode (constrain mode d) ∧ (Allowed mode d → constrain mode d = d) := by
  have hhalf : ∀ z : ℂ, (z + z) * 0.5 = z := by intro z; ring
  cases mode <;> simp only [Defined] at h <;> simp only [Allowed, constrain]
  · exact ⟨trivial, fun _ => trivial⟩
  · refine ⟨⟨_, _, norm_nonneg _, norm_nonneg _, rfl⟩, ?_⟩
    rintro ⟨a, b, ha, hb, rfl⟩
    simp [abs_of_nonneg ha, abs_of_nonneg hb]
  · refine ⟨⟨norm_div_norm _ h.1, norm_div_norm _ h.2⟩, ?_⟩
    rintro ⟨h1, h2⟩
    rw [h1, h2]
    simp
  · refine ⟨trivial, fun he => ?_⟩
    rw [← he, hhalf]
    exact Prod.ext rfl he
  · refine ⟨⟨_, norm_nonneg _, rfl⟩, ?_⟩
    rintro ⟨a, ha, rfl⟩
    simp only [hhalf]
    simp [abs_of_nonneg ha]
  · have hne : (d.1 + d.2) * 0.5 ≠ 0 := mul_ne_zero h (by norm_num)
    refine ⟨⟨trivial, norm_div_norm _ hne⟩, ?_⟩
    rintro ⟨h1, h2⟩
    rw [← h1, hhalf, h2]
    exact Prod.ext (by simp) (by simpa using h1)

/-- C102. The constrained solution of an antenna is a diagonal of the mode times a rotation, and constraining it again
with the same or with no reference angle changes nothing. -/
theorem project_idempotent (mode : Mode) (j : J) (hd : Defined mode (fitDiagonal j))
    (hs : (constrain mode (fitDiagonal j)).1 + (constrain mode (fitDiagonal j)).2 ≠ 0) :
    let j' := rebuild (constrain mode (fitDiagonal j)) (fitAngle j)
    fitAngle j' = fitAngle j ∧ rebuild (constrain mode (fitDiagonal j')) (fitAngle j') = j' := by
  intro j'
  obtain ⟨h1, h2, -⟩ := wrap_spec (fitRotation j)
  obtain ⟨ha, hdg⟩ := fit_rebuild _ _ hs h1 h2
  have hal := (constrain_spec mode _ hd).1
  have ha' : fitAngle j' = fitAngle j := ha
  refine ⟨ha', ?_⟩
  have hdef : Defined mode (constrain mode (fitDiagonal j)) := by
    cases mode <;> simp only [Defined, Allowed] at hal ⊢
    · exact ⟨norm_ne_zero_iff.mp (by rw [hal.1]; norm_num), norm_ne_zero_iff.mp (by rw [hal.2]; norm_num)⟩
    · exact hs
  have hdg' : fitDiagonal j' = constrain mode (fitDiagonal j) := hdg
  rw [ha', hdg', (constrain_spec mode _ hdef).2 hal]

/-- C102. A rotated diagonal whose values cancel loses its rotation: it is replaced by a diagonal. -/
theorem cancelling_diagonal (a : ℂ) (φ : ℝ) :
    rebuild (fitDiagonal (rebuild (a, -a) φ)) (fitAngle (rebuild (a, -a) φ)) =
      ⟨a * Real.cos φ, 0, 0, -a * Real.cos φ⟩ := by
  have hf : fitRotation (rebuild (a, -a) φ) = 0 := by
    unfold fitRotation
    rw [ll_rebuild, rr_rebuild]
    simp
  have ha : fitAngle (rebuild (a, -a) φ) = 0 := by
    unfold fitAngle
    have hpi := Real.pi_pos
    exact wrap_eq 0 _ 0 (by rw [hf]; simp) (by linarith) (by linarith)
  unfold fitDiagonal
  rw [ha]
  ext <;> simp [rebuild]

/-! ## RotationConstraint -/

private theorem fitRotation_bounds (j : J) : -π < fitRotation j ∧ fitRotation j < π := by
  unfold fitRotation
  have h1 := Complex.neg_pi_lt_arg (j.d0 + j.d3 + Complex.I * (j.d2 - j.d1))
  have h2 := Complex.arg_le_pi (j.d0 + j.d3 + Complex.I * (j.d2 - j.d1))
  have h3 := Complex.neg_pi_lt_arg (j.d0 + j.d3 + Complex.I * (j.d1 - j.d2))
  have h4 := Complex.arg_le_pi (j.d0 + j.d3 + Complex.I * (j.d1 - j.d2))
  constructor <;> linarith

private theorem setRotation_eq (φ : ℝ) : setRotation φ = rebuild (1, 1) φ := by
  ext <;> simp [setRotation, rebuild]

/-- The angle of a rotation between -π and π is found back. -/
private theorem fitRotation_setRotation (φ : ℝ) (h1 : -π < φ) (h2 : φ < π) : fitRotation (setRotation φ) = φ := by
  rw [setRotation_eq]
  unfold fitRotation
  rw [ll_rebuild, rr_rebuild]
  have h : ((1, 1) : ℂ × ℂ).1 + ((1, 1) : ℂ × ℂ).2 = ((2 : ℝ) : ℂ) := by norm_num
  rw [h, Complex.arg_mul_cos_add_sin_mul_I (by norm_num) ⟨h1, h2.le⟩,
    Complex.arg_mul_cos_add_sin_mul_I (by norm_num) ⟨by linarith, by linarith⟩]
  ring

/-- C102. `RotationConstraint`: the solution becomes a rotation; applying the constraint again changes nothing; a
complex multiple of a rotation becomes that rotation up to the sign, and a rotation between -π and π stays as it is. -/
theorem rotation_spec (j : J) :
    (∃ φ, (applyRotation j).2 = setRotation φ ∧ (applyRotation j).1 = φ) ∧
    applyRotation (applyRotation j).2 = applyRotation j ∧
    (∀ (z : ℂ) (φ : ℝ), z ≠ 0 → j = rebuild (z, z) φ →
      ∃ k : ℤ, (applyRotation j).1 = φ + k * π ∧ (applyRotation j).2 = rebuild (((-1 : ℝ) ^ k : ℝ), ((-1 : ℝ) ^ k : ℝ)) φ) ∧
    ∀ φ : ℝ, -π < φ → φ < π → j = setRotation φ → applyRotation j = (φ, j) := by
  obtain ⟨h1, h2⟩ := fitRotation_bounds j
  refine ⟨⟨_, rfl, rfl⟩, ?_, ?_, ?_⟩
  · unfold applyRotation
    rw [fitRotation_setRotation _ h1 h2]
  · rintro z φ hz rfl
    obtain ⟨k, hk⟩ := fitRotation_rebuild (z, z) φ (by simpa using hz)
    refine ⟨k, hk, ?_⟩
    unfold applyRotation
    rw [hk]
    simp only [setRotation, Real.cos_add_int_mul_pi, Real.sin_add_int_mul_pi, rebuild]
    ext <;> push_cast <;> ring
  · rintro φ h3 h4 rfl
    unfold applyRotation
    rw [fitRotation_setRotation φ h3 h4]

/-! ## The limit of the amplitudes -/

/-- C103. `Limit` terminates and never changes a value: it only tells whether the amplitude is out of range. -/
theorem limit_spec (fuel : Nat) (hf : 0 < fuel) (v : ℂ) (mean maxRatio : ℝ) :
    ∃ b, limit fuel v mean maxRatio = some (v, b) ∧
      (b = true ↔ 0 < mean ∧ (‖v‖ < mean / maxRatio ∨ maxRatio * mean < ‖v‖)) := by
  obtain ⟨n, rfl⟩ : ∃ n, fuel = n + 1 := ⟨fuel - 1, by omega⟩
  unfold limit
  by_cases hm : 0 < mean
  · rw [if_pos hm]
    have e1 : ‖v‖ / mean < 1 / maxRatio ↔ ‖v‖ < mean / maxRatio := by
      rw [div_lt_iff₀ hm, one_div, div_eq_inv_mul]
    have e2 : maxRatio < ‖v‖ / mean ↔ maxRatio * mean < ‖v‖ := lt_div_iff₀ hm
    by_cases ho : ‖v‖ / mean < 1 / maxRatio ∨ maxRatio < ‖v‖ / mean
    · rw [if_pos ho]
      refine ⟨true, rfl, by rw [← e1, ← e2]; exact ⟨fun _ => ⟨hm, ho⟩, fun _ => rfl⟩⟩
    · rw [if_neg ho]
      have ho' := ho
      rw [not_or, not_lt, not_lt] at ho
      have hn : ‖v * 1.2‖ = ‖v‖ * 1.2 := by rw [norm_mul]; norm_num
      have hg : grow mean maxRatio (n + 1) v = some (v * 1.2) := by
        unfold grow
        rw [if_neg]
        rw [not_lt, hn]
        refine le_trans ho.1 ?_
        apply div_le_div_of_nonneg_right _ hm.le
        nlinarith [norm_nonneg v]
      have hv : v * 1.2 / 1.2 = v := by norm_num
      have hs : shrink mean maxRatio (n + 1) (v * 1.2) = some v := by
        unfold shrink
        rw [hv, if_neg (not_lt.mpr ho.2)]
      refine ⟨false, by rw [hg, Option.bind_some, hs]; rfl, by
        rw [← e1, ← e2]; exact ⟨fun h => absurd h (by simp), fun h => absurd h.2 ho'⟩⟩
  · rw [if_neg hm]
    exact ⟨false, rfl, by simp [hm]⟩

/-! ## Examples -/

/-- Of `rebuild_fit`, `fit_rebuild`, `constrain_spec` and `project_idempotent`: gains 2 and i, rotated by 1/2. -/
example : ((2 : ℂ), Complex.I).1 + ((2 : ℂ), Complex.I).2 ≠ 0 ∧ -(π / 2) ≤ (1 / 2 : ℝ) ∧ (1 / 2 : ℝ) < π / 2 ∧
    Defined .diagonalPhase (2, Complex.I) ∧ (rebuild (2, Complex.I) (1 / 2)).d1 ≠ 0 := by
  have hpi := Real.two_le_pi
  refine ⟨?_, by linarith, by linarith, ⟨by norm_num, Complex.I_ne_zero⟩, ?_⟩
  · intro h
    have := congrArg Complex.re h
    simp at this
  · simp only [rebuild]
    rw [neg_mul, neg_ne_zero]
    refine mul_ne_zero (by norm_num) ?_
    rw [Complex.ofReal_ne_zero]
    exact (Real.sin_pos_of_pos_of_lt_pi (by norm_num) (by linarith)).ne'

/-- Of `project_idempotent`: a matrix that is not a rotated diagonal, whose solution is the unit diagonal. -/
example : fitDiagonal ⟨1, 1, 1, 1⟩ = (1, 1) ∧
    (constrain .diagonalPhase (fitDiagonal ⟨1, 1, 1, 1⟩)).1 + (constrain .diagonalPhase (fitDiagonal ⟨1, 1, 1, 1⟩)).2 ≠ 0 := by
  have hf : fitRotation ⟨1, 1, 1, 1⟩ = 0 := by simp [fitRotation]
  have hpi := Real.pi_pos
  have ha : fitAngle ⟨1, 1, 1, 1⟩ = 0 := wrap_eq 0 _ 0 (by rw [hf]; simp) (by linarith) (by linarith)
  have hd : fitDiagonal ⟨1, 1, 1, 1⟩ = (1, 1) := by simp [fitDiagonal, ha]
  rw [hd]
  refine ⟨rfl, ?_⟩
  simp [constrain]

/-- Of `cancelling_diagonal`: a rotation by a quarter turn of (1, -1) is replaced by zeros. -/
example : rebuild (fitDiagonal (rebuild (1, -1) (π / 2))) (fitAngle (rebuild (1, -1) (π / 2))) = ⟨0, 0, 0, 0⟩ ∧
    (rebuild (1, -1) (π / 2)).d1 = -1 := by
  rw [cancelling_diagonal]
  constructor
  · ext <;> simp
  · simp [rebuild]

/-- Of `limit_spec`: amplitudes of ten times the mean and of the mean. -/
example : limit 1 10 1 5 = some (10, true) ∧ limit 1 1 1 5 = some (1, false) := by
  obtain ⟨b, h, hb⟩ := limit_spec 1 (by norm_num) 10 1 5
  obtain ⟨b', h', hb'⟩ := limit_spec 1 (by norm_num) 1 1 5
  have : b = true := hb.mpr ⟨by norm_num, .inr (by norm_num)⟩
  have h2 : b' = false := by
    rw [Bool.eq_false_iff]
    intro hc
    rcases (hb'.mp hc).2 with h | h
    · norm_num at h
    · norm_num at h
  rw [h, h', this, h2]
  exact ⟨rfl, rfl⟩

end DP3.Rotation
