import Verif.Simulator.Model
import Mathlib.Algebra.BigOperators.Group.List.Lemmas

/-!
# C118: the spectra and the polarization of sources
-/

namespace DP3.Simulator

open PhaseShift (Direction lightSpeed)

set_option linter.unusedSimpArgs false

/-- A polynomial. -/
noncomputable def poly (terms : List ℝ) (x : ℝ) : ℝ := ((List.range terms.length).map fun k => terms.getD k 0 * x ^ k).sum

private theorem poly_cons (t : ℝ) (ts : List ℝ) (x : ℝ) : poly (t :: ts) x = t + x * poly ts x := by
  unfold poly
  rw [List.length_cons, List.range_succ_eq_map, List.map_cons, List.sum_cons, List.map_map]
  congr 1
  · simp
  · rw [← List.sum_map_mul_left]
    congr 1
    apply List.map_congr_left
    intro k _
    simp
    ring

theorem horner_eq (terms : List ℝ) (x : ℝ) : horner terms x = poly terms x := by
  unfold horner
  induction terms with
  | nil => simp [poly]
  | cons t ts ih =>
    rw [List.reverse_cons, List.foldl_append, List.foldl_cons, List.foldl_nil, ih, poly_cons]
    ring

/-- **C118.** With logarithmic spectral terms, Stokes I is a power law with a curved index. -/
theorem stokes_log (c : Point) (hl : c.hasLogarithmicSI = true) (f : ℝ) (hf : 0 < f) (hr : 0 < c.refFreq) :
    (stokesAt c f).I = c.stokes.I * (f / c.refFreq) ^ (poly c.terms (Real.logb 10 (f / c.refFreq))) := by
  have hI : (stokesAt c f).I = stokesI c f := by
    unfold stokesAt
    split <;> rfl
  rw [hI]
  unfold stokesI
  by_cases ht : c.terms = []
  · rw [if_neg (by simp [ht])]
    simp [ht, poly]
  · rw [if_pos ht, if_pos hl]
    simp only
    rw [horner_eq, ← Real.logb_div hf.ne' hr.ne']
    have hq : 0 < f / c.refFreq := div_pos hf hr
    rw [Real.rpow_mul (by norm_num), Real.rpow_logb (by norm_num) (by norm_num) hq]

/-- **C118.** With ordinary spectral terms, Stokes I is a polynomial. -/
theorem stokes_linear (c : Point) (hl : c.hasLogarithmicSI = false) (f : ℝ) :
    (stokesAt c f).I = c.stokes.I + ((List.range c.terms.length).map fun k => c.terms.getD k 0 * (f / c.refFreq - 1) ^ (k + 1)).sum := by
  have hI : (stokesAt c f).I = stokesI c f := by
    unfold stokesAt
    split <;> rfl
  rw [hI]
  unfold stokesI
  by_cases ht : c.terms = []
  · rw [if_neg (by simp [ht])]
    simp [ht]
  · rw [if_pos ht, if_neg (by simp [hl])]
    simp only
    rw [horner_eq]
    unfold poly
    congr 1
    rw [← List.sum_map_mul_right]
    congr 1
    apply List.map_congr_left
    intro k _
    rw [pow_succ]
    ring

/-- **C118.** At the reference frequency, Stokes I is that of the catalogue. -/
theorem stokes_ref (c : Point) (hr : 0 < c.refFreq) : (stokesAt c c.refFreq).I = c.stokes.I := by
  cases h : c.hasLogarithmicSI
  · rw [stokes_linear c h, div_self hr.ne']
    have : (List.range c.terms.length).map (fun k => c.terms.getD k 0 * ((1 : ℝ) - 1) ^ (k + 1)) =
        (List.range c.terms.length).map (fun _ => (0 : ℝ)) := by
      apply List.map_congr_left
      intro k _
      simp
    rw [this]
    simp
  · rw [stokes_log c h _ hr hr, div_self hr.ne', Real.one_rpow, mul_one]

/-- **C118.** With a rotation measure, the linear polarization at every frequency is the given fraction of Stokes I, at an angle that is
linear in the square of the wavelength. -/
theorem stokes_rm (c : Point) (h : c.hasRotationMeasure = true) (f : ℝ) :
    (⟨(stokesAt c f).Q, (stokesAt c f).U⟩ : ℂ) = (c.polarizedFraction * (stokesAt c f).I : ℝ) *
      Complex.exp ((2 * (c.polarizationAngle + c.rotationMeasure * (lightSpeed / f) ^ 2) : ℝ) * Complex.I) := by
  unfold stokesAt
  simp only [h, if_true]
  apply Complex.ext
  · rw [Complex.re_ofReal_mul, Complex.exp_ofReal_mul_I_re]
    simp only
    rw [show c.rotationMeasure * (lightSpeed / f) * (lightSpeed / f) = c.rotationMeasure * (lightSpeed / f) ^ 2 by ring]
    ring
  · rw [Complex.im_ofReal_mul, Complex.exp_ofReal_mul_I_im]
    simp only
    rw [show c.rotationMeasure * (lightSpeed / f) * (lightSpeed / f) = c.rotationMeasure * (lightSpeed / f) ^ 2 by ring]
    ring

/-- **C118.** The polarization without a rotation measure, and Stokes V, are these of the catalogue at every frequency. -/
theorem stokes_rest (c : Point) (f : ℝ) :
    (stokesAt c f).V = c.stokes.V ∧ (c.hasRotationMeasure = false → (stokesAt c f).Q = c.stokes.Q ∧ (stokesAt c f).U = c.stokes.U) := by
  unfold stokesAt
  cases h : c.hasRotationMeasure <;> simp

/-! ## Q and U in the catalogue, with a rotation measure -/

private theorem modPi_eq (x : ℝ) : ∃ n : ℤ, modPi x = x + n * Real.pi := by
  classical
  unfold modPi
  simp only
  split <;> split
  · exact ⟨-⌊x / Real.pi⌋ + 1, by push_cast; ring⟩
  · exact ⟨-⌊x / Real.pi⌋, by push_cast; ring⟩
  · exact ⟨-⌈x / Real.pi⌉ + 1, by push_cast; ring⟩
  · exact ⟨-⌈x / Real.pi⌉, by push_cast; ring⟩

/-- The angle is between zero and half a turn. -/
theorem modPi_range (x : ℝ) : 0 ≤ modPi x ∧ modPi x < Real.pi := by
  classical
  have hpi := Real.pi_pos
  have e : x = Real.pi * (x / Real.pi) := by field_simp
  unfold modPi
  simp only
  by_cases hq : 0 ≤ x / Real.pi
  · rw [if_pos hq]
    have h1 := Int.floor_le (x / Real.pi)
    have h2 := Int.lt_floor_add_one (x / Real.pi)
    have a : 0 ≤ x - Real.pi * ⌊x / Real.pi⌋ := by nlinarith
    have b : x - Real.pi * ⌊x / Real.pi⌋ < Real.pi := by nlinarith
    rw [if_neg (not_lt.mpr a)]
    exact ⟨a, b⟩
  · rw [if_neg hq]
    have h1 := Int.le_ceil (x / Real.pi)
    have h2 := Int.ceil_lt_add_one (x / Real.pi)
    have a : x - Real.pi * ⌈x / Real.pi⌉ ≤ 0 := by nlinarith
    have b : -Real.pi < x - Real.pi * ⌈x / Real.pi⌉ := by nlinarith
    split
    · constructor <;> linarith
    · constructor <;> linarith

private theorem factor_foldl (ts : List ℝ) (l a b : ℝ) :
    (ts.foldl (fun (r : ℝ × ℝ) t => (r.1 + r.2 * t, r.2 * l)) (a, b)).1 = a + b * poly ts l := by
  induction ts generalizing a b with
  | nil => simp [poly]
  | cons t ts ih =>
    rw [List.foldl_cons, ih, poly_cons]
    ring

/-- The spectral factor of `calcRMParam` is the power law. -/
theorem factor_eq (terms : List ℝ) (refFreq w : ℝ) :
    rmSpectralFactor terms refFreq w = (lightSpeed / w / refFreq) ^ (poly terms (Real.logb 10 (lightSpeed / w / refFreq))) := by
  unfold rmSpectralFactor
  by_cases h : terms.length > 0
  · rw [if_pos h]
    simp only
    rw [factor_foldl]
    simp
  · rw [if_neg h]
    have : terms = [] := by
      cases terms
      · rfl
      · simp at h
    simp [this, poly]

/-- **C118.** For a source with logarithmic spectral terms (or none), a rotation measure, and Q and U in the catalogue for a reference
wavelength, the model has exactly this Q and U at this wavelength. -/
theorem rm_reference_partial (c : Point) (hl : c.hasLogarithmicSI = true ∨ c.terms = []) (hrm : c.hasRotationMeasure = true) (fluxQ fluxU w : ℝ)
    (hw : 0 < w) (hr : 0 < c.refFreq) (hI : c.stokes.I ≠ 0) (frac angle : ℝ)
    (h : calcRMParam c.stokes.I fluxQ fluxU c.terms c.rotationMeasure c.refFreq w = some (frac, angle))
    (hf : c.polarizedFraction = frac) (ha : c.polarizationAngle = angle) :
    (stokesAt c (lightSpeed / w)).Q = fluxQ ∧ (stokesAt c (lightSpeed / w)).U = fluxU := by
  classical
  have hls : 0 < lightSpeed := by norm_num [lightSpeed]
  have hrm' := stokes_rm c hrm (lightSpeed / w)
  unfold calcRMParam at h
  rw [if_neg (by intro hh; linarith [hh.2])] at h
  simp only [Option.some.injEq, Prod.mk.injEq] at h
  obtain ⟨h1, h2⟩ := h
  have hstokes : (stokesAt c (lightSpeed / w)).I = c.stokes.I * rmSpectralFactor c.terms c.refFreq w := by
    rw [factor_eq]
    rcases hl with hl | hl
    · exact stokes_log c hl _ (div_pos hls hw) hr
    · have hI : (stokesAt c (lightSpeed / w)).I = stokesI c (lightSpeed / w) := by
        unfold stokesAt
        split <;> rfl
      rw [hI]
      unfold stokesI
      rw [if_neg (by simp [hl]), hl]
      simp [poly]
  have hpos : 0 < rmSpectralFactor c.terms c.refFreq w := by
    rw [factor_eq]
    exact Real.rpow_pos_of_pos (div_pos (div_pos hls hw) hr) _
  obtain ⟨n, hn⟩ := modPi_eq (0.5 * Complex.arg ⟨fluxQ, fluxU⟩ - w * w * c.rotationMeasure)
  have hfrac : c.polarizedFraction * (stokesAt c (lightSpeed / w)).I = ‖(⟨fluxQ, fluxU⟩ : ℂ)‖ := by
    have hn0 : ‖(⟨fluxQ, fluxU⟩ : ℂ)‖ = Real.sqrt (fluxQ * fluxQ + fluxU * fluxU) := by
      rw [Complex.norm_def, Complex.normSq_apply]
    rw [hf, ← h1, hstokes, hn0]
    have : c.stokes.I * rmSpectralFactor c.terms c.refFreq w ≠ 0 := mul_ne_zero hI hpos.ne'
    field_simp
  have hang : (2 * (c.polarizationAngle + c.rotationMeasure * (lightSpeed / (lightSpeed / w)) ^ 2) : ℝ) =
      Complex.arg ⟨fluxQ, fluxU⟩ + n * (2 * Real.pi) := by
    rw [ha, ← h2, hn, div_div_cancel₀ hls.ne']
    ring
  rw [hfrac, hang] at hrm'
  have hexp : Complex.exp (((Complex.arg ⟨fluxQ, fluxU⟩ + n * (2 * Real.pi) : ℝ) : ℂ) * Complex.I) =
      Complex.exp ((Complex.arg ⟨fluxQ, fluxU⟩ : ℂ) * Complex.I) := by
    push_cast
    rw [add_mul, Complex.exp_add]
    have : (n : ℂ) * (2 * (Real.pi : ℂ)) * Complex.I = n * (2 * Real.pi * Complex.I) := by ring
    rw [this, Complex.exp_int_mul_two_pi_mul_I, mul_one]
  rw [hexp, Complex.norm_mul_exp_arg_mul_I] at hrm'
  exact ⟨congrArg Complex.re hrm', congrArg Complex.im hrm'⟩


/-- A source with a linear spectrum, Q = 1 at half a metre, and no rotation. -/
noncomputable def exLinear (frac angle : ℝ) : Point :=
  { direction := ⟨0, 0⟩, stokes := ⟨1, 0, 0, 0⟩, refFreq := lightSpeed, terms := [2], polarizedFraction := frac, polarizationAngle := angle
    rotationMeasure := 0, hasRotationMeasure := true, hasLogarithmicSI := false }

private theorem modPi_zero : modPi 0 = 0 := by
  classical
  unfold modPi
  simp

private theorem exLinear_param : calcRMParam 1 1 0 [2] 0 lightSpeed 0.5 = some (1 / 4, 0) := by
  classical
  have hls : lightSpeed ≠ 0 := by norm_num [lightSpeed]
  have hq : lightSpeed / 0.5 / lightSpeed = 2 := by
    field_simp
    norm_num
  unfold calcRMParam
  rw [if_neg (by norm_num)]
  simp only [factor_eq, hq]
  have ha : Complex.arg ⟨1, 0⟩ = 0 := by
    rw [show (⟨1, 0⟩ : ℂ) = 1 from rfl, Complex.arg_one]
  simp only [ha, mul_zero, sub_zero, modPi_zero]
  simp [poly]
  norm_num

/-- **C118 is violated** for ordinary spectral terms: the fraction is computed with the logarithmic formula, and the model has another Q at
the reference wavelength than the catalogue. -/
theorem rm_linear_violated :
    calcRMParam 1 1 0 [2] 0 lightSpeed 0.5 = some (1 / 4, 0) ∧ (stokesAt (exLinear (1 / 4) 0) (lightSpeed / 0.5)).Q = 3 / 4 := by
  refine ⟨exLinear_param, ?_⟩
  have hls : lightSpeed ≠ 0 := by norm_num [lightSpeed]
  have hq : lightSpeed / 0.5 / lightSpeed = 2 := by
    field_simp
    norm_num
  simp [stokesAt, exLinear, stokesI, horner, hq]
  norm_num

/-! ## Examples -/

example : (stokesAt { exLinear (1 / 4) 0 with hasLogarithmicSI := true } (lightSpeed / 0.5)).Q = 1 :=
  (rm_reference_partial { exLinear (1 / 4) 0 with hasLogarithmicSI := true } (Or.inl rfl) rfl 1 0 0.5 (by norm_num) (by norm_num [exLinear, lightSpeed])
    (by norm_num [exLinear]) (1 / 4) 0 exLinear_param rfl rfl).1

example : (stokesAt { exLinear 0 0 with hasLogarithmicSI := true } (10 * lightSpeed)).I = 100 := by
  have hls : 0 < lightSpeed := by norm_num [lightSpeed]
  rw [stokes_log _ rfl _ (by positivity) (by simpa [exLinear] using hls)]
  simp [exLinear, poly, hls.ne']
  norm_num

example : (stokesAt (exLinear 0 0) (10 * lightSpeed)).I = 19 := by
  have hls : lightSpeed ≠ 0 := by norm_num [lightSpeed]
  rw [stokes_linear _ rfl]
  simp [exLinear, hls]
  norm_num

end DP3.Simulator
