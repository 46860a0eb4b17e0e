import Verif.Simulator.Props
import Mathlib.Analysis.SpecialFunctions.Gaussian.FourierTransform
import Mathlib.MeasureTheory.Integral.Prod

/-!
# C117: Gaussian sources
-/

namespace DP3.Simulator

open PhaseShift Complex

set_option linter.unusedSimpArgs false

private theorem phi_cos (pa : ℝ) : Real.cos (Real.pi / 2 + pa + Real.pi) = Real.sin pa := by
  rw [Real.cos_add_pi, add_comm, Real.cos_add_pi_div_two, neg_neg]

private theorem phi_sin (pa : ℝ) : Real.sin (Real.pi / 2 + pa + Real.pi) = -Real.cos pa := by
  rw [Real.sin_add_pi, add_comm, Real.sin_add_pi_div_two]

private theorem shifted_coords (s : Cfg) (c : Gaussian) (ha : c.isAbsolute = true) (p q : Nat) (i : Fin 3) :
    uvwShifted s c q i - uvwShifted s c p i = coords c.point.direction (inSpace s.reference (baselineUvw s p q)) i := by
  unfold uvwShifted
  rw [if_pos ha, if_pos ha]
  rw [times_coords, times_coords]
  fin_cases i <;> simp [coords, dot, inSpace, baselineUvw] <;> ring

/-- The amplitude, in terms of the vector of the baseline and the axes of the source on the sky. -/
theorem amplitude_eq (s : Cfg) (c : Gaussian) (ha : c.isAbsolute = true) (p q ch : Nat) :
    amplitude s c p q ch = Real.exp (-(Real.pi ^ 2 * (s.freq.getD ch 0 / lightSpeed) ^ 2 / (4 * Real.log 2)) *
      ((c.majorAxis * dot (inSpace s.reference (baselineUvw s p q)) (majorDir c.point.direction c.positionAngle)) ^ 2 +
        (c.minorAxis * dot (inSpace s.reference (baselineUvw s p q)) (minorDir c.point.direction c.positionAngle)) ^ 2)) := by
  unfold amplitude
  simp only [phi_cos, phi_sin, shifted_coords s c ha]
  generalize hB : inSpace s.reference (baselineUvw s p q) = B
  have e0 : coords c.point.direction B 0 = dot B (east c.point.direction) := by simp [coords]
  have e1 : coords c.point.direction B 1 = dot B (north c.point.direction) := by simp [coords]
  have m1 : dot B (majorDir c.point.direction c.positionAngle) =
      dot B (east c.point.direction) * Real.sin c.positionAngle + dot B (north c.point.direction) * Real.cos c.positionAngle := by
    simp only [dot, majorDir]
    ring
  have m2 : dot B (minorDir c.point.direction c.positionAngle) =
      dot B (east c.point.direction) * Real.cos c.positionAngle - dot B (north c.point.direction) * Real.sin c.positionAngle := by
    simp only [dot, minorDir]
    ring
  rw [e0, e1, m1, m2]
  have hl : 0 < Real.log 2 := Real.log_pos (by norm_num)
  have hsq : Real.sqrt (2 * Real.log 2) ^ 2 = 2 * Real.log 2 := Real.sq_sqrt (by positivity)
  have hs : 0 < Real.sqrt (2 * Real.log 2) := Real.sqrt_pos.mpr (by positivity)
  have hc : lightSpeed ≠ 0 := by norm_num [lightSpeed]
  congr 1
  generalize dot B (east c.point.direction) = u
  generalize dot B (north c.point.direction) = v
  have hf : (1 / (2 * Real.sqrt (2 * Real.log 2))) ^ 2 = 1 / (8 * Real.log 2) := by
    rw [div_pow, mul_pow, hsq]
    norm_num
    ring
  generalize 1 / (2 * Real.sqrt (2 * Real.log 2)) = k at hf
  have : ∀ a b x y : ℝ, (a * k * x) * (a * k * x) + (b * k * y) * (b * k * y) = k ^ 2 * ((a * x) ^ 2 + (b * y) ^ 2) := by
    intros
    ring
  rw [this, hf]
  field_simp
  ring


/-- The transform of a profile. -/
private theorem profile_transform (a k : ℝ) (ha : a ≠ 0) :
    ∫ x : ℝ, (profile a x : ℂ) * exp ((k * x : ℝ) * I) =
      (Real.exp (-(k ^ 2 * a ^ 2 / (16 * Real.log 2))) : ℂ) * ∫ x : ℝ, (profile a x : ℂ) := by
  have hl : 0 < Real.log 2 := Real.log_pos (by norm_num)
  have hb : 0 < 4 * Real.log 2 / a ^ 2 := by positivity
  have hre : 0 < ((4 * Real.log 2 / a ^ 2 : ℝ) : ℂ).re := by rw [ofReal_re]; exact hb
  have h := fourierIntegral_gaussian hre
  have e : ∀ x : ℝ, (profile a x : ℂ) = exp (-((4 * Real.log 2 / a ^ 2 : ℝ) : ℂ) * (x : ℂ) ^ 2) := by
    intro x
    unfold profile
    push_cast
    rfl
  have h0 := h 0
  have hk := h k
  simp only [mul_zero, zero_mul, exp_zero, one_mul] at h0
  have e2 : ∀ x : ℝ, (profile a x : ℂ) * exp ((k * x : ℝ) * I) =
      exp (I * k * x) * exp (-((4 * Real.log 2 / a ^ 2 : ℝ) : ℂ) * (x : ℂ) ^ 2) := by
    intro x
    rw [e, mul_comm]
    congr 2
    push_cast
    ring
  simp_rw [e2]
  simp_rw [e]
  rw [hk, h0]
  simp only [ne_eq, OfNat.ofNat_ne_zero, not_false_eq_true, zero_pow, neg_zero, zero_div, exp_zero, mul_one]
  rw [mul_comm]
  congr 1
  rw [ofReal_exp]
  congr 1
  push_cast
  have hl' : (Complex.log 2 : ℂ) ≠ 0 := by
    have : ((Real.log 2 : ℝ) : ℂ) ≠ 0 := by exact_mod_cast hl.ne'
    simpa using this
  have ha' : (a : ℂ) ≠ 0 := by exact_mod_cast ha
  field_simp
  norm_num

/-- The profile is half its maximum at half the width. -/
theorem profile_half (fwhm : ℝ) (h : fwhm ≠ 0) : profile fwhm (fwhm / 2) = 1 / 2 * profile fwhm 0 := by
  unfold profile
  have : -(4 * Real.log 2 / fwhm ^ 2) * (fwhm / 2) ^ 2 = -Real.log 2 := by
    field_simp
    norm_num
  rw [this, Real.exp_neg, Real.exp_log (by norm_num)]
  simp

/-- **C117.** The amplitude of a Gaussian is what a brightness distribution gives that falls to half its maximum at half the length of
the axes: the long one along the position angle from north to east at the source, the short one perpendicular to it. Each point of the
distribution adds its own delay, to first order in its distance from the centre. -/
theorem amplitude_transform (s : Cfg) (c : Gaussian) (ha : c.isAbsolute = true) (hM : c.majorAxis ≠ 0) (hm : c.minorAxis ≠ 0) (p q ch : Nat) :
    (amplitude s c p q ch : ℂ) * ∫ z : ℝ × ℝ, (profile c.majorAxis z.1 * profile c.minorAxis z.2 : ℂ) =
      ∫ z : ℝ × ℝ, (profile c.majorAxis z.1 * profile c.minorAxis z.2 : ℂ) * fringe (s.freq.getD ch 0)
        (dot (inSpace s.reference (baselineUvw s p q))
          (fun i => z.1 * majorDir c.point.direction c.positionAngle i + z.2 * minorDir c.point.direction c.positionAngle i)) := by
  generalize hB : inSpace s.reference (baselineUvw s p q) = B
  generalize hx : dot B (majorDir c.point.direction c.positionAngle) = x
  generalize hy : dot B (minorDir c.point.direction c.positionAngle) = y
  generalize hf : s.freq.getD ch 0 = f
  have hd : ∀ z : ℝ × ℝ, dot B (fun i => z.1 * majorDir c.point.direction c.positionAngle i +
      z.2 * minorDir c.point.direction c.positionAngle i) = z.1 * x + z.2 * y := by
    intro z
    rw [← hx, ← hy]
    simp only [dot]
    ring
  have e : ∀ z : ℝ × ℝ, (profile c.majorAxis z.1 * profile c.minorAxis z.2 : ℂ) * fringe f
      (dot B (fun i => z.1 * majorDir c.point.direction c.positionAngle i + z.2 * minorDir c.point.direction c.positionAngle i)) =
      ((profile c.majorAxis z.1 : ℂ) * exp ((cinv * x * f * z.1 : ℝ) * I)) *
        ((profile c.minorAxis z.2 : ℂ) * exp ((cinv * y * f * z.2 : ℝ) * I)) := by
    intro z
    rw [hd]
    have : fringe f (z.1 * x + z.2 * y) = exp ((cinv * x * f * z.1 : ℝ) * I) * exp ((cinv * y * f * z.2 : ℝ) * I) := by
      unfold fringe
      rw [turns_eq, ← exp_add]
      congr 1
      push_cast
      ring
    rw [this]
    ring
  simp_rw [e]
  rw [MeasureTheory.Measure.volume_eq_prod,
    MeasureTheory.integral_prod_mul (fun a : ℝ => (profile c.majorAxis a : ℂ)) (fun b : ℝ => (profile c.minorAxis b : ℂ)),
    MeasureTheory.integral_prod_mul (fun a : ℝ => (profile c.majorAxis a : ℂ) * exp ((cinv * x * f * a : ℝ) * I))
      (fun b : ℝ => (profile c.minorAxis b : ℂ) * exp ((cinv * y * f * b : ℝ) * I)),
    profile_transform c.majorAxis (cinv * x * f) hM, profile_transform c.minorAxis (cinv * y * f) hm]
  have hamp : amplitude s c p q ch = Real.exp (-((cinv * x * f) ^ 2 * c.majorAxis ^ 2 / (16 * Real.log 2))) *
      Real.exp (-((cinv * y * f) ^ 2 * c.minorAxis ^ 2 / (16 * Real.log 2))) := by
    rw [amplitude_eq s c ha, hB, hx, hy, hf, ← Real.exp_add]
    congr 1
    have hl : Real.log 2 ≠ 0 := (Real.log_pos (by norm_num)).ne'
    have hc : lightSpeed ≠ 0 := by norm_num [lightSpeed]
    unfold cinv
    field_simp
    ring
  rw [hamp]
  push_cast
  ring

/-- **C117.** A Gaussian is never brighter than a point source of its flux, on any baseline. -/
theorem amplitude_le (s : Cfg) (c : Gaussian) (p q ch : Nat) : 0 < amplitude s c p q ch ∧ amplitude s c p q ch ≤ 1 := by
  unfold amplitude
  refine ⟨Real.exp_pos _, ?_⟩
  rw [Real.exp_le_one_iff]
  have hpi := Real.pi_pos
  have h1 : ∀ a b : ℝ, 0 ≤ a * a + b * b := fun a b => add_nonneg (mul_self_nonneg a) (mul_self_nonneg b)
  have h2 : 0 ≤ s.freq.getD ch 0 * s.freq.getD ch 0 * (1 / (lightSpeed * lightSpeed)) :=
    mul_nonneg (mul_self_nonneg _) (div_nonneg zero_le_one (mul_self_nonneg _))
  have h3 : ∀ a b : ℝ, -2 * Real.pi * Real.pi * (a * a + b * b) ≤ 0 := by
    intro a b
    have := mul_nonneg (mul_self_nonneg Real.pi) (h1 a b)
    nlinarith
  exact mul_nonpos_of_nonneg_of_nonpos h2 (h3 _ _)

/-- **C117.** A Gaussian without extent is a point source, apart from the smearing. -/
theorem gaussian_point (s : Cfg) (c : Gaussian) (hM : c.majorAxis = 0) (hm : c.minorAxis = 0)
    (hok : s.stokesIOnly = true ∨ s.correctTimeSmearing = false ∨ s.correctFreqSmearing = true) (p q ch corr : Nat) :
    gaussianValue s c p q ch corr = pointValue s c.point p q ch corr := by
  have h1 : amplitude s c p q ch = 1 := by
    unfold amplitude
    simp [hM, hm]
  unfold gaussianValue pointValue gaussianSmear smearTerm
  simp only [h1, one_mul]
  rcases hok with h | h | h <;> simp only [h, if_true, Bool.false_eq_true, if_false, Bool.false_or, Bool.or_true]
  · cases s.correctTimeSmearing <;> cases s.correctFreqSmearing <;> simp
  · cases s.stokesIOnly <;> cases s.correctFreqSmearing <;> simp
  · cases s.stokesIOnly <;> simp

/-- **C117.** Half a turn of the position angle changes nothing. -/
theorem amplitude_turn (s : Cfg) (c : Gaussian) (p q ch : Nat) :
    amplitude s { c with positionAngle := c.positionAngle + Real.pi } p q ch = amplitude s c p q ch := by
  have h : ∀ st, uvwShifted s { c with positionAngle := c.positionAngle + Real.pi } st = uvwShifted s c st := fun _ => rfl
  unfold amplitude
  simp only [h, phi_cos, phi_sin]
  simp only [Real.sin_add_pi, Real.cos_add_pi]
  congr 2
  ring

/-- **C117.** A quarter of a turn exchanges the axes. -/
theorem amplitude_quarter (s : Cfg) (c : Gaussian) (p q ch : Nat) :
    amplitude s { c with positionAngle := c.positionAngle + Real.pi / 2, majorAxis := c.minorAxis, minorAxis := c.majorAxis } p q ch =
      amplitude s c p q ch := by
  have h : ∀ st, uvwShifted s { c with positionAngle := c.positionAngle + Real.pi / 2, majorAxis := c.minorAxis, minorAxis := c.majorAxis } st =
      uvwShifted s c st := fun _ => rfl
  unfold amplitude
  simp only [h, phi_cos, phi_sin]
  simp only [Real.sin_add_pi_div_two, Real.cos_add_pi_div_two]
  congr 2
  ring

/-- **C117.** The position angle of a round source does not matter. -/
theorem amplitude_round (s : Cfg) (c : Gaussian) (hr : c.majorAxis = c.minorAxis) (pa : ℝ) (p q ch : Nat) :
    amplitude s { c with positionAngle := pa } p q ch = amplitude s c p q ch := by
  have h : ∀ st, uvwShifted s { c with positionAngle := pa } st = uvwShifted s c st := fun _ => rfl
  unfold amplitude
  simp only [h, phi_cos, phi_sin]
  simp only [hr]
  congr 2
  have h1 := Real.sin_sq_add_cos_sq pa
  have h2 := Real.sin_sq_add_cos_sq c.positionAngle
  generalize uvwShifted s c q 0 - uvwShifted s c p 0 = u
  generalize uvwShifted s c q 1 - uvwShifted s c p 1 = v
  generalize 1 / (2 * Real.sqrt (2 * Real.log 2)) = k
  linear_combination (-2 * Real.pi * Real.pi) * (c.minorAxis * k) ^ 2 * (u ^ 2 + v ^ 2) * (h1 - h2)

/-- **C117.** For a source in the phase centre an absolute orientation is the same as a relative one. -/
theorem amplitude_center (s : Cfg) (c : Gaussian) (hd : c.point.direction = s.reference) (p q ch : Nat) :
    amplitude s { c with isAbsolute := true } p q ch = amplitude s { c with isAbsolute := false } p q ch := by
  have h : ∀ st, uvwShifted s { c with isAbsolute := true } st = uvwShifted s { c with isAbsolute := false } st := by
    intro st
    unfold uvwShifted
    simp only [if_true, Bool.false_eq_true, if_false]
    rw [times_coords, hd, coords_inSpace]
  unfold amplitude
  simp only [h]


/-! ## Examples -/

/-- Three by two, thirty degrees from north. -/
noncomputable def exEllipse : Gaussian :=
  { point := exPoint2, positionAngle := Real.pi / 6, isAbsolute := true, majorAxis := 3, minorAxis := 2 }

noncomputable def exFarPoint : Point := { exPoint with direction := ⟨Real.pi / 2, 0⟩ }

example : (amplitude exCfg exEllipse 0 1 0 : ℂ) * ∫ z : ℝ × ℝ, (profile 3 z.1 * profile 2 z.2 : ℂ) =
      ∫ z : ℝ × ℝ, (profile 3 z.1 * profile 2 z.2 : ℂ) * fringe lightSpeed
        (dot (inSpace ⟨0, 0⟩ (baselineUvw exCfg 0 1))
          (fun i => z.1 * majorDir exPoint2.direction (Real.pi / 6) i + z.2 * minorDir exPoint2.direction (Real.pi / 6) i)) :=
  amplitude_transform exCfg exEllipse rfl (by norm_num [exEllipse]) (by norm_num [exEllipse]) 0 1 0

/-- The baseline points to the phase centre, and the source is opposite to it: nothing is resolved. -/
example : amplitude exCfg exEllipse 0 1 0 = 1 := by
  rw [amplitude_eq exCfg exEllipse rfl]
  simp [exCfg, exEllipse, exPoint2, dot, inSpace, baselineUvw, majorDir, minorDir, east, north, toward]

/-- A quarter of a turn away, the baseline lies in the sky: it is resolved. -/
example : amplitude exCfg { exEllipse with point := exFarPoint } 0 1 0 < 1 := by
  rw [amplitude_eq exCfg _ rfl, Real.exp_lt_one_iff]
  have hl : 0 < Real.log 2 := Real.log_pos (by norm_num)
  have hc : lightSpeed ≠ 0 := by norm_num [lightSpeed]
  have hpi := Real.pi_pos
  simp [exCfg, exEllipse, exFarPoint, exPoint, dot, inSpace, baselineUvw, majorDir, minorDir, east, north, toward, hc]
  positivity

example : amplitude exCfg { exEllipse with majorAxis := 2, positionAngle := 1 } 0 1 0 = amplitude exCfg { exEllipse with majorAxis := 2 } 0 1 0 :=
  amplitude_round exCfg { exEllipse with majorAxis := 2 } rfl 1 0 1 0

example : gaussianValue exCfg { exEllipse with majorAxis := 0, minorAxis := 0 } 0 1 0 0 = pointValue exCfg exPoint2 0 1 0 0 :=
  gaussian_point exCfg _ rfl rfl (Or.inr (Or.inl rfl)) 0 1 0 0

example : amplitude exCfg { exGaussian with isAbsolute := true } 0 1 0 = amplitude exCfg { exGaussian with isAbsolute := false } 0 1 0 :=
  amplitude_center exCfg exGaussian rfl 0 1 0

end DP3.Simulator
