import Verif.Simulator.Props
import Mathlib.Analysis.SpecialFunctions.Trigonometric.Sinc
import Mathlib.Analysis.Real.Pi.Bounds
import Mathlib.Analysis.SpecialFunctions.Trigonometric.Bounds
import Mathlib.Analysis.SpecialFunctions.Trigonometric.Deriv

/-!
# C116: smearing
-/

namespace DP3.Simulator

open PhaseShift Complex

set_option linter.unusedSimpArgs false

/-- The cutoff of `sinc` costs less than a picounit. -/
theorem sinc_close (x : ℝ) : |sinc x - Real.sinc x| ≤ 1e-12 / 4 := by
  unfold sinc
  by_cases h : |x| < 1e-6
  · rw [if_pos h]
    by_cases hx : x = 0
    · rw [hx, Real.sinc_zero, sub_self, abs_zero]
      norm_num
    have key : ∀ y : ℝ, 0 < y → y < 1e-6 → |1 - Real.sinc y| ≤ 1e-12 / 4 := by
      intro y hy hy'
      have h1 := Real.sin_gt_sub_cube hy
      have h2 := (Real.sin_lt hy).le
      rw [Real.sinc_of_ne_zero hy.ne', abs_le]
      constructor
      · have : Real.sin y / y ≤ 1 := by rw [div_le_one hy]; exact h2
        norm_num
        linarith
      · have : 1 - y ^ 2 / 4 ≤ Real.sin y / y := by
          rw [le_div_iff₀ hy]
          nlinarith [h1]
        have hsq : y ^ 2 ≤ 1e-12 := by
          have := mul_self_le_mul_self hy.le hy'.le
          norm_num at this ⊢
          nlinarith
        norm_num at hsq ⊢
        linarith
    rcases lt_or_gt_of_ne hx with hn | hp
    · rw [← Real.sinc_neg]
      exact key (-x) (by linarith) (by rwa [abs_of_neg hn] at h)
    · exact key x hp (by rwa [abs_of_pos hp] at h)
  · rw [if_neg h]
    have hx : x ≠ 0 := by
      intro h0
      apply h
      rw [h0, abs_zero]
      norm_num
    rw [Real.sinc_of_ne_zero hx, sub_self, abs_zero]
    norm_num

/-- The mean of a phase factor with a phase that changes linearly. -/
private theorem mean_exp (a w : ℝ) (hw : w ≠ 0) :
    ((1 / w : ℝ) : ℂ) * ∫ t in (-(w / 2))..(w / 2), exp ((a * t : ℝ) * I) = Real.sinc (0.5 * a * w) := by
  by_cases ha : a = 0
  · subst ha
    simp [hw]
  have hc : (a : ℂ) * I ≠ 0 := by simp [ha]
  have e : ∀ t : ℝ, exp ((a * t : ℝ) * I) = exp ((a * I) * t) := by
    intro t
    congr 1
    push_cast
    ring
  simp_rw [e]
  rw [integral_exp_mul_complex hc]
  have hz : 0.5 * a * w ≠ 0 := by
    have : (0.5 : ℝ) ≠ 0 := by norm_num
    positivity
  rw [Real.sinc_of_ne_zero hz]
  have e1 : (a : ℂ) * I * ((w / 2 : ℝ) : ℂ) = ((0.5 * a * w : ℝ) : ℂ) * I := by
    push_cast
    rw [show (0.5 : ℂ) = 1 / 2 by norm_num]
    ring
  have e2 : (a : ℂ) * I * ((-(w / 2) : ℝ) : ℂ) = ((-(0.5 * a * w) : ℝ) : ℂ) * I := by
    push_cast
    rw [show (0.5 : ℂ) = 1 / 2 by norm_num]
    ring
  rw [e1, e2, ← mk_cos_sin, ← mk_cos_sin, Real.cos_neg, Real.sin_neg]
  generalize hy : Real.sin (0.5 * a * w) = y
  have : (⟨Real.cos (0.5 * a * w), y⟩ - ⟨Real.cos (0.5 * a * w), -y⟩ : ℂ) = 2 * y * I := by
    apply Complex.ext <;> simp
    ring
  rw [this]
  have hw' : (w : ℂ) ≠ 0 := by exact_mod_cast hw
  have ha' : (a : ℂ) ≠ 0 := by exact_mod_cast ha
  push_cast
  rw [show (0.5 : ℂ) = 1 / 2 by norm_num]
  field_simp


private theorem fringe_zero (f : ℝ) : fringe f 0 = 1 := by
  simp [fringe, turns]

private theorem fringe_ne (f m : ℝ) : fringe f m ≠ 0 := exp_ne_zero _

theorem fringe_norm (f m : ℝ) : ‖fringe f m‖ = 1 := norm_exp_ofReal_mul_I _

/-- The mean over a channel, in terms of the phase in its middle. -/
theorem channelMean_eq (f w D : ℝ) (hw : w ≠ 0) :
    channelMean f w D = fringe f D * Real.sinc (0.5 * (cinv * D) * w) := by
  unfold channelMean
  rw [← mean_exp (cinv * D) w hw, ← mul_assoc, mul_comm (fringe f D), mul_assoc]
  congr 1
  rw [← intervalIntegral.integral_const_mul]
  have h := intervalIntegral.integral_comp_add_right (fun x => fringe x D) (a := -(w / 2)) (b := w / 2) f
  rw [show f - w / 2 = -(w / 2) + f by ring, show f + w / 2 = w / 2 + f by ring, ← h]
  apply intervalIntegral.integral_congr
  intro x _
  simp only
  unfold fringe
  rw [← exp_add, turns_eq, turns_eq]
  congr 1
  push_cast
  ring

/-- The mean over an integration, in terms of the phase in its middle. -/
theorem timeMean_eq (f T D v : ℝ) (hT : T ≠ 0) :
    timeMean f T D v = fringe f D * Real.sinc (0.5 * (cinv * v * f) * T) := by
  unfold timeMean
  rw [← mean_exp (cinv * v * f) T hT, ← mul_assoc, mul_comm (fringe f D), mul_assoc]
  congr 1
  rw [← intervalIntegral.integral_const_mul]
  apply intervalIntegral.integral_congr
  intro t _
  simp only
  rw [fringe_add]
  congr 1
  unfold fringe
  rw [turns_eq]
  congr 2
  push_cast
  ring

/-- The change of the delay by the rotation of the earth. -/
theorem delay_speed (center source : Direction) (uvw : Uvw) :
    HasDerivAt (delayAt center source uvw)
      (earthSpeed * (dot (inSpace center uvw) (fun i => ![toward source 1 - toward center 1, -(toward source 0 - toward center 0), 0] i))) 0 := by
  have hs : HasDerivAt (fun t : ℝ => Real.sin (earthSpeed * t)) earthSpeed 0 := by
    have h := (((hasDerivAt_id (0 : ℝ)).const_mul earthSpeed)).sin
    simpa using h
  have hc : HasDerivAt (fun t : ℝ => Real.cos (earthSpeed * t)) 0 0 := by
    have h := (((hasDerivAt_id (0 : ℝ)).const_mul earthSpeed)).cos
    simpa using h
  generalize hb : inSpace center uvw = b
  generalize hx : toward source = x
  generalize hy : toward center = y
  have h1 : HasDerivAt (fun t : ℝ => (Real.cos (earthSpeed * t)) * (b 0 * (x 0 - y 0) + b 1 * (x 1 - y 1)) +
      Real.sin (earthSpeed * t) * (b 0 * (x 1 - y 1) - b 1 * (x 0 - y 0)) + b 2 * (x 2 - y 2))
      (0 * (b 0 * (x 0 - y 0) + b 1 * (x 1 - y 1)) + earthSpeed * (b 0 * (x 1 - y 1) - b 1 * (x 0 - y 0))) 0 :=
    ((hc.mul_const _).add (hs.mul_const _)).add_const _
  convert h1 using 1
  · funext t
    simp [delayAt, dot, turned, hb, hx, hy]
    ring
  · simp only [dot, Matrix.cons_val_zero, Matrix.cons_val_one, Matrix.cons_val]
    ring

/-- The rotation of the stations that the code computes is the change of the delay, with the other sign. -/
theorem earthRotation_eq (s : Cfg) (T : ℝ) (c : Point) (p q : Nat) (v : ℝ)
    (hv : HasDerivAt (delayAt s.reference c.direction (baselineUvw s p q)) v 0) :
    stationEarthRotation (withNcp s T) (radec2lmn s.reference c.direction) (s.stationUVW q) -
      stationEarthRotation (withNcp s T) (radec2lmn s.reference c.direction) (s.stationUVW p) = -(cinv * v * T) := by
  rw [hv.unique (delay_speed s.reference c.direction (baselineUvw s p q))]
  have h := Real.sin_sq_add_cos_sq s.reference.dec
  have h' := Real.sin_sq_add_cos_sq s.reference.ra
  simp only [stationEarthRotation, withNcp, radec2lmn, earthSpeed, dot, inSpace, baselineUvw, toward, east, north, Matrix.cons_val_zero,
    Matrix.cons_val_one, Matrix.cons_val, Real.sin_sub, Real.cos_sub]
  linear_combination (s.stationUVW q 0 - s.stationUVW p 0) * cinv * (2 * Real.pi * T / 86164.0905) *
    (Real.cos c.direction.dec * (Real.cos c.direction.ra * Real.cos s.reference.ra + Real.sin c.direction.ra * Real.sin s.reference.ra) * h +
      Real.cos s.reference.dec * h')


private theorem sincR_le (x : ℝ) : |Real.sinc x| ≤ 1 := abs_le.mpr ⟨Real.neg_one_le_sinc x, Real.sinc_le_one x⟩

private theorem sinc_le (x : ℝ) : |sinc x| ≤ 1 + 1e-12 / 4 := by
  have h1 := sinc_close x
  have h2 := sincR_le x
  have h3 : sinc x = (sinc x - Real.sinc x) + Real.sinc x := by ring
  rw [h3]
  exact (abs_add_le _ _).trans (by linarith)

/-- The factor that the smearing of a point source should be. -/
private theorem smeared_eq (bt bf : Bool) (f w T D v : ℝ) (hw : w ≠ 0) (hT : T ≠ 0) :
    smeared bt bf f w T D v = fringe f D *
      (((if bt then Real.sinc (0.5 * (cinv * v * f) * T) else 1) * (if bf then Real.sinc (0.5 * (cinv * D) * w) else 1) : ℝ) : ℂ) := by
  cases bt <;> cases bf <;> simp only [smeared, Bool.false_eq_true, if_false, if_true]
  · simp
  · rw [channelMean_eq f w D hw, one_mul]
  · rw [timeMean_eq f T D v hT, mul_one]
  · rw [timeMean_eq f T D v hT, channelMean_eq f w D hw]
    have := fringe_ne f D
    field_simp
    push_cast
    ring

private theorem smear_factor (s : Cfg) (T : ℝ) (hs : ∃ s₀, s = withNcp s₀ T) (c : Point) (p q ch : Nat) (v : ℝ)
    (hv : HasDerivAt (delayAt s.reference c.direction (baselineUvw s p q)) v 0) :
    |smearTerm s c p q ch -
      ((if s.correctTimeSmearing then Real.sinc (0.5 * (cinv * v * s.freq.getD ch 0) * T) else 1) *
        (if s.correctFreqSmearing then Real.sinc (0.5 * (cinv * delay s.reference c.direction (baselineUvw s p q)) * s.chanWidths.getD ch 0)
          else 1))| ≤ 1e-12 := by
  obtain ⟨s₀, rfl⟩ := hs
  have ht : timeSmear (withNcp s₀ T) c p q ch = sinc (-(0.5 * (cinv * v * (withNcp s₀ T).freq.getD ch 0) * T)) := by
    unfold timeSmear
    have := earthRotation_eq s₀ T c p q v hv
    show sinc (0.5 * (stationEarthRotation (withNcp s₀ T) (radec2lmn s₀.reference c.direction) (s₀.stationUVW q) -
      stationEarthRotation (withNcp s₀ T) (radec2lmn s₀.reference c.direction) (s₀.stationUVW p)) * _) = _
    rw [this]
    congr 1
    ring
  have hf : freqSmear (withNcp s₀ T) c p q ch =
      sinc (0.5 * (cinv * delay s₀.reference c.direction (baselineUvw s₀ p q)) * s₀.chanWidths.getD ch 0) := by
    unfold freqSmear
    have := phase_diff s₀ c.direction p q
    show sinc (0.5 * (stationPhase (radec2lmn s₀.reference c.direction) (s₀.stationUVW q) -
      stationPhase (radec2lmn s₀.reference c.direction) (s₀.stationUVW p)) * _) = _
    rw [this]
    rfl
  have e1 : (withNcp s₀ T).reference = s₀.reference := rfl
  have e2 : baselineUvw (withNcp s₀ T) p q = baselineUvw s₀ p q := rfl
  have e3 : (withNcp s₀ T).chanWidths = s₀.chanWidths := rfl
  unfold smearTerm
  simp only [ht, hf, e1, e2, e3]
  generalize hx : 0.5 * (cinv * v * (withNcp s₀ T).freq.getD ch 0) * T = x
  generalize 0.5 * (cinv * delay s₀.reference c.direction (baselineUvw s₀ p q)) * s₀.chanWidths.getD ch 0 = y
  have cx : |sinc (-x) - Real.sinc x| ≤ 1e-12 / 4 := by
    rw [← Real.sinc_neg]
    exact sinc_close (-x)
  have cy := sinc_close y
  have hxy : |sinc (-x) * sinc y - Real.sinc x * Real.sinc y| ≤ 1e-12 := by
    have e : sinc (-x) * sinc y - Real.sinc x * Real.sinc y = (sinc (-x) - Real.sinc x) * sinc y + Real.sinc x * (sinc y - Real.sinc y) := by ring
    rw [e]
    refine (abs_add_le _ _).trans ?_
    rw [abs_mul, abs_mul]
    have a1 := mul_le_mul cx (sinc_le y) (abs_nonneg _) (by norm_num)
    have a2 := mul_le_mul (sincR_le x) cy (abs_nonneg _) (by norm_num)
    refine (add_le_add a1 a2).trans ?_
    norm_num
  cases (withNcp s₀ T).correctTimeSmearing <;> cases (withNcp s₀ T).correctFreqSmearing <;>
    simp only [Bool.false_eq_true, if_false, if_true, one_mul, mul_one]
  · simp; norm_num
  · exact cy.trans (by norm_num)
  · exact cx.trans (by norm_num)
  · exact hxy

/-- **C116.** The smearing of the model is the mean of the phase factor over the channel and over the integration: over the channel for
the delay of the source, over the integration for a delay that changes with the speed that the rotation of the earth gives. The error is
at most a picounit of the coherency. A point source with all correlations is left out if only smearing in time is asked for. -/
theorem smear_point (s₀ : Cfg) (T : ℝ) (hT : T ≠ 0) (s : Cfg) (hs : s = withNcp s₀ T) (c : Point) (p q ch corr : Nat)
    (hw : s.chanWidths.getD ch 0 ≠ 0) (hok : s.stokesIOnly = true ∨ s.correctTimeSmearing = false ∨ s.correctFreqSmearing = true) (v : ℝ)
    (hv : HasDerivAt (delayAt s.reference c.direction (baselineUvw s p q)) v 0) :
    let coh : ℂ := if s.stokesIOnly then ((stokesAt c (s.freq.getD ch 0)).I : ℂ) else coherency (stokesAt c (s.freq.getD ch 0)) corr
    ‖pointValue s c p q ch corr - coh * smeared s.correctTimeSmearing s.correctFreqSmearing (s.freq.getD ch 0) (s.chanWidths.getD ch 0) T
      (delay s.reference c.direction (baselineUvw s p q)) v‖ ≤ 1e-12 * ‖coh‖ := by
  intro coh
  have h := smear_factor s T ⟨s₀, hs⟩ c p q ch v hv
  rw [smeared_eq _ _ _ _ _ _ _ hw hT]
  have hval : pointValue s c p q ch corr =
      (smearTerm s c p q ch : ℂ) * (fringe (s.freq.getD ch 0) (delay s.reference c.direction (baselineUvw s p q)) * coh) := by
    rw [← product_eq, ← mk_smul]
    unfold pointValue smearTerm
    rcases hok with h1 | h1 | h1 <;> simp only [h1, if_true, Bool.false_eq_true, if_false, Bool.false_or, Bool.or_true]
    · cases s.correctTimeSmearing <;> cases s.correctFreqSmearing <;> simp
    · cases s.stokesIOnly <;> cases s.correctFreqSmearing <;> simp
    · cases s.stokesIOnly <;> simp
  rw [hval]
  generalize ((if s.correctTimeSmearing = true then _ else _) * (if s.correctFreqSmearing = true then _ else _) : ℝ) = m at h ⊢
  have e : (smearTerm s c p q ch : ℂ) * (fringe (s.freq.getD ch 0) (delay s.reference c.direction (baselineUvw s p q)) * coh) -
      coh * (fringe (s.freq.getD ch 0) (delay s.reference c.direction (baselineUvw s p q)) * (m : ℂ)) =
      ((smearTerm s c p q ch - m : ℝ) : ℂ) * fringe (s.freq.getD ch 0) (delay s.reference c.direction (baselineUvw s p q)) * coh := by
    push_cast
    ring
  rw [e, norm_mul, norm_mul, fringe_norm, mul_one, Complex.norm_real, Real.norm_eq_abs]
  exact mul_le_mul_of_nonneg_right h (norm_nonneg _)

/-- **C116.** The same for Gaussians, in all cases, with the amplitude of the shape. -/
theorem smear_gaussian (s₀ : Cfg) (T : ℝ) (hT : T ≠ 0) (s : Cfg) (hs : s = withNcp s₀ T) (c : Gaussian) (p q ch corr : Nat)
    (hw : s.chanWidths.getD ch 0 ≠ 0) (v : ℝ) (hv : HasDerivAt (delayAt s.reference c.point.direction (baselineUvw s p q)) v 0) :
    let coh : ℂ := if s.stokesIOnly then ((stokesAt c.point (s.freq.getD ch 0)).I : ℂ) else coherency (stokesAt c.point (s.freq.getD ch 0)) corr
    ‖gaussianValue s c p q ch corr - coh * amplitude s c p q ch * smeared s.correctTimeSmearing s.correctFreqSmearing (s.freq.getD ch 0)
      (s.chanWidths.getD ch 0) T (delay s.reference c.point.direction (baselineUvw s p q)) v‖ ≤ 1e-12 * ‖coh * amplitude s c p q ch‖ := by
  intro coh
  have h := smear_factor s T ⟨s₀, hs⟩ c.point p q ch v hv
  rw [smeared_eq _ _ _ _ _ _ _ hw hT]
  have hval : gaussianValue s c p q ch corr = (smearTerm s c.point p q ch : ℂ) *
      (fringe (s.freq.getD ch 0) (delay s.reference c.point.direction (baselineUvw s p q)) * (coh * amplitude s c p q ch)) := by
    rw [← mul_assoc (fringe _ _), ← product_eq]
    unfold gaussianValue
    simp only
    have hg : gaussianSmear s c p q ch = amplitude s c p q ch * smearTerm s c.point p q ch := by
      unfold gaussianSmear smearTerm
      cases s.correctTimeSmearing <;> cases s.correctFreqSmearing <;> simp
      ring
    rw [hg, mk_smul]
    push_cast
    ring
  rw [hval]
  generalize ((if s.correctTimeSmearing = true then _ else _) * (if s.correctFreqSmearing = true then _ else _) : ℝ) = m at h ⊢
  generalize coh * (amplitude s c p q ch : ℂ) = k
  have e : (smearTerm s c.point p q ch : ℂ) * (fringe (s.freq.getD ch 0) (delay s.reference c.point.direction (baselineUvw s p q)) * k) -
      k * (fringe (s.freq.getD ch 0) (delay s.reference c.point.direction (baselineUvw s p q)) * (m : ℂ)) =
      ((smearTerm s c.point p q ch - m : ℝ) : ℂ) * fringe (s.freq.getD ch 0) (delay s.reference c.point.direction (baselineUvw s p q)) * k := by
    push_cast
    ring
  rw [e, norm_mul, norm_mul, fringe_norm, mul_one, Complex.norm_real, Real.norm_eq_abs]
  exact mul_le_mul_of_nonneg_right h (norm_nonneg _)


/-! ## Only smearing in time, with all correlations -/

/-- The full model of a point source takes no smearing in time into account, unless smearing in frequency is asked for as well. -/
theorem time_smear_missing (s : Cfg) (hi : s.stokesIOnly = false) (hf : s.correctFreqSmearing = false) (c : Point) (p q ch corr : Nat) :
    ‖pointValue s c p q ch corr‖ = ‖coherency (stokesAt c (s.freq.getD ch 0)) corr‖ := by
  have := product_eq s c p q ch corr
  rw [hi] at this
  simp only [Bool.false_eq_true, if_false] at this
  unfold pointValue
  simp only [hi, hf, Bool.false_eq_true, if_false]
  rw [this, norm_mul, fringe_norm, one_mul]

/-- A source a quarter of the sky away, and a frequency for which its phase makes one turn in an integration of a second. -/
noncomputable def exTime (stokesIOnly : Bool) : Cfg :=
  withNcp { exCfg with
    freq := [86164.0905 / cinv]
    stationUVW := fun st => if st = 1 then ![1, 0, 0] else ![0, 0, 0]
    correctTimeSmearing := true
    stokesIOnly := stokesIOnly } 1

noncomputable def exFar : Point := { exPoint with direction := ⟨Real.pi / 2, 0⟩ }

private theorem cinv_pos : 0 < cinv := by
  unfold cinv lightSpeed
  have := Real.pi_pos
  positivity

/-- The model of Stokes I vanishes. -/
theorem exTime_stokesI : pointValue (exTime true) exFar 0 1 0 0 = 0 := by
  have hz : timeSmear (exTime true) exFar 0 1 0 = 0 := by
    have e : timeSmear (exTime true) exFar 0 1 0 = sinc (-Real.pi) := by
      unfold timeSmear
      simp only
      congr 1
      have hc := cinv_pos.ne'
      simp [exTime, exFar, withNcp, exCfg, exPoint, stationEarthRotation, radec2lmn]
      field_simp
      norm_num
    rw [e]
    unfold sinc
    rw [if_neg]
    · simp
    · rw [abs_neg, abs_of_pos Real.pi_pos]
      have := Real.pi_gt_three
      norm_num
      linarith
  unfold pointValue smearTerm
  have h1 : (exTime true).stokesIOnly = true := rfl
  have h2 : (exTime true).correctTimeSmearing = true := rfl
  have h3 : (exTime true).correctFreqSmearing = false := rfl
  simp only [h1, h2, h3, if_true, Bool.true_or, Bool.false_eq_true, if_false, hz, zero_mul]
  rfl

/-- **C116 is violated**: of the same unpolarized source, with smearing in time, the model of Stokes I vanishes, as the mean over the
integration does, and the model with all correlations has its full flux. -/
theorem time_smear_violated :
    copyToData (exTime true) (predict (exTime true) [[.point exFar]]) 0 0 0 = 0 ∧
      ‖copyToData (exTime false) (predict (exTime false) [[.point exFar]]) 0 0 0‖ = 1 := by
  constructor
  · refine Eq.trans ?_ exTime_stokesI
    exact predict_one (exTime true) (.point exFar) 0 0 1 0 0 rfl (by decide) (by simp [exTime, withNcp]) (by decide)
  · have h : copyToData (exTime false) (predict (exTime false) [[.point exFar]]) 0 0 0 = pointValue (exTime false) exFar 0 1 0 0 :=
      predict_one (exTime false) (.point exFar) 0 0 1 0 0 rfl (by decide) (by simp [exTime, withNcp]) (by decide)
    rw [h, time_smear_missing (exTime false) rfl rfl]
    simp [exFar, exPoint, stokesAt, stokesI, coherency]

/-! ## Stokes I only -/

/-- A component without polarization at any frequency. -/
def Unpolarized (c : Point) : Prop := ∀ f, (stokesAt c f).Q = 0 ∧ (stokesAt c f).U = 0 ∧ (stokesAt c f).V = 0

private theorem product_stokesI (s : Cfg) (c : Point) (hc : Unpolarized c) (p q ch corr : Nat) :
    (⟨(product { s with stokesIOnly := false } c p q ch corr).1, (product { s with stokesIOnly := false } c p q ch corr).2⟩ : ℂ) =
      match corr with
      | 1 => 0
      | 2 => 0
      | _ => ⟨(product { s with stokesIOnly := true } c p q ch 0).1, (product { s with stokesIOnly := true } c p q ch 0).2⟩ := by
  obtain ⟨hQ, hU, hV⟩ := hc (s.freq[ch]?.getD 0)
  rw [product_eq]
  match corr with
  | 0 => simp only; rw [product_eq]; simp [coherency, hQ]; left; rfl
  | 1 => simp [coherency, hU, hV]
  | 2 => simp [coherency, hU, hV]
  | n + 3 => simp only; rw [product_eq]; simp [coherency, hQ]; left; rfl

private def pointOf : Component → Point
  | .point c => c
  | .gaussian c => c.point

private theorem value_stokesI (s : Cfg) (hok : s.correctTimeSmearing = false ∨ s.correctFreqSmearing = true) (c : Component)
    (hc : Unpolarized (pointOf c)) (p q ch corr : Nat) :
    value { s with stokesIOnly := false } c p q ch corr =
      match corr with
      | 1 => 0
      | 2 => 0
      | _ => value { s with stokesIOnly := true } c p q ch 0 := by
  cases c with
  | point c =>
    have h := product_stokesI s c hc p q ch corr
    have hv : pointValue { s with stokesIOnly := false } c p q ch corr = (if s.correctFreqSmearing then (smearTerm s c p q ch : ℂ) else 1) *
        ⟨(product { s with stokesIOnly := false } c p q ch corr).1, (product { s with stokesIOnly := false } c p q ch corr).2⟩ := by
      unfold pointValue
      simp only [Bool.false_eq_true, if_false]
      split
      · rw [mk_smul]
        rfl
      · rw [one_mul]
    have hv' : pointValue { s with stokesIOnly := true } c p q ch 0 = (if s.correctFreqSmearing then (smearTerm s c p q ch : ℂ) else 1) *
        ⟨(product { s with stokesIOnly := true } c p q ch 0).1, (product { s with stokesIOnly := true } c p q ch 0).2⟩ := by
      have hsm : smearTerm { s with stokesIOnly := true } c p q ch = smearTerm s c p q ch := rfl
      unfold pointValue
      simp only [if_true]
      rw [hsm]
      rcases hok with h1 | h1
      · simp only [h1, Bool.false_or]
        split
        · rw [mk_smul]
        · rw [one_mul]
      · simp only [h1, Bool.or_true, if_true]
        rw [mk_smul]
    have hval : value { s with stokesIOnly := false } (.point c) p q ch corr = pointValue { s with stokesIOnly := false } c p q ch corr := rfl
    rw [hval, hv, h]
    match corr with
    | 0 => exact hv'.symm
    | 1 => simp
    | 2 => simp
    | n + 3 => exact hv'.symm
  | gaussian c =>
    have h := product_stokesI s c.point hc p q ch corr
    have hv : gaussianValue { s with stokesIOnly := false } c p q ch corr = (gaussianSmear s c p q ch : ℂ) *
        ⟨(product { s with stokesIOnly := false } c.point p q ch corr).1, (product { s with stokesIOnly := false } c.point p q ch corr).2⟩ := by
      unfold gaussianValue
      simp only
      rw [mk_smul]
      rfl
    have hv' : gaussianValue { s with stokesIOnly := true } c p q ch 0 = (gaussianSmear s c p q ch : ℂ) *
        ⟨(product { s with stokesIOnly := true } c.point p q ch 0).1, (product { s with stokesIOnly := true } c.point p q ch 0).2⟩ := by
      unfold gaussianValue
      simp only
      rw [mk_smul]
      rfl
    have hval : value { s with stokesIOnly := false } (.gaussian c) p q ch corr = gaussianValue { s with stokesIOnly := false } c p q ch corr :=
      rfl
    rw [hval, hv, h]
    match corr with
    | 0 => exact hv'.symm
    | 1 => simp
    | 2 => simp
    | n + 3 => exact hv'.symm

private theorem make_unpolarized (src : Source) (h : polarized src = false) (c : Component) (hc : makePointSource src = some c) :
    Unpolarized (pointOf c) := by
  classical
  unfold makePointSource at hc
  by_cases hj : src.refTypeIsJ2000 = true
  · rw [if_pos hj] at hc
    unfold polarized at h
    have hp : pointOf c = { direction := ⟨src.ra, src.dec⟩
                            stokes := if src.useRotationMeasure then ⟨src.I, 0, 0, src.V⟩ else ⟨src.I, src.Q, src.U, src.V⟩
                            refFreq := if src.terms.length > 0 then src.refFreq else 0
                            terms := src.terms
                            polarizedFraction := if src.useRotationMeasure then src.polFrac else 0
                            polarizationAngle := if src.useRotationMeasure then src.polAngle else 0
                            rotationMeasure := if src.useRotationMeasure then src.rm else 0
                            hasRotationMeasure := src.useRotationMeasure
                            hasLogarithmicSI := if src.terms.length > 0 then src.hasLogarithmicSI else true } := by
      simp only at hc
      split at hc <;> (injection hc with hc; rw [← hc]; rfl)
    rw [hp]
    intro f
    unfold stokesAt
    cases hr : src.useRotationMeasure
    · rw [hr] at h
      simp at h
      simp [h]
    · rw [hr] at h
      simp at h
      simp [h]
  · rw [if_neg hj] at hc
    exact absurd hc (by simp)

/-- **C116.** When no source of the patches is polarized, the fast model of Stokes I and the model with all correlations are the same,
for both kinds of smearing, for smearing in frequency only and for none. -/
theorem predict_stokesI (s : Cfg) (hok : s.correctTimeSmearing = false ∨ s.correctFreqSmearing = true) (sources : List Source)
    (names : List (List Char)) (h : checkPolarized sources names = false) (ranges : List (List Component))
    (hr : ranges.flatten = (selected sources names).filterMap makePointSource) (bl ch corr : Nat) (hcorr : corr < 4) :
    copyToData { s with stokesIOnly := true } (predict { s with stokesIOnly := true } ranges) bl ch corr =
      copyToData { s with stokesIOnly := false } (predict { s with stokesIOnly := false } ranges) bl ch corr := by
  have hu : ∀ c ∈ ranges.flatten, Unpolarized (pointOf c) := by
    intro c hc
    rw [hr, List.mem_filterMap] at hc
    obtain ⟨src, hsrc, hm⟩ := hc
    unfold selected at hsrc
    rw [List.mem_filter] at hsrc
    apply make_unpolarized src _ c hm
    unfold checkPolarized at h
    rw [List.any_eq_false] at h
    have h' := h src hsrc.1
    rw [Bool.not_eq_true, List.any_eq_false] at h'
    have h'' := h' src.patchName (by simpa using hsrc.2)
    simpa using h''
  have key : ∀ k, k < 4 → predict { s with stokesIOnly := false } ranges bl ch k =
      match k with
      | 1 => 0
      | 2 => 0
      | _ => predict { s with stokesIOnly := true } ranges bl ch 0 := by
    intro k hk
    rw [predict_eq_total, predict_eq_total]
    unfold total
    show (match s.baselines[bl]? with
      | none => (0 : ℂ)
      | some (p, q) => if p = q then 0 else if ch < s.freq.length ∧ k < 4 then _ else 0) = _
    generalize hl : ranges.flatten = l at hu
    have e0 : (match k with
      | 1 => (0 : ℂ)
      | 2 => 0
      | _ => match s.baselines[bl]? with
        | none => (0 : ℂ)
        | some (p, q) => if p = q then 0 else if ch < s.freq.length ∧ 0 < 1 then
            (l.map fun c => value { s with stokesIOnly := true } c p q ch 0).sum else 0) =
      match s.baselines[bl]? with
        | none => (0 : ℂ)
        | some (p, q) => if p = q then 0 else if ch < s.freq.length then
            (l.map fun c => match k with
              | 1 => 0
              | 2 => 0
              | _ => value { s with stokesIOnly := true } c p q ch 0).sum else 0 := by
      cases s.baselines[bl]? with
      | none =>
        match k with
        | 0 => rfl
        | 1 => rfl
        | 2 => rfl
        | n + 3 => rfl
      | some pq =>
        match k with
        | 0 => simp
        | 1 => simp
        | 2 => simp
        | n + 3 => simp
    refine Eq.trans ?_ e0.symm
    cases s.baselines[bl]? with
    | none => rfl
    | some pq =>
      simp only [hk, and_true]
      split
      · rfl
      · split
        · congr 1
          apply List.map_congr_left
          intro c hc
          exact value_stokesI s hok c (hu c hc) pq.1 pq.2 ch k
        · rfl
  unfold copyToData
  simp only [if_true, Bool.false_eq_true, if_false]
  rw [key corr hcorr]
  match corr with
  | 0 => rfl
  | 1 => rfl
  | 2 => rfl
  | n + 3 => rfl


/-- An unpolarized Gaussian and a polarized point source of another patch. -/
noncomputable def exSource : Source :=
  { patchName := "a".toList, isGaussian := true, refTypeIsJ2000 := true, ra := 1, dec := 1, I := 2, Q := 0, U := 0, V := 0
    majorAxis := 3, minorAxis := 2, orientation := 30, positionAngleIsAbsolute := true, polAngle := 0, polFrac := 0, rm := 0
    useRotationMeasure := false, terms := [-0.7], refFreq := 150e6, hasLogarithmicSI := true }

noncomputable def exSource2 : Source := { exSource with patchName := "b".toList, isGaussian := false, Q := 1 }

example (s : Cfg) (hs : s = withNcp { exCfg with correctTimeSmearing := true, correctFreqSmearing := true } 2) (bl ch : Nat) :
    copyToData { s with stokesIOnly := true } (predict { s with stokesIOnly := true }
        [(selected [exSource, exSource2] ["a".toList]).filterMap makePointSource]) bl ch 3 =
      copyToData { s with stokesIOnly := false } (predict { s with stokesIOnly := false }
        [(selected [exSource, exSource2] ["a".toList]).filterMap makePointSource]) bl ch 3 :=
  predict_stokesI s (Or.inr (by rw [hs]; rfl)) [exSource, exSource2] ["a".toList]
    (by simp [checkPolarized, polarized, exSource, exSource2]) _ (by simp) bl ch 3 (by decide)

example : checkPolarized [exSource, exSource2] ["a".toList, "b".toList] = true := by
  simp [checkPolarized, polarized, exSource, exSource2]

example (s : Cfg) (hs : s = withNcp { exCfg with correctTimeSmearing := true, correctFreqSmearing := true } 2) (v : ℝ)
    (hv : HasDerivAt (delayAt s.reference exPoint2.direction (baselineUvw s 0 1)) v 0) :
    ‖pointValue s exPoint2 0 1 0 0 - coherency (stokesAt exPoint2 (s.freq.getD 0 0)) 0 *
      (timeMean (s.freq.getD 0 0) 2 (delay s.reference exPoint2.direction (baselineUvw s 0 1)) v *
        channelMean (s.freq.getD 0 0) 1 (delay s.reference exPoint2.direction (baselineUvw s 0 1)) /
        fringe (s.freq.getD 0 0) (delay s.reference exPoint2.direction (baselineUvw s 0 1)))‖ ≤
      1e-12 * ‖coherency (stokesAt exPoint2 (s.freq.getD 0 0)) 0‖ := by
  subst hs
  exact smear_point _ 2 (by norm_num) _ rfl exPoint2 0 1 0 0 (by simp [withNcp, exCfg]) (Or.inr (Or.inr rfl)) v hv

end DP3.Simulator
