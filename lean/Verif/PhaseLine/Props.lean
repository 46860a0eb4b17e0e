import Verif.PhaseLine.Lemmas
import Mathlib.Tactic.Positivity
import Mathlib.Tactic.NormNum

/-!
# Properties of the line fitter (C105)
-/

namespace DP3.PhaseLine

set_option linter.unusedSectionVars false

open Real

/-- C105. The cost is between 0 and π, and zero exactly if the line goes through the phases of all samples with a weight. -/
theorem cost_spec (data : List Sample) (hw : ∀ s ∈ data, 0 ≤ s.weight) (slope : ℝ) :
    0 ≤ slopeModelCost data slope ∧ slopeModelCost data slope ≤ π ∧
    (slopeModelCost data slope = 0 ↔ ∀ s ∈ data, 0 < s.weight → SamePhase s.y (slope * s.x)) := by
  rw [cost_eq]
  have hn : ∀ s ∈ data, 0 ≤ distance slope s * s.weight := fun s hs =>
    mul_nonneg (distance_spec slope s).2.2.2 (hw s hs)
  have h0 := sum_nonneg data _ hn
  have hw0 := sum_nonneg data Sample.weight hw
  refine ⟨div_nonneg h0 hw0, ?_, ?_⟩
  · refine div_le_of_le_mul₀ hw0 Real.pi_pos.le ?_
    rw [← sum_mul_left]
    exact sum_le _ _ _ fun s hs => mul_le_mul_of_nonneg_right (distance_spec slope s).2.2.1 (hw s hs)
  · rw [div_eq_zero_iff]
    constructor
    · rintro (h | h) s hs hp
      · have h1 := sum_zero data _ hn h s hs
        rw [← distance_zero]
        rcases mul_eq_zero.mp h1 with h2 | h2
        · exact h2
        · linarith
      · have h1 := sum_zero data Sample.weight hw h s hs
        linarith
    · intro h
      left
      have : (data.map fun s => distance slope s * s.weight) = data.map fun _ => 0 := by
        refine List.map_congr_left fun s hs => ?_
        rcases lt_or_eq_of_le (hw s hs) with h1 | h1
        · rw [(distance_zero slope s).mpr (h s hs h1), zero_mul]
        · rw [← h1, mul_zero]
      rw [this]
      simp

private theorem fit_denominator (data : List Sample) (hw : ∀ s ∈ data, 0 ≤ s.weight) :
    ∀ s ∈ data, 0 ≤ s.x * s.weight * s.x := fun s hs => by
  have := mul_nonneg (mul_self_nonneg s.x) (hw s hs)
  linarith [mul_comm s.weight (s.x * s.x), mul_assoc s.x s.weight s.x, mul_comm s.weight s.x, mul_assoc s.x s.x s.weight]

/-- C105. `UnwrapAndFit` is the least squares fit through the phases, each unwrapped to be within π of the given line. -/
theorem unwrapAndFit_least (data : List Sample) (hw : ∀ s ∈ data, 0 ≤ s.weight) (u : ℝ)
    (hx : ∃ s ∈ data, 0 < s.weight ∧ s.x ≠ 0) :
    ∃ y : Sample → ℝ, (∀ s ∈ data, SamePhase (y s) s.y ∧ -π ≤ y s - u * s.x ∧ y s - u * s.x < π) ∧
    ∀ m, (data.map fun s => s.weight * (unwrapAndFit data u * s.x - y s) ^ 2).sum ≤
      (data.map fun s => s.weight * (m * s.x - y s) ^ 2).sum := by
  refine ⟨unwrapped u, fun s _ => unwrapped_spec u s, fun m => ?_⟩
  obtain ⟨a, ha, hap, hax⟩ := hx
  have hD : 0 < (data.map fun s => s.x * s.weight * s.x).sum := by
    refine sum_pos data _ (fit_denominator data hw) a ha ?_
    rw [show a.x * a.weight * a.x = a.weight * (a.x * a.x) by ring]
    exact mul_pos hap (mul_self_pos.mpr hax)
  have hq : ∀ m : ℝ, (data.map fun s => s.weight * (m * s.x - unwrapped u s) ^ 2).sum =
      m ^ 2 * (data.map fun s => s.x * s.weight * s.x).sum +
      (-(2 * m) * (data.map fun s => s.x * s.weight * unwrapped u s).sum +
      (data.map fun s => s.weight * unwrapped u s ^ 2).sum) := by
    intro m
    rw [← sum_mul_left, ← sum_mul_left, ← sum_add, ← sum_add]
    congr 1
    refine List.map_congr_left fun s _ => ?_
    ring
  have hr := fit_eq data u
  rw [eq_div_iff hD.ne'] at hr
  rw [hq, hq, ← hr]
  nlinarith [mul_nonneg hD.le (sq_nonneg (m - unwrapAndFit data u))]

/-- C105. Without a sample with a weight away from the origin, the fit is zero. -/
theorem unwrapAndFit_none (data : List Sample) (u : ℝ) (h : ∀ s ∈ data, s.weight = 0 ∨ s.x = 0) : unwrapAndFit data u = 0 := by
  rw [fit_eq]
  have : (data.map fun s => s.x * s.weight * s.x) = data.map fun _ => 0 := by
    refine List.map_congr_left fun s hs => ?_
    rcases h s hs with h | h <;> rw [h] <;> ring
  rw [this]
  simp

/-- C105. A line that is close enough to the given line for the wrapping to be right is found exactly. -/
theorem unwrapAndFit_exact (data : List Sample) (hw : ∀ s ∈ data, 0 ≤ s.weight) (hx : ∃ s ∈ data, 0 < s.weight ∧ s.x ≠ 0)
    (u slope : ℝ) (hy : ∀ s ∈ data, 0 < s.weight → SamePhase s.y (slope * s.x))
    (hu : ∀ s ∈ data, 0 < s.weight → |(slope - u) * s.x| < π) : unwrapAndFit data u = slope := by
  obtain ⟨a, ha, hap, hax⟩ := hx
  have hD : 0 < (data.map fun s => s.x * s.weight * s.x).sum := by
    refine sum_pos data _ (fit_denominator data hw) a ha ?_
    rw [show a.x * a.weight * a.x = a.weight * (a.x * a.x) by ring]
    exact mul_pos hap (mul_self_pos.mpr hax)
  rw [fit_eq, div_eq_iff hD.ne', ← sum_mul_left]
  congr 1
  refine List.map_congr_left fun s hs => ?_
  rcases lt_or_eq_of_le (hw s hs) with h | h
  · have : unwrapped u s = slope * s.x := by
      have h1 := abs_lt.mp (hu s hs h)
      refine unwrapped_eq u s _ ?_ (by linarith [h1.1, sub_mul slope u s.x]) (by linarith [h1.2, sub_mul slope u s.x])
      obtain ⟨k, hk⟩ := hy s hs h
      exact ⟨-k, by rw [hk]; push_cast; ring⟩
    rw [this]; ring
  · rw [← h]; ring

private theorem near_wrap (step slope : ℝ) (n : ℤ) (hs : 0 < step) (h : |slope| < step * (n + 1)) :
    ∃ i : ℤ, -n ≤ i ∧ i ≤ n ∧ |slope - step * i| < step := by
  have hd : slope = step * (slope / step) := by field_simp
  have hb : |slope / step| < n + 1 := by
    rw [abs_div, abs_of_pos hs, div_lt_iff₀ hs]; linarith [mul_comm step ((n : ℝ) + 1)]
  rw [abs_lt] at hb
  have hstep : ∀ i : ℤ, |slope / step - i| < 1 → |slope - step * i| < step := by
    intro i hi
    rw [show slope - step * i = step * (slope / step - i) by rw [mul_sub, ← hd], abs_mul, abs_of_pos hs]
    nlinarith
  rcases le_or_gt 0 (slope / step) with h0 | h0
  · have h1 := Int.floor_le (slope / step)
    have h2 := Int.lt_floor_add_one (slope / step)
    refine ⟨⌊slope / step⌋, ?_, ?_, hstep _ (by rw [abs_lt]; constructor <;> linarith)⟩
    · have : (0 : ℤ) ≤ ⌊slope / step⌋ := Int.floor_nonneg.mpr h0
      have : (-1 : ℝ) < n := by linarith
      have : (-1 : ℤ) < n := by exact_mod_cast this
      omega
    · have : (⌊slope / step⌋ : ℝ) < n + 1 := by linarith
      have : ⌊slope / step⌋ < n + 1 := by exact_mod_cast this
      omega
  · have h1 := Int.le_ceil (slope / step)
    have h2 := Int.ceil_lt_add_one (slope / step)
    refine ⟨⌈slope / step⌉, ?_, ?_, hstep _ (by rw [abs_lt]; constructor <;> linarith)⟩
    · have : (-(n : ℝ) - 1) < ⌈slope / step⌉ := by linarith
      have : -n - 1 < ⌈slope / step⌉ := by exact_mod_cast this
      omega
    · have : ⌈slope / step⌉ ≤ 0 := Int.ceil_le.mpr (by simpa using h0.le)
      have : (-1 : ℝ) < n := by linarith
      have : (-1 : ℤ) < n := by exact_mod_cast this
      omega

/-- The best estimate of the loop, with a line that fits exactly. -/
private theorem best_exact (data : List Sample) (hw : ∀ s ∈ data, 0 ≤ s.weight) (hx : ∃ s ∈ data, 0 < s.weight ∧ s.x ≠ 0)
    (range : Range) (hstep : 0 < range.wrapStep) (hmax : ∀ s ∈ data, 0 < s.weight → range.wrapStep * |s.x| ≤ π)
    (slope : ℝ) (hslope : |slope| < range.wrapStep * (range.maxWraps + 1))
    (hy : ∀ s ∈ data, 0 < s.weight → SamePhase s.y (slope * s.x)) :
    ∃ i ∈ wraps range, fitSlope data range = unwrapAndFit data (range.wrapStep * i) ∧
      ∀ s ∈ data, 0 < s.weight → SamePhase s.y (fitSlope data range * s.x) := by
  obtain ⟨i, h1, h2, h3⟩ := near_wrap _ slope range.maxWraps hstep hslope
  have hi : i ∈ wraps range := (mem_wraps range i).mpr ⟨h1, h2⟩
  have hfit : unwrapAndFit data (range.wrapStep * i) = slope := by
    refine unwrapAndFit_exact data hw hx _ slope hy fun s hs hp => ?_
    rw [abs_mul]
    by_cases hz : s.x = 0
    · rw [hz, abs_zero, mul_zero]; exact Real.pi_pos
    · have : 0 < |s.x| := abs_pos.mpr hz
      have := hmax s hs hp
      nlinarith
  have hcost : slopeModelCost data (unwrapAndFit data (range.wrapStep * i)) = 0 := by
    rw [hfit]; exact (cost_spec data hw slope).2.2.mpr hy
  obtain ⟨h4, -, h5⟩ := foldl_tryWrap data range (wraps range) (doubleMax, 0)
  have hle := h5 i hi
  rw [hcost] at hle
  have h4' : ∃ k ∈ wraps range, (wraps range).foldl (tryWrap data range) (doubleMax, 0) =
      (slopeModelCost data (unwrapAndFit data (range.wrapStep * k)), unwrapAndFit data (range.wrapStep * k)) := by
    rcases h4 with h4 | h4
    · rw [h4] at hle
      have := four_lt_doubleMax
      simp only at hle
      linarith
    · exact h4
  obtain ⟨k, hk, hb⟩ := h4'
  rw [hb] at hle
  have hz : slopeModelCost data (unwrapAndFit data (range.wrapStep * k)) = 0 :=
    le_antisymm hle (cost_spec data hw _).1
  have hphase := (cost_spec data hw _).2.2.mp hz
  have hfinal : fitSlope data range = unwrapAndFit data (range.wrapStep * k) := by
    unfold fitSlope
    rw [hb]
    exact unwrapAndFit_exact data hw hx _ _ hphase fun s _ _ => by simp [Real.pi_pos]
  exact ⟨k, hk, hfinal, by rw [hfinal]; exact hphase⟩

/-- C105. If there is a line through all phases with a slope in the searched range, then `FitSlope` finds a line through all
phases. -/
theorem fitSlope_exact (data : List Sample) (hw : ∀ s ∈ data, 0 ≤ s.weight) (range : Range) (hstep : 0 < range.wrapStep)
    (hmax : ∀ s ∈ data, 0 < s.weight → range.wrapStep * |s.x| ≤ π)
    (slope : ℝ) (hslope : |slope| < range.wrapStep * (range.maxWraps + 1))
    (hy : ∀ s ∈ data, 0 < s.weight → SamePhase s.y (slope * s.x)) :
    ∀ s ∈ data, 0 < s.weight → SamePhase s.y (fitSlope data range * s.x) := by
  by_cases hx : ∃ s ∈ data, 0 < s.weight ∧ s.x ≠ 0
  · obtain ⟨-, -, -, h⟩ := best_exact data hw hx range hstep hmax slope hslope hy
    exact h
  · intro s hs hp
    have : s.x = 0 := by
      by_contra hc
      exact hx ⟨s, hs, hp, hc⟩
    have h1 := hy s hs hp
    rw [this, mul_zero] at h1 ⊢
    exact h1

private theorem fit_bound (data : List Sample) (hw : ∀ s ∈ data, 0 ≤ s.weight) (xmin : ℝ) (hmin : 0 < xmin)
    (hx : ∀ s ∈ data, 0 < s.weight → xmin ≤ s.x) (u : ℝ) : |unwrapAndFit data u| ≤ |u| + π / xmin := by
  have hp := Real.pi_pos
  rcases lt_or_eq_of_le (sum_nonneg data _ (fit_denominator data hw)) with hD | hD
  · have h1 : unwrapAndFit data u - u = (data.map fun s => s.x * s.weight * (unwrapped u s - u * s.x)).sum /
        (data.map fun s => s.x * s.weight * s.x).sum := by
      rw [fit_eq, eq_div_iff hD.ne', sub_mul, div_mul_cancel₀ _ hD.ne']
      have : (data.map fun s => s.x * s.weight * (unwrapped u s - u * s.x)) =
          data.map fun s => s.x * s.weight * unwrapped u s + (-u) * (s.x * s.weight * s.x) :=
        List.map_congr_left fun s _ => by ring
      rw [this, sum_add, sum_mul_left]
      ring
    have hb : ∀ s ∈ data, |s.x * s.weight * (unwrapped u s - u * s.x)| ≤ π / xmin * (s.x * s.weight * s.x) := by
      intro s hs
      rcases lt_or_eq_of_le (hw s hs) with h | h
      · have hxs := hx s hs h
        obtain ⟨-, h3, h4⟩ := unwrapped_spec u s
        have hxp : 0 < s.x := by linarith
        rw [abs_mul, abs_of_pos (mul_pos hxp h)]
        have h5 : |unwrapped u s - u * s.x| ≤ π := abs_le.mpr ⟨h3, h4.le⟩
        have h6 : π ≤ π / xmin * s.x := by
          rw [div_mul_eq_mul_div, le_div_iff₀ hmin]
          nlinarith
        have h7 := mul_pos hxp h
        nlinarith
      · rw [← h]; simp
    have hup : (data.map fun s => s.x * s.weight * (unwrapped u s - u * s.x)).sum ≤
        π / xmin * (data.map fun s => s.x * s.weight * s.x).sum := by
      rw [← sum_mul_left]
      exact sum_le _ _ _ fun s hs => (abs_le.mp (hb s hs)).2
    have hlo : -(π / xmin * (data.map fun s => s.x * s.weight * s.x).sum) ≤
        (data.map fun s => s.x * s.weight * (unwrapped u s - u * s.x)).sum := by
      rw [← neg_mul, ← sum_mul_left]
      refine sum_le _ _ _ fun s hs => ?_
      rw [neg_mul]
      exact (abs_le.mp (hb s hs)).1
    have h2 : |unwrapAndFit data u - u| ≤ π / xmin := by
      rw [h1, abs_le]
      constructor
      · rw [le_div_iff₀ hD]; linarith
      · rw [div_le_iff₀ hD]; linarith
    have h3 := abs_add_le (unwrapAndFit data u - u) u
    rw [sub_add_cancel] at h3
    linarith
  · rw [fit_eq, ← hD, div_zero, abs_zero]
    have := abs_nonneg u
    positivity

private theorem wrap_bound (range : Range) (hstep : 0 ≤ range.wrapStep) (i : ℤ) (hi : i ∈ wraps range) :
    |range.wrapStep * i| ≤ range.wrapStep * range.maxWraps := by
  rw [mem_wraps] at hi
  rw [abs_mul, abs_of_nonneg hstep]
  refine mul_le_mul_of_nonneg_left ?_ hstep
  have h : |i| ≤ range.maxWraps := abs_le.mpr ⟨by omega, hi.2⟩
  exact_mod_cast h

/-- C105. With positive x values, the fitted slope is in the searched range, but for the size of two wraps of the smallest x
value. -/
theorem fitSlope_bound (data : List Sample) (hw : ∀ s ∈ data, 0 ≤ s.weight) (xmin : ℝ) (hmin : 0 < xmin)
    (hx : ∀ s ∈ data, 0 < s.weight → xmin ≤ s.x) (range : Range) (hstep : 0 ≤ range.wrapStep) (hn : 0 ≤ range.maxWraps) :
    |fitSlope data range| ≤ range.wrapStep * range.maxWraps + 2 * π / xmin := by
  have hp := Real.pi_pos
  have hpx : 0 < π / xmin := by positivity
  have hrn : 0 ≤ range.wrapStep * range.maxWraps := mul_nonneg hstep (by exact_mod_cast hn)
  have h2p : 2 * π / xmin = π / xmin + π / xmin := by ring
  have h1 := fit_bound data hw xmin hmin hx ((wraps range).foldl (tryWrap data range) (doubleMax, 0)).2
  have h2 : |((wraps range).foldl (tryWrap data range) (doubleMax, 0)).2| ≤ range.wrapStep * range.maxWraps + π / xmin := by
    rcases (foldl_tryWrap data range (wraps range) (doubleMax, 0)).1 with h | ⟨i, hi, h⟩
    · rw [h]; simp only [abs_zero]; linarith
    · rw [h]
      have := fit_bound data hw xmin hmin hx (range.wrapStep * i)
      have := wrap_bound range hstep i hi
      simp only
      linarith
  unfold fitSlope
  linarith

/-- C105. A slope is found if it is in the searched range, and the range has no second slope with the same phases: for
positive x values of which two have a distance of delta. -/
theorem fitSlope_recovers (data : List Sample) (hw : ∀ s ∈ data, 0 ≤ s.weight) (xmin : ℝ) (hmin : 0 < xmin)
    (hx : ∀ s ∈ data, 0 < s.weight → xmin ≤ s.x) (range : Range) (hstep : 0 < range.wrapStep)
    (hmax : ∀ s ∈ data, 0 < s.weight → range.wrapStep * s.x ≤ π)
    (a b : Sample) (ha : a ∈ data) (hb : b ∈ data) (haw : 0 < a.weight) (hbw : 0 < b.weight) (hab : a.x < b.x)
    (slope : ℝ) (hslope : |slope| < range.wrapStep * (range.maxWraps + 1))
    (halias : range.wrapStep * range.maxWraps + π / xmin + |slope| < 2 * π / (b.x - a.x))
    (hy : ∀ s ∈ data, 0 < s.weight → SamePhase s.y (slope * s.x)) : fitSlope data range = slope := by
  have hex : ∃ s ∈ data, 0 < s.weight ∧ s.x ≠ 0 := ⟨b, hb, hbw, by have := hx b hb hbw; linarith⟩
  have habs : ∀ s ∈ data, 0 < s.weight → range.wrapStep * |s.x| ≤ π := by
    intro s hs hp
    rw [abs_of_pos (by have := hx s hs hp; linarith)]
    exact hmax s hs hp
  obtain ⟨i, hi, hfi, hph⟩ := best_exact data hw hex range hstep habs slope hslope hy
  have hbound : |fitSlope data range| ≤ range.wrapStep * range.maxWraps + π / xmin := by
    rw [hfi]
    have := fit_bound data hw xmin hmin hx (range.wrapStep * i)
    have := wrap_bound range hstep.le i hi
    linarith
  have hd : 0 < b.x - a.x := by linarith
  obtain ⟨k1, h1⟩ := hph a ha haw
  obtain ⟨k2, h2⟩ := hph b hb hbw
  obtain ⟨l1, h3⟩ := hy a ha haw
  obtain ⟨l2, h4⟩ := hy b hb hbw
  have hk : 2 * π * ((k1 - l1 - (k2 - l2) : ℤ) : ℝ) = (fitSlope data range - slope) * (b.x - a.x) := by
    push_cast
    linear_combination h3 - h1 + h2 - h4
  have hz : k1 - l1 - (k2 - l2) = 0 := by
    apply small_multiple
    rw [hk, abs_mul, abs_of_pos hd]
    have : |fitSlope data range - slope| < 2 * π / (b.x - a.x) := by
      have := abs_sub (fitSlope data range) slope
      linarith
    rwa [lt_div_iff₀ hd] at this
  rw [hz] at hk
  simp only [Int.cast_zero, mul_zero] at hk
  have := mul_eq_zero.mp hk.symm
  rcases this with h | h
  · linarith
  · linarith

end DP3.PhaseLine
