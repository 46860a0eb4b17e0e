import Verif.Tec.Lemmas
import Mathlib.Analysis.Real.Pi.Irrational
import Mathlib.Tactic.IntervalCases

/-!
# C106: the TEC fitter
-/

namespace DP3.Tec

open Real PhaseLine

set_option linter.unusedSimpArgs false

/-! ## The cost -/

/-- C106: the cost is the weighted mean of the circular distances between the phases and the model, at least zero and at most
π, and zero exactly if all channels with weight have the phase of the model. -/
theorem cost_spec (data : List Chan) (alpha beta : ℝ) (hw : ∀ c ∈ data, 0 ≤ c.weight) (hW : 0 < (data.map Chan.weight).sum) :
    (∃ d : Chan → ℝ, (∀ c, (∃ k : ℤ, d c = |alpha / c.nu + beta - c.phase + 2 * π * k|) ∧
        ∀ k : ℤ, d c ≤ |alpha / c.nu + beta - c.phase + 2 * π * k|) ∧
      cost2 data alpha beta * (data.map Chan.weight).sum = (data.map fun c => d c * c.weight).sum) ∧
    0 ≤ cost2 data alpha beta ∧ cost2 data alpha beta ≤ π ∧
    (cost2 data alpha beta = 0 ↔ ∀ c ∈ data, c.weight ≠ 0 → SamePhase c.phase (alpha / c.nu + beta)) ∧
    cost1 data alpha = cost2 data alpha 0 := by
  have hT : 0 < total data := hW
  have heq := cost2_eq data alpha beta
  have hnn : ∀ c ∈ data, 0 ≤ circle (alpha / c.nu + beta) c.phase * c.weight :=
    fun c hc => mul_nonneg (circle_spec _ _).2.2.2 (hw c hc)
  refine ⟨⟨fun c => circle (alpha / c.nu + beta) c.phase, fun c => ⟨(circle_spec _ _).1, (circle_spec _ _).2.1⟩, ?_⟩,
    ?_, ?_, ?_, cost1_cost2 data alpha⟩
  · rw [heq]
    show _ / total data * total data = _
    rw [div_mul_cancel₀ _ (ne_of_gt hT)]
  · rw [heq]
    exact div_nonneg (sum_ge data _ hnn) (le_of_lt hT)
  · rw [heq, div_le_iff₀ hT]
    have h1 := sum_mono data (fun c => circle (alpha / c.nu + beta) c.phase * c.weight) (fun c => π * c.weight)
      fun c hc => mul_le_mul_of_nonneg_right (circle_spec _ _).2.2.1 (hw c hc)
    rw [sum_scale data π Chan.weight] at h1
    exact h1
  · rw [heq]
    constructor
    · intro h c hc hwc
      have h1 : (data.map fun c => circle (alpha / c.nu + beta) c.phase * c.weight).sum = 0 := by
        rcases div_eq_zero_iff.mp h with h | h
        · exact h
        · exact absurd h (ne_of_gt hT)
      have h2 := sum_eq_zero data _ hnn h1 c hc
      rcases mul_eq_zero.mp h2 with h3 | h3
      · exact (circle_zero _ _).mp h3
      · exact absurd h3 hwc
    · intro h
      have : (data.map fun c => circle (alpha / c.nu + beta) c.phase * c.weight).sum = (data.map fun _ => (0 : ℝ)).sum := by
        apply sum_congr
        intro c hc
        by_cases hwc : c.weight = 0
        · rw [hwc, mul_zero]
        · rw [(circle_zero _ _).mpr (h c hc hwc), zero_mul]
      rw [this]
      simp

/-- The two channels for the examples: 150 and 200 MHz, with the phases of alpha = -4e10. -/
noncomputable def exData : List Chan := [⟨150e6, fmod (-40000e6 / 150e6) (2 * π), 1⟩, ⟨200e6, fmod (-40000e6 / 200e6) (2 * π), 1⟩]

example : cost2 exData (-40000e6) 0 = 0 := by
  have := (cost_spec exData (-40000e6) 0 (by simp [exData]) (by simp [exData])).2.2.2.1
  rw [this]
  intro c hc _
  simp only [exData, List.mem_cons, List.not_mem_nil, or_false] at hc
  rcases hc with rfl | rfl
  · simpa using fmod_samePhase (-40000e6 / 150e6)
  · simpa using fmod_samePhase (-40000e6 / 200e6)

/-! ## The phase offset -/

/-- C106: the fitted offset is the weighted mean of the distances between the phases and the TEC part of the model. The
phases are unwrapped, to `q`, within π of the estimate, and the mean must be within π of them too. -/
theorem fitBeta_mean (data : List Chan) (alpha est m : ℝ) (q : Chan → ℝ) (hW : (data.map Chan.weight).sum ≠ 0)
    (hq : ∀ c ∈ data, c.weight ≠ 0 → SamePhase (q c) c.phase)
    (hest : ∀ c ∈ data, c.weight ≠ 0 → |q c - alpha / c.nu - est| < π)
    (hm : (data.map fun c => (q c - alpha / c.nu) * c.weight).sum = m * (data.map Chan.weight).sum)
    (hmq : ∀ c ∈ data, c.weight ≠ 0 → |q c - alpha / c.nu - m| < π) :
    SamePhase (fitBeta data alpha est) m ∧ |fitBeta data alpha est| < 2 * π := by
  rw [fitBeta_eq data alpha est m q hW hq hest hm hmq]
  exact ⟨fmod_samePhase m, fmod_abs m⟩

/-- C106: if there is an offset for which the model is exact, that is the fitted offset, unless the estimate is opposite. -/
theorem fitBeta_exact (data : List Chan) (alpha est b : ℝ) (hW : (data.map Chan.weight).sum ≠ 0)
    (hb : ∀ c ∈ data, c.weight ≠ 0 → SamePhase c.phase (alpha / c.nu + b)) (hest : ¬ SamePhase (b - est) π) :
    SamePhase (fitBeta data alpha est) b := by
  have hp := Real.pi_pos
  -- an offset near the estimate
  obtain ⟨h1, h2⟩ := residual_spec 0 est ⟨1, b, 1⟩
  simp only [zero_div, zero_add] at h1
  have h3 : |residual 0 est ⟨1, b, 1⟩| < π := by
    rcases lt_or_eq_of_le h2 with h | h
    · exact h
    · exfalso
      apply hest
      rcases abs_eq (le_of_lt hp) |>.mp h with h | h
      · rw [h] at h1; exact same_symm h1
      · rw [h] at h1
        obtain ⟨k, hk⟩ := same_symm h1
        exact ⟨k - 1, by rw [hk]; push_cast; ring⟩
  obtain ⟨k, hk⟩ := h1
  set r := residual 0 est ⟨1, b, 1⟩ with hr
  have key := fitBeta_eq data alpha est (est + r) (fun c => alpha / c.nu + est + r) hW
    (fun c hc hw => by
      obtain ⟨n, hn⟩ := hb c hc hw
      exact ⟨k - n, by rw [hn, hk]; push_cast; ring⟩)
    (fun c _ _ => by
      rw [show alpha / c.nu + est + r - alpha / c.nu - est = r by ring]; exact h3)
    (by
      have : (data.map fun c => (alpha / c.nu + est + r - alpha / c.nu) * c.weight).sum =
          (data.map fun c => (est + r) * c.weight).sum := by
        apply sum_congr; intro c _; ring
      rw [this, sum_scale data (est + r) Chan.weight]
      rfl)
    (fun c _ _ => by
      rw [show alpha / c.nu + est + r - alpha / c.nu - (est + r) = 0 by ring, abs_zero]; exact hp)
  rw [key]
  refine same_trans (fmod_samePhase _) ⟨k, ?_⟩
  rw [hk]; ring

example : SamePhase (fitBeta exData (-40000e6) 1) 0 := by
  have hp := Real.two_le_pi
  apply fitBeta_exact exData (-40000e6) 1 0 (by simp [exData])
  · intro c hc _
    simp only [exData, List.mem_cons, List.not_mem_nil, or_false] at hc
    rcases hc with rfl | rfl
    · simpa using fmod_samePhase (-40000e6 / 150e6)
    · simpa using fmod_samePhase (-40000e6 / 200e6)
  · rintro ⟨k, hk⟩
    have h1 : (0 : ℝ) - 1 = π * (1 + 2 * k) := by rw [hk]; ring
    have h2 : π * |(1 + 2 * k : ℝ)| = 1 := by
      have := congrArg abs h1
      rw [abs_mul, abs_of_pos Real.pi_pos] at this
      rw [← this]; norm_num
    have h3 : (1 : ℝ) ≤ |(1 + 2 * k : ℝ)| := by
      have : (1 : ℤ) ≤ |1 + 2 * k| := by
        rcases abs_cases (1 + 2 * k) with h | h <;> omega
      exact_mod_cast this
    nlinarith

/-- Three channels for which the unwrapping changes. -/
noncomputable def exWrap : List Chan := [⟨1, 9 / 10 * π, 1⟩, ⟨1, 9 / 10 * π, 1⟩, ⟨1, -(9 / 10) * π, 1⟩]

private theorem exWrap_residual (b p : ℝ) (k : ℤ) (h : |p - b + 2 * π * k| < π) (w : ℝ) :
    residual 0 b ⟨1, p, w⟩ = p - b + 2 * π * k :=
  residual_eq _ _ _ _ ⟨k, by simp⟩ h

/-- C106, not met: the sum of the weights is not reset between the iterations, so the second and third iteration make only
half and a third of the step. If the unwrapping changes the offset is not the mean, and the cost is more than that of the
mean: the phases 0.9π, 0.9π and -0.9π = 1.1π have mean 29π/30, but from zero the fit ends with 67π/90. -/
theorem fitBeta_short :
    fitBeta exWrap 0 0 = 67 / 90 * π ∧ (exWrap.map fun c => residual 0 (67 / 90 * π) c * c.weight).sum = 2 / 3 * π ∧
    (exWrap.map fun c => residual 0 (29 / 30 * π) c * c.weight).sum = 0 ∧
    fitBeta exWrap 0 (29 / 30 * π) = 29 / 30 * π ∧ cost2 exWrap 0 (29 / 30 * π) < cost2 exWrap 0 (fitBeta exWrap 0 0) := by
  have hp := Real.pi_pos
  have tot : total exWrap = 3 := by simp [total, exWrap]; norm_num
  have habs : ∀ x : ℝ, -1 < x → x < 1 → |x * π| < π := by
    intro x h1 h2
    rw [abs_mul, abs_of_pos hp]
    have : |x| < 1 := abs_lt.mpr ⟨h1, h2⟩
    nlinarith
  have sums : ∀ (x : ℝ) (k : ℤ), -1 < 9 / 10 - x → 9 / 10 - x < 1 → -1 < -(9 / 10) - x + 2 * k → -(9 / 10) - x + 2 * k < 1 →
      (exWrap.map fun c => residual 0 (x * π) c * c.weight).sum = (9 / 10 - 3 * x + 2 * k) * π := by
    intro x k h1 h2 h3 h4
    have e1 : residual 0 (x * π) ⟨1, 9 / 10 * π, 1⟩ = (9 / 10 - x) * π := by
      rw [exWrap_residual (x * π) (9 / 10 * π) 0]
      · simp; ring
      · rw [show 9 / 10 * π - x * π + 2 * π * (0 : ℤ) = (9 / 10 - x) * π by simp; ring]
        exact habs _ h1 h2
    have e2 : residual 0 (x * π) ⟨1, -(9 / 10) * π, 1⟩ = (-(9 / 10) - x + 2 * k) * π := by
      rw [exWrap_residual (x * π) (-(9 / 10) * π) k]
      · ring
      · rw [show -(9 / 10) * π - x * π + 2 * π * k = (-(9 / 10) - x + 2 * k) * π by ring]
        exact habs _ h3 h4
    simp only [exWrap, List.map_cons, List.map_nil, List.sum_cons, List.sum_nil, e1, e2]
    ring
  have wrap : ∀ x : ℝ, 0 ≤ x → x < 1 → fmod (x * π) (2 * π) = x * π := by
    intro x h1 h2
    have : x * π / (2 * π) = x / 2 := by field_simp
    unfold fmod
    rw [this, if_pos (by linarith), show ⌊x / 2⌋ = 0 by rw [Int.floor_eq_zero_iff]; constructor <;> linarith]
    simp
  have step : ∀ x W : ℝ, betaStep exWrap 0 (x * π, W) =
      (x * π + (exWrap.map fun c => residual 0 (x * π) c * c.weight).sum / (W + 3), W + 3) := by
    intro x W
    rw [betaStep_eq, tot]
  have s1 : betaStep exWrap 0 (0, 0) = (3 / 10 * π, 3) := by
    have := step 0 0
    rw [sums 0 0 (by norm_num) (by norm_num) (by norm_num) (by norm_num)] at this
    rw [zero_mul] at this
    rw [this]
    norm_num
    ring
  have s2 : betaStep exWrap 0 (3 / 10 * π, 3) = (19 / 30 * π, 6) := by
    rw [step, sums (3 / 10) 1 (by norm_num) (by norm_num) (by norm_num) (by norm_num)]
    norm_num
    ring
  have s3 : betaStep exWrap 0 (19 / 30 * π, 6) = (67 / 90 * π, 9) := by
    rw [step, sums (19 / 30) 1 (by norm_num) (by norm_num) (by norm_num) (by norm_num)]
    norm_num
    ring
  have f0 : fitBeta exWrap 0 0 = 67 / 90 * π := by
    unfold fitBeta
    rw [s1, s2, s3]
    exact wrap _ (by norm_num) (by norm_num)
  have r0 : (exWrap.map fun c => residual 0 (29 / 30 * π) c * c.weight).sum = 0 := by
    rw [sums (29 / 30) 1 (by norm_num) (by norm_num) (by norm_num) (by norm_num)]
    norm_num
  refine ⟨f0, ?_, r0, ?_, ?_⟩
  · rw [sums (67 / 90) 1 (by norm_num) (by norm_num) (by norm_num) (by norm_num)]
    norm_num
  · have s : ∀ W, betaStep exWrap 0 (29 / 30 * π, W) = (29 / 30 * π, W + 3) := by
      intro W
      rw [step, r0]
      simp
    unfold fitBeta
    rw [s, s, s]
    exact wrap _ (by norm_num) (by norm_num)
  · rw [f0, cost2_eq, cost2_eq, tot]
    have c1 : ∀ x : ℝ, -1 < x - 9 / 10 → x - 9 / 10 < 1 → circle (0 / 1 + x * π) (9 / 10 * π) = |(x - 9 / 10) * π| := by
      intro x h1 h2
      exact circle_small _ _ _ ⟨0, by simp; ring⟩ (le_of_lt (habs _ h1 h2))
    have c2 : ∀ x : ℝ, -1 < x - 11 / 10 → x - 11 / 10 < 1 → circle (0 / 1 + x * π) (-(9 / 10) * π) = |(x - 11 / 10) * π| := by
      intro x h1 h2
      exact circle_small _ _ _ ⟨1, by simp; ring⟩ (le_of_lt (habs _ h1 h2))
    simp only [exWrap, List.map_cons, List.map_nil, List.sum_cons, List.sum_nil]
    rw [c1 _ (by norm_num) (by norm_num), c2 _ (by norm_num) (by norm_num), c1 _ (by norm_num) (by norm_num),
      c2 _ (by norm_num) (by norm_num)]
    simp only [abs_mul, abs_of_pos hp]
    norm_num
    rw [div_lt_div_iff_of_pos_right (by norm_num)]
    nlinarith

/-! ## The grid and the window -/

theorem grid_eq (i : Nat) : gridAlpha (-bound) bound i = -40000e6 + (i : ℝ) * 312.5e6 := by
  unfold gridAlpha bound
  norm_num
  ring

theorem window_eq (k : Nat) :
    window (-bound) bound k = (gridAlpha (-bound) bound k - 312.5e6, gridAlpha (-bound) bound k + 312.5e6) := by
  rw [grid_eq]
  unfold window bound
  push_cast
  norm_num
  constructor <;> ring

theorem free_lt_max (data : List Chan) (hw : ∀ c ∈ data, 0 ≤ c.weight) (a b : ℝ) : cost2 data a b < doubleMax := by
  have h4 := four_lt_doubleMax
  by_cases h : 0 < (data.map Chan.weight).sum
  · have := (cost_spec data a b hw h).2.2.1
    linarith [Real.pi_le_four]
  · have h0 : total data = 0 := le_antisymm (not_lt.mp h) (sum_ge data _ hw)
    rw [cost2_eq, h0, div_zero]
    linarith

/-- C106: the grid search for the one parameter model takes the first value with the smallest cost, where the phase offset is
free. -/
theorem best1_spec (data : List Chan) (hw : ∀ c ∈ data, 0 ≤ c.weight) :
    ∃ k, k < 256 ∧ (best1 data (-bound) bound).2 = k ∧
      (∀ i, i < 256 → freeCost data (-bound) bound k ≤ freeCost data (-bound) bound i) ∧
      ∀ i, i < k → freeCost data (-bound) bound k < freeCost data (-bound) bound i := by
  obtain ⟨k, h1, h2, h3, h4⟩ := foldl_try1 data (-bound) bound 256 (by norm_num) fun i => free_lt_max data hw _ _
  exact ⟨k, h1, by unfold best1; rw [h2], h3, h4⟩

/-! ## The ternary search -/

theorem mid_eq (s e : ℝ) : (left s e + right s e) * 0.5 = (s + e) / 2 := by
  unfold left right
  norm_num
  ring

theorem left_lt {s e : ℝ} (h : s < e) : s < left s e ∧ left s e < (s + e) / 2 ∧ (s + e) / 2 < right s e ∧ right s e < e := by
  unfold left right
  refine ⟨?_, ?_, ?_, ?_⟩ <;> linarith

/-- C106: the search ends inside the window. -/
theorem ternary1_mem (data : List Chan) (acc : ℝ) (n : Nat) (s e : ℝ) (h : s < e) :
    s < ternary1 data acc n s e ∧ ternary1 data acc n s e < e := by
  induction n generalizing s e with
  | zero =>
    obtain ⟨h1, h2, h3, h4⟩ := left_lt h
    unfold ternary1
    rw [mid_eq]
    constructor <;> linarith
  | succ n ih =>
    obtain ⟨h1, h2, h3, h4⟩ := left_lt h
    unfold ternary1
    by_cases hc : acc < |cost1 data (left s e) - cost1 data (right s e)|
    · rw [if_pos hc]
      by_cases hl : cost1 data (left s e) < cost1 data (right s e)
      · rw [if_pos hl]
        have := ih s (right s e) (by linarith)
        exact ⟨this.1, by linarith [this.2]⟩
      · rw [if_neg hl]
        have := ih (left s e) e (by linarith)
        exact ⟨by linarith [this.1], this.2⟩
    · rw [if_neg hc, mid_eq]
      constructor <;> linarith

theorem ternary2_mem (data : List Chan) (acc : ℝ) (n : Nat) (s e beta : ℝ) (h : s < e) :
    s < (ternary2 data acc n s e beta).1 ∧ (ternary2 data acc n s e beta).1 < e := by
  induction n generalizing s e beta with
  | zero =>
    obtain ⟨h1, h2, h3, h4⟩ := left_lt h
    unfold ternary2
    simp only
    rw [mid_eq]
    constructor <;> linarith
  | succ n ih =>
    obtain ⟨h1, h2, h3, h4⟩ := left_lt h
    unfold ternary2
    by_cases hc : acc < (step2 data s e beta).2
    · rw [if_pos hc]
      unfold step2
      simp only
      by_cases hl : cost2 data (left s e) (fitBeta data (left s e) beta) < cost2 data (right s e) (fitBeta data (right s e) beta)
      · rw [if_pos hl]
        have := ih s (right s e) (fitBeta data (left s e) beta) (by linarith)
        exact ⟨this.1, by linarith [this.2]⟩
      · rw [if_neg hl]
        have := ih (left s e) e (fitBeta data (right s e) beta) (by linarith)
        exact ⟨by linarith [this.1], this.2⟩
    · rw [if_neg hc]
      simp only
      rw [mid_eq]
      constructor <;> linarith

theorem ternary2_beta (data : List Chan) (acc : ℝ) (n : Nat) (s e beta : ℝ) : |(ternary2 data acc n s e beta).2| < 2 * π := by
  induction n generalizing s e beta with
  | zero => exact fitBeta_abs _ _ _
  | succ n ih =>
    unfold ternary2
    by_cases hc : acc < (step2 data s e beta).2
    · rw [if_pos hc]; exact ih _ _ _
    · rw [if_neg hc]; exact fitBeta_abs _ _ _

theorem best2_index (data : List Chan) (lower upper beta : ℝ) : (best2 data lower upper beta).index < 256 := by
  have : ∀ n b, b.index < 256 → n ≤ 256 → ((List.range n).foldl (try2 data lower upper) b).index < 256 := by
    intro n
    induction n with
    | zero => intro b hb _; simpa using hb
    | succ n ih =>
      intro b hb hn
      rw [List.range_succ, List.foldl_append, List.foldl_cons, List.foldl_nil]
      unfold try2
      simp only
      split
      · simp only; omega
      · exact ih b hb (by omega)
  exact this 256 _ (by simp) (le_refl _)

/-- C106: alpha is in the search range, which is extended by one step of the grid at the lower end, and beta is within 2π of
zero. -/
theorem fit_range (data : List Chan) (acc beta : ℝ) (hw : ∀ c ∈ data, 0 ≤ c.weight) :
    (-40312.5e6 < fit1 data acc ∧ fit1 data acc < 40000e6) ∧
    (-40312.5e6 < (fit2 data acc beta).1 ∧ (fit2 data acc beta).1 < 40000e6) ∧ |(fit2 data acc beta).2| < 2 * π := by
  refine ⟨?_, ?_, ternary2_beta ..⟩
  · obtain ⟨k, hk, he, -⟩ := best1_spec data hw
    have h := ternary1_mem data acc 99 (gridAlpha (-bound) bound k - 312.5e6) (gridAlpha (-bound) bound k + 312.5e6)
      (by norm_num; linarith)
    unfold fit1
    simp only
    rw [he, window_eq]
    rw [grid_eq] at h ⊢
    have hk1 : (k : ℝ) ≤ 255 := by exact_mod_cast (by omega : k ≤ 255)
    have hk0 : (0 : ℝ) ≤ k := Nat.cast_nonneg k
    refine ⟨lt_of_le_of_lt ?_ h.1, lt_of_lt_of_le h.2 ?_⟩
    · norm_num; linarith
    · norm_num; linarith
  · have hk := best2_index data (-bound) bound beta
    unfold fit2
    simp only
    set k := (best2 data (-bound) bound beta).index with hkd
    have h := ternary2_mem data acc 99 (gridAlpha (-bound) bound k - 312.5e6) (gridAlpha (-bound) bound k + 312.5e6)
      (best2 data (-bound) bound beta).beta (by norm_num; linarith)
    rw [window_eq]
    rw [grid_eq] at h ⊢
    have hk1 : (k : ℝ) ≤ 255 := by exact_mod_cast (by omega : k ≤ 255)
    have hk0 : (0 : ℝ) ≤ k := Nat.cast_nonneg k
    refine ⟨lt_of_le_of_lt ?_ h.1, lt_of_lt_of_le h.2 ?_⟩
    · norm_num; linarith
    · norm_num; linarith

end DP3.Tec
