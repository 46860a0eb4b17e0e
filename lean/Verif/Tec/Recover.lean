import Verif.Tec.Props

/-!
# C106: what the TEC fitter finds
-/

namespace DP3.Tec

open Real PhaseLine

set_option linter.unusedSimpArgs false

/-! ## Channels without weight -/

/-- C106: channels without weight are ignored, and the order of the channels does not matter: the parameters only depend on
sums over the channels with weight. -/
theorem fit_ignores (l k : List Chan) (h : SameData l k) (acc beta : ℝ) :
    fit1 l acc = fit1 k acc ∧ fit2 l acc beta = fit2 k acc beta ∧
      (fitData1 l acc beta).cost = (fitData1 k acc beta).cost ∧ (fitData2 l acc beta).cost = (fitData2 k acc beta).cost := by
  have hc : cost2 l = cost2 k := by funext a b; exact same_cost2 l k h a b
  have hc1 : cost1 l = cost1 k := by funext a; rw [cost1_cost2, cost1_cost2, hc]
  have hb : fitBeta l = fitBeta k := by funext a b; exact same_beta l k h a b
  have ht1 : try1 l = try1 k := by funext a b c d; unfold try1; rw [hb, hc]
  have ht2 : try2 l = try2 k := by funext a b c d; unfold try2; rw [hb, hc]
  have hs : step2 l = step2 k := by funext a b c; unfold step2; rw [hb, hc]
  have hn1 : ∀ n s e, ternary1 l acc n s e = ternary1 k acc n s e := by
    intro n
    induction n with
    | zero => intro s e; rfl
    | succ n ih => intro s e; unfold ternary1; rw [hc1, ih, ih]
  have hn2 : ∀ n s e b, ternary2 l acc n s e b = ternary2 k acc n s e b := by
    intro n
    induction n with
    | zero => intro s e b; unfold ternary2; rw [hs, hb]
    | succ n ih => intro s e b; unfold ternary2; rw [hs, hb, ih]
  have e1 : fit1 l acc = fit1 k acc := by unfold fit1 best1; rw [ht1]; exact hn1 ..
  have e2 : fit2 l acc beta = fit2 k acc beta := by unfold fit2 best2; rw [ht2]; exact hn2 ..
  refine ⟨e1, e2, ?_, ?_⟩
  · unfold fitData1; simp only; rw [e1, hc1]
  · unfold fitData2; simp only; rw [e2, hc]

/-- C106: so the fit is the fit of the channels with weight. -/
theorem fit_filter (l : List Chan) (acc beta : ℝ) : open Classical in
    fit1 l acc = fit1 (l.filter fun c => decide (c.weight ≠ 0)) acc ∧
    fit2 l acc beta = fit2 (l.filter fun c => decide (c.weight ≠ 0)) acc beta := by
  have := fit_ignores l _ (same_filter l) acc beta
  exact ⟨this.1, this.2.1⟩

example (acc : ℝ) : fit1 (⟨100e6, 1, 0⟩ :: exData) acc = fit1 exData acc :=
  (fit_ignores _ _ (fun f hf => by rw [List.map_cons, List.sum_cons, hf _ rfl, zero_add]) acc 0).1

/-- C106: without any weight alpha is the lower end of the range, and beta is the wrapped input value of beta. -/
theorem fit_none (data : List Chan) (acc beta : ℝ) (h : ∀ c ∈ data, c.weight = 0) (hacc : 0 ≤ acc) :
    fit1 data acc = -40000e6 ∧ (fit2 data acc beta).1 = -40000e6 ∧ SamePhase (fit2 data acc beta).2 beta := by
  have h0 : total data = 0 := by
    have : total data = (data.map fun _ => (0 : ℝ)).sum := sum_congr data _ _ h
    rw [this]; simp
  have hc : ∀ a b, cost2 data a b = 0 := fun a b => by rw [cost2_eq, h0, div_zero]
  have hc1 : ∀ a, cost1 data a = 0 := fun a => by rw [cost1_cost2, hc]
  have hb : ∀ a e, fitBeta data a e = fmod e (2 * π) := fun a e => fitBeta_none data a e h
  have hg0 : gridAlpha (-bound) bound 0 = -40000e6 := by rw [grid_eq]; simp
  have hmid : (left (-40000e6 - 312.5e6) (-40000e6 + 312.5e6) + right (-40000e6 - 312.5e6) (-40000e6 + 312.5e6)) * 0.5 =
      (-40000e6 : ℝ) := by rw [mid_eq]; norm_num
  refine ⟨?_, ?_⟩
  · obtain ⟨k, hk, he, -, hfst⟩ := best1_spec data fun c hc => by rw [h c hc]
    have hk0 : k = 0 := by
      by_contra hne
      have := hfst 0 (by omega)
      unfold freeCost at this
      rw [hc, hc] at this
      exact absurd this (lt_irrefl _)
    unfold fit1
    simp only
    rw [he, hk0, window_eq, hg0]
    show ternary1 data acc 99 (-40000e6 - 312.5e6) (-40000e6 + 312.5e6) = _
    rw [ternary1, if_neg (by rw [hc1, hc1]; simpa using hacc)]
    exact hmid
  · have hbest : ∃ b, best2 data (-bound) bound beta = ⟨0, 0, b⟩ ∧ SamePhase b beta := by
      have hstep : ∀ (b : Best) i, b.cost = 0 → try2 data (-bound) bound b i = b := by
        intro b i hb0
        unfold try2
        simp only
        rw [hc, if_neg (by rw [hb0]; exact lt_irrefl _)]
      have hl : ∀ (l : List Nat) (b : Best), b.cost = 0 → l.foldl (try2 data (-bound) bound) b = b := by
        intro l
        induction l with
        | nil => intro b _; rfl
        | cons i l ih => intro b hb0; rw [List.foldl_cons, hstep b i hb0, ih b hb0]
      refine ⟨fmod beta (2 * π), ?_, fmod_samePhase beta⟩
      unfold best2
      rw [show List.range 256 = 0 :: (List.range 255).map Nat.succ from List.range_succ_eq_map, List.foldl_cons]
      have : try2 data (-bound) bound ⟨doubleMax, 0, beta⟩ 0 = ⟨0, 0, fmod beta (2 * π)⟩ := by
        unfold try2
        simp only
        rw [hc, hb, if_pos (by linarith [four_lt_doubleMax])]
      rw [this, hl _ _ rfl]
    obtain ⟨b, hbe, hbs⟩ := hbest
    unfold fit2
    simp only
    rw [hbe]
    simp only
    rw [window_eq, hg0]
    simp only
    have hst : ∀ s e, (step2 data s e b).2 = 0 := by
      intro s e
      unfold step2
      simp only
      rw [hc, hc]
      simp
    rw [ternary2, if_neg (by rw [hst]; exact not_lt.mpr hacc)]
    refine ⟨hmid, ?_⟩
    simp only
    rw [hb]
    refine same_trans (fmod_samePhase _) ?_
    unfold step2
    simp only
    rw [hc, hc, if_neg (lt_irrefl _)]
    simp only
    rw [hb]
    exact same_trans (fmod_samePhase _) hbs

example : fit1 [⟨150e6, 1, 0⟩, ⟨200e6, 2, 0⟩] 1e-6 = -40000e6 :=
  (fit_none _ _ 0 (by simp) (by norm_num)).1

/-- C106, not met: "value on input is not used" is said of beta, but the result depends on it. -/
theorem beta_used : ∃ (data : List Chan) (b b' : ℝ), ¬ SamePhase (fit2 data 1e-6 b).2 (fit2 data 1e-6 b').2 := by
  have hp := Real.two_le_pi
  refine ⟨[⟨150e6, 0, 0⟩], 0, 1, fun h => ?_⟩
  have h0 := (fit_none [⟨150e6, 0, 0⟩] 1e-6 0 (by simp) (by norm_num)).2.2
  have h1 := (fit_none [⟨150e6, 0, 0⟩] 1e-6 1 (by simp) (by norm_num)).2.2
  obtain ⟨k, hk⟩ := same_trans (same_symm h0) (same_trans h h1)
  have hk' : 2 * π * (-k : ℤ) = 1 := by push_cast; linarith
  have := small_multiple (-k) (by rw [hk']; norm_num; linarith)
  rw [this] at hk'
  norm_num at hk'

/-! ## Exact data, one parameter -/

/-- The cost near the right value. -/
theorem cost1_line (data : List Chan) (a0 a : ℝ)
    (hex : ∀ c ∈ data, c.weight ≠ 0 → SamePhase c.phase (a0 / c.nu))
    (hnu : ∀ c ∈ data, c.weight ≠ 0 → 0 < c.nu ∧ |a - a0| ≤ π * c.nu) :
    cost1 data a = (data.map fun c => c.weight / c.nu).sum / total data * |a - a0| := by
  rw [cost1_eq]
  have : (data.map fun c => circle (a / c.nu) c.phase * c.weight).sum = (data.map fun c => |a - a0| * (c.weight / c.nu)).sum := by
    apply sum_congr
    intro c hc
    by_cases hw : c.weight = 0
    · rw [hw]; simp
    · obtain ⟨h1, h2⟩ := hnu c hc hw
      obtain ⟨k, hk⟩ := hex c hc hw
      have habs : |(a - a0) / c.nu| = |a - a0| / c.nu := by rw [abs_div, abs_of_pos h1]
      rw [circle_small (a / c.nu) c.phase ((a - a0) / c.nu) ⟨-k, by rw [hk]; push_cast; ring⟩ (by
        rw [habs, div_le_iff₀ h1]; exact h2), habs]
      ring
  rw [this, sum_scale data |a - a0| fun c => c.weight / c.nu]
  ring

theorem abs_dist {s e a0 : ℝ} (h1 : s ≤ a0) (h2 : a0 ≤ e) : |(s + e) / 2 - a0| ≤ (e - s) / 2 := by
  rw [abs_le]; constructor <;> linarith

/-- The last step of the search on a cost `g|a - a0|`. -/
theorem stop_bound (s e a0 acc g : ℝ) (hg : 0 < g) (hse : s < e) (h1 : s ≤ a0) (h2 : a0 ≤ e)
    (h : abs (g * |left s e - a0| - g * |right s e - a0|) ≤ acc) : |(s + e) / 2 - a0| ≤ 3 / 2 * acc / g := by
  obtain ⟨l1, l2, l3, l4⟩ := left_lt hse
  rw [show 3 / 2 * acc / g = 3 / 2 * (acc / g) by ring]
  rw [← mul_sub, abs_mul, abs_of_pos hg] at h
  have h' : abs (|left s e - a0| - |right s e - a0|) ≤ acc / g := by
    rw [le_div_iff₀ hg]; linarith
  have hm := abs_dist h1 h2
  have hthird : right s e - left s e = (e - s) / 3 := by unfold left right; ring
  have hmid : left s e + right s e = s + e := by unfold left right; ring
  rcases le_total a0 (left s e) with hl | hl
  · rw [abs_of_nonneg (by linarith : 0 ≤ left s e - a0), abs_of_nonneg (by linarith : 0 ≤ right s e - a0)] at h'
    have := neg_abs_le (left s e - a0 - (right s e - a0))
    linarith
  · rcases le_total (right s e) a0 with hr | hr
    · rw [abs_of_nonpos (by linarith : left s e - a0 ≤ 0), abs_of_nonpos (by linarith : right s e - a0 ≤ 0)] at h'
      have := le_abs_self (-(left s e - a0) - -(right s e - a0))
      linarith
    · rw [abs_of_nonpos (by linarith : left s e - a0 ≤ 0), abs_of_nonneg (by linarith : 0 ≤ right s e - a0)] at h'
      have h3 : |(s + e) / 2 - a0| = |-(left s e - a0) - (right s e - a0)| / 2 := by
        rw [show -(left s e - a0) - (right s e - a0) = -(2 * ((s + e) / 2 - a0)) by linarith, abs_neg, abs_mul]
        norm_num
      rw [h3]
      have := abs_nonneg (-(left s e - a0) - (right s e - a0))
      linarith

/-- The search on a cost that is linear at both sides of `a0`. -/
theorem ternary1_line (data : List Chan) (acc a0 g : ℝ) (hg : 0 < g) (n : Nat) (s e : ℝ) (hse : s < e)
    (h1 : s ≤ a0) (h2 : a0 ≤ e) (hc : ∀ a, s ≤ a → a ≤ e → cost1 data a = g * |a - a0|) :
    |ternary1 data acc n s e - a0| ≤ 3 / 2 * acc / g ∨ |ternary1 data acc n s e - a0| ≤ (2 / 3) ^ n * (e - s) / 2 := by
  induction n generalizing s e with
  | zero =>
    right
    unfold ternary1
    rw [mid_eq]
    simpa using abs_dist h1 h2
  | succ n ih =>
    obtain ⟨l1, l2, l3, l4⟩ := left_lt hse
    have cl := hc (left s e) (by linarith) (by linarith)
    have cr := hc (right s e) (by linarith) (by linarith)
    have hmid : left s e + right s e = s + e := by unfold left right; ring
    unfold ternary1
    by_cases hs : acc < |cost1 data (left s e) - cost1 data (right s e)|
    · rw [if_pos hs]
      by_cases hl : cost1 data (left s e) < cost1 data (right s e)
      · rw [if_pos hl]
        rw [cl, cr] at hl
        have hl' : |left s e - a0| < |right s e - a0| := lt_of_mul_lt_mul_left hl (le_of_lt hg)
        have ha : a0 ≤ right s e := by
          by_contra hcon
          rw [not_le] at hcon
          rw [abs_of_neg (by linarith : left s e - a0 < 0), abs_of_neg (by linarith : right s e - a0 < 0)] at hl'
          linarith
        have := ih s (right s e) (by linarith) h1 ha fun a b c => hc a b (by linarith)
        rcases this with h | h
        · exact .inl h
        · right
          have hw : (2 / 3 : ℝ) ^ n * (right s e - s) / 2 = (2 / 3) ^ (n + 1) * (e - s) / 2 := by unfold right; ring
          rwa [hw] at h
      · rw [if_neg hl]
        rw [cl, cr, not_lt] at hl
        have hl' : |right s e - a0| ≤ |left s e - a0| := le_of_mul_le_mul_left hl hg
        have ha : left s e ≤ a0 := by
          by_contra hcon
          rw [not_le] at hcon
          rw [abs_of_pos (by linarith : 0 < left s e - a0), abs_of_pos (by linarith : 0 < right s e - a0)] at hl'
          linarith
        have := ih (left s e) e (by linarith) ha h2 fun a b c => hc a (by linarith) c
        rcases this with h | h
        · exact .inl h
        · right
          have hw : (2 / 3 : ℝ) ^ n * (e - left s e) / 2 = (2 / 3) ^ (n + 1) * (e - s) / 2 := by unfold left; ring
          rwa [hw] at h
    · rw [if_neg hs, mid_eq]
      left
      rw [cl, cr] at hs
      exact stop_bound s e a0 acc g hg hse h1 h2 (not_lt.mp hs)

/-- C106: the one parameter fit finds the alpha of exact data, if the right value of the grid is recognised. This means that
every value of the grid that is more than a step from alpha has a higher cost than some other value, when the phase offset is
free. The frequencies must be at least 200 MHz or so, such that there are no wraps within the window around a value of the
grid. The error is at most 1.5 times the accuracy divided by the mean of 1/ν, unless the maximum number of iterations is
reached. -/
theorem fit1_recovers (data : List Chan) (acc a0 : ℝ) (hw : ∀ c ∈ data, 0 ≤ c.weight) (hW : 0 < (data.map Chan.weight).sum)
    (hex : ∀ c ∈ data, c.weight ≠ 0 → SamePhase c.phase (a0 / c.nu))
    (hnu : ∀ c ∈ data, c.weight ≠ 0 → 625e6 ≤ π * c.nu)
    (hgrid : ∀ i : Nat, i < 256 → 312.5e6 < |-40000e6 + (i : ℝ) * 312.5e6 - a0| →
      ∃ j, j < 256 ∧ freeCost data (-bound) bound j < freeCost data (-bound) bound i) :
    |fit1 data acc - a0| ≤ 3 / 2 * acc / ((data.map fun c => c.weight / c.nu).sum / (data.map Chan.weight).sum) ∨
    |fit1 data acc - a0| ≤ (2 / 3) ^ 99 * 312.5e6 := by
  have hp := Real.pi_pos
  obtain ⟨k, hk, he, hmin, -⟩ := best1_spec data hw
  have hpos : ∀ c ∈ data, c.weight ≠ 0 → 0 < c.nu := by
    intro c hc hwc
    have := hnu c hc hwc
    by_contra hcon
    nlinarith
  have hka : |gridAlpha (-bound) bound k - a0| ≤ 312.5e6 := by
    by_contra hcon
    obtain ⟨j, hj, hlt⟩ := hgrid k hk (by rw [← grid_eq]; exact not_le.mp hcon)
    exact absurd (hmin j hj) (not_le.mpr hlt)
  have hg : 0 < (data.map fun c => c.weight / c.nu).sum / total data := by
    apply div_pos _ hW
    have hnn : ∀ c ∈ data, 0 ≤ c.weight / c.nu := by
      intro c hc
      by_cases hwc : c.weight = 0
      · rw [hwc]; simp
      · exact div_nonneg (hw c hc) (le_of_lt (hpos c hc hwc))
    have : ∃ c ∈ data, c.weight ≠ 0 := by
      by_contra hcon
      push Not at hcon
      have : (data.map Chan.weight).sum = (data.map fun _ => (0 : ℝ)).sum := sum_congr data _ _ hcon
      rw [this] at hW
      simp at hW
    obtain ⟨c, hc, hwc⟩ := this
    exact sum_gt data _ hnn c hc (div_pos (lt_of_le_of_ne (hw c hc) (Ne.symm hwc)) (hpos c hc hwc))
  obtain ⟨ha1, ha2⟩ := abs_le.mp hka
  have := ternary1_line data acc a0 _ hg 99 (gridAlpha (-bound) bound k - 312.5e6) (gridAlpha (-bound) bound k + 312.5e6)
    (by norm_num; linarith) (by linarith) (by linarith) (fun a h1 h2 => by
      apply cost1_line data a0 a hex
      intro c hc hwc
      refine ⟨hpos c hc hwc, le_trans ?_ (hnu c hc hwc)⟩
      rw [abs_le]
      norm_num at h1 h2 ha1 ha2 ⊢
      constructor <;> linarith)
  unfold fit1
  simp only
  rw [he, window_eq]
  simp only
  rcases this with h | h
  · exact .inl h
  · right
    refine le_trans h (le_of_eq ?_)
    norm_num

end DP3.Tec
