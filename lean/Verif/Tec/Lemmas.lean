import Verif.Tec.Model
import Verif.PhaseLine.Lemmas
import Mathlib.Tactic.NormNum
import Mathlib.Tactic.Positivity

/-!
# Lemmas about the TEC fitter
-/

namespace DP3.Tec

open Real PhaseLine

/-! ## Phases -/

theorem same_refl (a : ℝ) : SamePhase a a := ⟨0, by simp⟩

theorem same_symm {a b : ℝ} (h : SamePhase a b) : SamePhase b a := by
  obtain ⟨k, h⟩ := h
  exact ⟨-k, by rw [h]; push_cast; ring⟩

theorem same_trans {a b c : ℝ} (h : SamePhase a b) (g : SamePhase b c) : SamePhase a c := by
  obtain ⟨k, h⟩ := h
  obtain ⟨l, g⟩ := g
  exact ⟨k + l, by rw [h, g]; push_cast; ring⟩

theorem fmod_samePhase (a : ℝ) : SamePhase (fmod a (2 * π)) a := by
  obtain ⟨k, h⟩ := fmod_same a
  exact ⟨k, h⟩

theorem fmod_abs (a : ℝ) : |fmod a (2 * π)| < 2 * π := by
  have hp := Real.pi_pos
  rw [abs_lt]
  rcases lt_or_ge a 0 with h | h
  · have := fmod_neg a h; exact ⟨this.1, by linarith [this.2]⟩
  · have := fmod_nonneg a h; exact ⟨by linarith [this.1], this.2⟩

theorem fmod_zero : fmod 0 (2 * π) = 0 := by simp [fmod]

/-- A multiple of 2π has remainder zero. -/
theorem fmod_multiple (a : ℝ) (h : SamePhase a 0) : fmod a (2 * π) = 0 := by
  obtain ⟨k, hk⟩ := same_trans (fmod_samePhase a) h
  rw [zero_add] at hk
  have := small_multiple k (by rw [← hk]; exact fmod_abs a)
  rw [hk, this]; simp

/-- The remainder of a value with the opposite sign. -/
theorem fmod_opposite (a : ℝ) : fmod (-a) (2 * π) = -fmod a (2 * π) := by
  have hp := Real.pi_pos
  rcases lt_trichotomy a 0 with h | h | h
  · obtain ⟨k, hk⟩ := fmod_same (-a)
    obtain ⟨l, hl⟩ := fmod_same a
    have h1 := fmod_nonneg (-a) (by linarith)
    have h2 := fmod_neg a h
    have : k + l = 0 := by
      apply small_multiple
      have : 2 * π * ((k + l : ℤ) : ℝ) = fmod (-a) (2 * π) + fmod a (2 * π) := by rw [hk, hl]; push_cast; ring
      rw [this, abs_lt]
      constructor <;> linarith [h1.1, h1.2, h2.1, h2.2]
    have hkl : (k : ℝ) = -l := by exact_mod_cast (by omega : k = -l)
    rw [hk, hl, hkl]; ring
  · subst h; simp [fmod]
  · obtain ⟨k, hk⟩ := fmod_same (-a)
    obtain ⟨l, hl⟩ := fmod_same a
    have h1 := fmod_neg (-a) (by linarith)
    have h2 := fmod_nonneg a (by linarith)
    have : k + l = 0 := by
      apply small_multiple
      have : 2 * π * ((k + l : ℤ) : ℝ) = fmod (-a) (2 * π) + fmod a (2 * π) := by rw [hk, hl]; push_cast; ring
      rw [this, abs_lt]
      constructor <;> linarith [h1.1, h1.2, h2.1, h2.2]
    have hkl : (k : ℝ) = -l := by exact_mod_cast (by omega : k = -l)
    rw [hk, hl, hkl]; ring

/-- Equal phases have the same exponential. -/
theorem exp_same {a b : ℝ} (h : SamePhase a b) : Complex.exp (a * Complex.I) = Complex.exp (b * Complex.I) := by
  obtain ⟨k, h⟩ := h
  rw [h, show (((b + 2 * π * k : ℝ) : ℂ) * Complex.I) = b * Complex.I + k * (2 * π * Complex.I) by push_cast; ring]
  exact Complex.exp_periodic.int_mul k _

/-! ## The circular distance -/

theorem circle_spec (e p : ℝ) :
    (∃ k : ℤ, circle e p = |e - p + 2 * π * k|) ∧ (∀ k : ℤ, circle e p ≤ |e - p + 2 * π * k|) ∧
      circle e p ≤ π ∧ 0 ≤ circle e p := by
  have h : circle e p = distance 1 ⟨e, p, 0⟩ := by
    unfold circle distance
    simp only [one_mul]
  have := distance_spec 1 ⟨e, p, 0⟩
  simp only [one_mul] at this
  rw [h]
  exact this

theorem circle_congr {e e' : ℝ} (h : SamePhase e e') (p : ℝ) : circle e p = circle e' p := by
  obtain ⟨n, h⟩ := h
  obtain ⟨⟨k, hk⟩, hm, -, -⟩ := circle_spec e p
  obtain ⟨⟨l, hl⟩, hm', -, -⟩ := circle_spec e' p
  apply le_antisymm
  · have := hm (l - n)
    rw [hl, show e' - p + 2 * π * l = e - p + 2 * π * (l - n : ℤ) by rw [h]; push_cast; ring]
    exact this
  · have := hm' (k + n)
    rw [hk, show e - p + 2 * π * k = e' - p + 2 * π * (k + n : ℤ) by rw [h]; push_cast; ring]
    exact this

theorem circle_small (e p x : ℝ) (h : SamePhase (e - p) x) (hx : |x| ≤ π) : circle e p = |x| := by
  have hp := Real.pi_pos
  obtain ⟨n, h⟩ := h
  obtain ⟨⟨k, hk⟩, hm, -, h0⟩ := circle_spec e p
  apply le_antisymm
  · have := hm (-n)
    rw [h, show x + 2 * π * n + 2 * π * (-n : ℤ) = x by push_cast; ring] at this
    exact this
  · rw [hk, h]
    by_cases hkn : n + k = 0
    · have : (n : ℝ) + k = 0 := by exact_mod_cast hkn
      rw [show x + 2 * π * n + 2 * π * k = x by linear_combination 2 * π * this]
    · have h1 : 2 * π ≤ |2 * π * ((n + k : ℤ) : ℝ)| := by
        by_contra hc
        exact hkn (small_multiple _ (not_le.mp hc))
      have h2 : |2 * π * ((n + k : ℤ) : ℝ)| ≤ |x + 2 * π * n + 2 * π * k| + |x| := by
        have : 2 * π * ((n + k : ℤ) : ℝ) = (x + 2 * π * n + 2 * π * k) - x := by push_cast; ring
        rw [this]
        exact abs_sub _ _
      linarith

theorem circle_zero (e p : ℝ) : circle e p = 0 ↔ SamePhase p e := by
  obtain ⟨⟨k, hk⟩, hm, -, h0⟩ := circle_spec e p
  constructor
  · intro h
    rw [h] at hk
    have := abs_eq_zero.mp hk.symm
    exact ⟨k, by linarith⟩
  · rintro ⟨n, h⟩
    have := hm n
    rw [show e - p + 2 * π * n = 0 by rw [h]; ring, abs_zero] at this
    exact le_antisymm this h0

/-! ## Sums -/

theorem foldl_two {α : Type} (data : List α) (f g : α → ℝ) (a b : ℝ) :
    data.foldl (fun (r : ℝ × ℝ) s => (r.1 + f s, r.2 + g s)) (a, b) = (a + (data.map f).sum, b + (data.map g).sum) := by
  induction data generalizing a b with
  | nil => simp
  | cons s data ih => rw [List.foldl_cons, ih]; simp [add_assoc]

theorem sum_scale {α : Type} (data : List α) (c : ℝ) (f : α → ℝ) :
    (data.map fun s => c * f s).sum = c * (data.map f).sum := by
  induction data with
  | nil => simp
  | cons s data ih => rw [List.map_cons, List.sum_cons, ih, List.map_cons, List.sum_cons]; ring

theorem sum_plus {α : Type} (data : List α) (f g : α → ℝ) :
    (data.map fun s => f s + g s).sum = (data.map f).sum + (data.map g).sum := by
  induction data with
  | nil => simp
  | cons s data ih => simp only [List.map_cons, List.sum_cons, ih]; ring

theorem sum_congr {α : Type} (data : List α) (f g : α → ℝ) (h : ∀ s ∈ data, f s = g s) :
    (data.map f).sum = (data.map g).sum := by rw [List.map_congr_left h]

theorem sum_mono {α : Type} (data : List α) (f g : α → ℝ) (h : ∀ s ∈ data, f s ≤ g s) :
    (data.map f).sum ≤ (data.map g).sum := List.sum_le_sum h

theorem sum_ge {α : Type} (data : List α) (f : α → ℝ) (h : ∀ s ∈ data, 0 ≤ f s) : 0 ≤ (data.map f).sum := by
  have := sum_mono data (fun _ => 0) f h
  simpa using this

theorem sum_eq_zero {α : Type} (data : List α) (f : α → ℝ) (h : ∀ s ∈ data, 0 ≤ f s) (hz : (data.map f).sum = 0) :
    ∀ s ∈ data, f s = 0 := by
  induction data with
  | nil => simp
  | cons a data ih =>
    rw [List.map_cons, List.sum_cons] at hz
    have h1 := h a (List.mem_cons_self ..)
    have h2 := sum_ge data f fun s hs => h s (List.mem_cons_of_mem _ hs)
    intro s hs
    rcases List.mem_cons.mp hs with e | e
    · subst e; linarith
    · exact ih (fun s hs => h s (List.mem_cons_of_mem _ hs)) (by linarith) s e

theorem sum_gt {α : Type} (data : List α) (f : α → ℝ) (h : ∀ s ∈ data, 0 ≤ f s) (s : α) (hs : s ∈ data) (hp : 0 < f s) :
    0 < (data.map f).sum := by
  rcases lt_or_eq_of_le (sum_ge data f h) with h1 | h1
  · exact h1
  · have := sum_eq_zero data f h h1.symm s hs
    linarith

/-! ## The cost -/

/-- The sum of the weights. -/
noncomputable def total (data : List Chan) : ℝ := (data.map Chan.weight).sum

theorem meanCost_eq (data : List Chan) (e : Chan → ℝ) :
    meanCost data e = (data.map fun c => circle (e c) c.phase * c.weight).sum / total data := by
  unfold meanCost total
  rw [foldl_two data (fun c => circle (e c) c.phase * c.weight) Chan.weight]
  simp only [zero_add]
  by_cases h : (data.map Chan.weight).sum = 0
  · rw [if_pos h, h, div_zero]
  · rw [if_neg h]

theorem cost2_eq (data : List Chan) (alpha beta : ℝ) :
    cost2 data alpha beta = (data.map fun c => circle (alpha / c.nu + beta) c.phase * c.weight).sum / total data := by
  unfold cost2
  rw [meanCost_eq]
  congr 1
  apply sum_congr
  intro c _
  show circle (wrapped2 c.nu alpha beta) c.phase * c.weight = _
  rw [wrapped2, circle_congr (fmod_samePhase _)]

theorem cost1_eq (data : List Chan) (alpha : ℝ) :
    cost1 data alpha = (data.map fun c => circle (alpha / c.nu) c.phase * c.weight).sum / total data := by
  unfold cost1
  rw [meanCost_eq]
  congr 1
  apply sum_congr
  intro c _
  show circle (wrapped1 c.nu alpha) c.phase * c.weight = _
  rw [wrapped1, circle_congr (fmod_samePhase _)]

theorem cost1_cost2 (data : List Chan) (alpha : ℝ) : cost1 data alpha = cost2 data alpha 0 := by
  rw [cost1_eq, cost2_eq]
  simp only [add_zero]

/-! ## The phase offset -/

theorem residual_spec (alpha beta : ℝ) (c : Chan) :
    SamePhase (residual alpha beta c) (c.phase - (alpha / c.nu + beta)) ∧ |residual alpha beta c| ≤ π := by
  have hp := Real.pi_pos
  obtain ⟨n, hn⟩ := fmod_same (c.phase - (alpha / c.nu + beta))
  have hb := abs_lt.mp (fmod_abs (c.phase - (alpha / c.nu + beta)))
  unfold residual func2
  simp only
  by_cases h1 : fmod (c.phase - (alpha / c.nu + beta)) (2 * π) < -π
  · rw [if_pos h1]
    refine ⟨⟨n + 1, by rw [hn]; push_cast; ring⟩, ?_⟩
    rw [abs_le]; constructor <;> linarith [hb.1]
  · rw [if_neg h1]
    by_cases h2 : fmod (c.phase - (alpha / c.nu + beta)) (2 * π) > π
    · rw [if_pos h2]
      refine ⟨⟨n - 1, by rw [hn]; push_cast; ring⟩, ?_⟩
      rw [abs_le]; constructor <;> linarith [hb.2]
    · rw [if_neg h2]
      refine ⟨⟨n, hn⟩, ?_⟩
      rw [abs_le]; constructor <;> linarith

theorem residual_eq (alpha beta : ℝ) (c : Chan) (v : ℝ) (h : SamePhase v (c.phase - (alpha / c.nu + beta)))
    (hv : |v| < π) : residual alpha beta c = v := by
  obtain ⟨h1, h2⟩ := residual_spec alpha beta c
  obtain ⟨k, hk⟩ := same_trans h1 (same_symm h)
  have : k = 0 := by
    apply small_multiple
    rw [show 2 * π * (k : ℝ) = residual alpha beta c - v by rw [hk]; ring]
    calc |residual alpha beta c - v| ≤ |residual alpha beta c| + |v| := abs_sub _ _
      _ < 2 * π := by linarith
  rw [hk, this]; simp

theorem betaStep_eq (data : List Chan) (alpha b W : ℝ) :
    betaStep data alpha (b, W) =
      (b + (data.map fun c => residual alpha b c * c.weight).sum / (W + total data), W + total data) := by
  unfold betaStep betaSums
  rw [foldl_two data (fun c => residual alpha b c * c.weight) Chan.weight]
  simp only [zero_add]
  rw [show (data.map Chan.weight).sum = total data from rfl]
  by_cases h : W + total data = 0
  · rw [if_neg (by simpa using h), h, div_zero, add_zero]
  · rw [if_pos h]

/-- The fit gives the weighted mean of the unwrapped distances, if the unwrapping stays the same: `q` are the unwrapped
phases, up to a common multiple of 2π. -/
theorem fitBeta_eq (data : List Chan) (alpha est m : ℝ) (q : Chan → ℝ) (hW : total data ≠ 0)
    (hq : ∀ c ∈ data, c.weight ≠ 0 → SamePhase (q c) c.phase)
    (hest : ∀ c ∈ data, c.weight ≠ 0 → |q c - alpha / c.nu - est| < π)
    (hm : (data.map fun c => (q c - alpha / c.nu) * c.weight).sum = m * total data)
    (hmq : ∀ c ∈ data, c.weight ≠ 0 → |q c - alpha / c.nu - m| < π) :
    fitBeta data alpha est = fmod m (2 * π) := by
  have hsum : ∀ b, (∀ c ∈ data, c.weight ≠ 0 → |q c - alpha / c.nu - b| < π) →
      (data.map fun c => residual alpha b c * c.weight).sum = (m - b) * total data := by
    intro b hb
    have h1 : (data.map fun c => residual alpha b c * c.weight).sum =
        (data.map fun c => (q c - alpha / c.nu) * c.weight + -b * c.weight).sum := by
      apply sum_congr
      intro c hc
      by_cases hw : c.weight = 0
      · rw [hw]; ring
      · have : residual alpha b c = q c - alpha / c.nu - b := by
          apply residual_eq _ _ _ _ _ (hb c hc hw)
          obtain ⟨k, hk⟩ := hq c hc hw
          exact ⟨k, by rw [hk]; ring⟩
        rw [this]; ring
    rw [h1, sum_plus data (fun c => (q c - alpha / c.nu) * c.weight) (fun c => -b * c.weight), hm,
      sum_scale data (-b) Chan.weight]
    rw [show (data.map Chan.weight).sum = total data from rfl]
    ring
  have h1 : betaStep data alpha (est, 0) = (m, 0 + total data) := by
    rw [betaStep_eq, hsum est hest, zero_add, mul_div_cancel_right₀ _ hW]
    congr 1; ring
  have h2 : ∀ W, betaStep data alpha (m, W) = (m, W + total data) := by
    intro W
    rw [betaStep_eq, hsum m hmq]
    simp
  unfold fitBeta
  rw [h1, h2, h2]

/-- Without weights the fit only wraps the estimate. -/
theorem fitBeta_none (data : List Chan) (alpha est : ℝ) (h : ∀ c ∈ data, c.weight = 0) :
    fitBeta data alpha est = fmod est (2 * π) := by
  have h1 : ∀ b W, betaStep data alpha (b, W) = (b, W + total data) := by
    intro b W
    rw [betaStep_eq]
    have : (data.map fun c => residual alpha b c * c.weight).sum = (data.map fun _ => (0 : ℝ)).sum := by
      apply sum_congr
      intro c hc
      rw [h c hc, mul_zero]
    rw [this]
    simp
  unfold fitBeta
  rw [h1, h1, h1]

/-- The fitted phase is within 2π of zero. -/
theorem fitBeta_abs (data : List Chan) (alpha est : ℝ) : |fitBeta data alpha est| < 2 * π := fmod_abs _

/-! ## Channels without weight -/

/-- The data are the same for everything that does not look at channels without weight: all such sums are the same. -/
def SameData (l k : List Chan) : Prop :=
  ∀ f : Chan → ℝ, (∀ c, c.weight = 0 → f c = 0) → (l.map f).sum = (k.map f).sum

theorem same_filter (l : List Chan) : open Classical in SameData l (l.filter fun c => decide (c.weight ≠ 0)) := by
  classical
  intro f hf
  induction l with
  | nil => rfl
  | cons c l ih =>
    rw [List.map_cons, List.sum_cons, ih]
    by_cases h : c.weight = 0
    · rw [List.filter_cons_of_neg (by simpa using h), hf c h, zero_add]
    · rw [List.filter_cons_of_pos (by simpa using h), List.map_cons, List.sum_cons]

theorem same_perm (l k : List Chan) (h : l.Perm k) : SameData l k := fun f _ => (h.map f).sum_eq

theorem same_total (l k : List Chan) (h : SameData l k) : total l = total k :=
  h Chan.weight fun _ hw => hw

theorem same_cost2 (l k : List Chan) (h : SameData l k) (a b : ℝ) : cost2 l a b = cost2 k a b := by
  rw [cost2_eq, cost2_eq, same_total l k h]
  congr 1
  apply h
  intro c hw
  rw [hw, mul_zero]

theorem same_beta (l k : List Chan) (h : SameData l k) (a b : ℝ) : fitBeta l a b = fitBeta k a b := by
  have hs : ∀ b W, betaStep l a (b, W) = betaStep k a (b, W) := by
    intro b W
    rw [betaStep_eq, betaStep_eq, same_total l k h]
    have : (l.map fun c => residual a b c * c.weight).sum = (k.map fun c => residual a b c * c.weight).sum := by
      apply h
      intro c hw
      rw [hw, mul_zero]
    rw [this]
  have h1 : betaStep l a (b, 0) = betaStep k a (b, 0) := hs b 0
  have h2 : ∀ x : ℝ × ℝ, betaStep l a x = betaStep k a x := fun x => hs x.1 x.2
  unfold fitBeta
  rw [h2, h2, h2]

/-! ## The brute force search -/

/-- The cost of a value of the grid when the phase offset is free. -/
noncomputable def freeCost (data : List Chan) (lower upper : ℝ) (i : Nat) : ℝ :=
  cost2 data (gridAlpha lower upper i) (fitBeta data (gridAlpha lower upper i) 0)

theorem foldl_try1 (data : List Chan) (lower upper : ℝ) (n : Nat) (hn : 0 < n)
    (hd : ∀ i, freeCost data lower upper i < doubleMax) :
    ∃ k, k < n ∧ (List.range n).foldl (try1 data lower upper) (doubleMax, 0) = (freeCost data lower upper k, k) ∧
      (∀ i, i < n → freeCost data lower upper k ≤ freeCost data lower upper i) ∧
      ∀ i, i < k → freeCost data lower upper k < freeCost data lower upper i := by
  induction n with
  | zero => omega
  | succ n ih =>
    rw [List.range_succ, List.foldl_append, List.foldl_cons, List.foldl_nil]
    by_cases hn0 : n = 0
    · subst hn0
      refine ⟨0, by omega, ?_, ?_, ?_⟩
      · simp only [List.range_zero, List.foldl_nil]
        unfold try1
        simp only
        rw [if_pos (show cost2 data (gridAlpha lower upper 0) (fitBeta data (gridAlpha lower upper 0) 0) < doubleMax
          from hd 0)]
        rfl
      · intro i hi
        rw [show i = 0 by omega]
      · intro i hi; omega
    · obtain ⟨k, hk, he, hmin, hfst⟩ := ih (by omega)
      rw [he]
      unfold try1
      simp only
      by_cases hc : cost2 data (gridAlpha lower upper n) (fitBeta data (gridAlpha lower upper n) 0) <
          freeCost data lower upper k
      · rw [if_pos hc]
        refine ⟨n, by omega, rfl, ?_, ?_⟩
        · intro i hi
          by_cases hin : i = n
          · rw [hin]
          · exact le_trans (le_of_lt hc) (hmin i (by omega))
        · intro i hi
          exact lt_of_lt_of_le hc (hmin i hi)
      · rw [if_neg hc]
        refine ⟨k, by omega, rfl, ?_, hfst⟩
        intro i hi
        by_cases hin : i = n
        · rw [hin]; exact not_lt.mp hc
        · exact hmin i (by omega)

end DP3.Tec
