import Verif.PhaseLine.Model
import Mathlib.Tactic.Linarith
import Mathlib.Tactic.Ring
import Mathlib.Tactic.FieldSimp
import Mathlib.Tactic.LinearCombination
import Mathlib.Algebra.Order.BigOperators.Group.List
import Mathlib.Algebra.Order.Round

/-!
# Lemmas about the line fitter
-/

namespace DP3.PhaseLine

open Real

/-- Two phases are equal: modulo 2π. -/
def SamePhase (a b : ℝ) : Prop := ∃ k : ℤ, a = b + 2 * π * k

theorem fmod_same (a : ℝ) : ∃ k : ℤ, fmod a (2 * π) = a + 2 * π * k := by
  refine ⟨-(if 0 ≤ a / (2 * π) then ⌊a / (2 * π)⌋ else ⌈a / (2 * π)⌉ : ℤ), ?_⟩
  unfold fmod
  push_cast
  ring

theorem fmod_nonneg (a : ℝ) (h : 0 ≤ a) : 0 ≤ fmod a (2 * π) ∧ fmod a (2 * π) < 2 * π := by
  have hp := Real.pi_pos
  have h0 : 0 ≤ a / (2 * π) := by positivity
  have ha : a = a / (2 * π) * (2 * π) := by field_simp
  unfold fmod
  rw [if_pos h0]
  have h1 := Int.floor_le (a / (2 * π))
  have h2 := Int.lt_floor_add_one (a / (2 * π))
  constructor
  · nlinarith
  · nlinarith

theorem fmod_neg (a : ℝ) (h : a < 0) : -(2 * π) < fmod a (2 * π) ∧ fmod a (2 * π) ≤ 0 := by
  have hp := Real.pi_pos
  have h0 : ¬ 0 ≤ a / (2 * π) := by
    rw [not_le]; exact div_neg_of_neg_of_pos h (by linarith)
  have ha : a = a / (2 * π) * (2 * π) := by field_simp
  unfold fmod
  rw [if_neg h0]
  have h1 := Int.le_ceil (a / (2 * π))
  have h2 := Int.ceil_lt_add_one (a / (2 * π))
  constructor
  · nlinarith
  · nlinarith

/-- A multiple of 2π that is smaller than 2π is zero. -/
theorem small_multiple (k : ℤ) (h : |2 * π * k| < 2 * π) : k = 0 := by
  have hp := Real.pi_pos
  rw [abs_mul, abs_of_pos (by linarith : 0 < 2 * π)] at h
  have h1 : |(k : ℝ)| < 1 := by
    by_contra hc
    nlinarith
  have h2 : |k| < 1 := by exact_mod_cast h1
  exact Int.abs_lt_one_iff.mp h2

/-- The distance is the circular distance. -/
theorem distance_spec (slope : ℝ) (s : Sample) :
    (∃ k : ℤ, distance slope s = |slope * s.x - s.y + 2 * π * k|) ∧
    (∀ k : ℤ, distance slope s ≤ |slope * s.x - s.y + 2 * π * k|) ∧ distance slope s ≤ π ∧ 0 ≤ distance slope s := by
  have hp := Real.pi_pos
  obtain ⟨n, hn⟩ := fmod_same |slope * s.x - s.y|
  obtain ⟨h0, h2⟩ := fmod_nonneg _ (abs_nonneg (slope * s.x - s.y))
  -- the value is |a + 2πm| for some m, and at most π
  have key : ∃ m : ℤ, distance slope s = |(|slope * s.x - s.y| + 2 * π * m)| ∧ distance slope s ≤ π ∧ 0 ≤ distance slope s := by
    unfold distance
    by_cases hc : fmod |slope * s.x - s.y| (2 * π) > π
    · rw [if_pos hc]
      refine ⟨n - 1, ?_, by linarith, by linarith⟩
      have : |slope * s.x - s.y| + 2 * π * ((n - 1 : ℤ) : ℝ) = -(2 * π - fmod |slope * s.x - s.y| (2 * π)) := by
        rw [hn]; push_cast; ring
      rw [this, abs_neg, abs_of_pos (show 0 < 2 * π - fmod |slope * s.x - s.y| (2 * π) by linarith)]
    · rw [if_neg hc]
      refine ⟨n, ?_, by linarith, h0⟩
      rw [← hn, abs_of_nonneg h0]
  obtain ⟨m, hm, hle, hge⟩ := key
  have sign : ∃ e : ℤ, (e = 1 ∨ e = -1) ∧ |slope * s.x - s.y| = e * (slope * s.x - s.y) := by
    rcases abs_choice (slope * s.x - s.y) with h | h
    · exact ⟨1, .inl rfl, by rw [h]; simp⟩
    · exact ⟨-1, .inr rfl, by rw [h]; simp⟩
  obtain ⟨e, he, hes⟩ := sign
  have hval : distance slope s = |slope * s.x - s.y + 2 * π * (e * m : ℤ)| := by
    rw [hm, hes]
    rcases he with h | h
    · subst h; push_cast; congr 1; ring
    · subst h
      push_cast
      rw [← abs_neg]
      congr 1
      ring
  refine ⟨⟨e * m, hval⟩, fun k => ?_, hle, hge⟩
  by_cases hk : k = e * m
  · rw [hk, ← hval]
  · -- otherwise at least 2π - π
    have h1 : 2 * π ≤ |2 * π * (k - e * m : ℤ)| := by
      by_contra hc
      exact hk (by have := small_multiple _ (not_le.mp hc); omega)
    have h3 : |2 * π * ((k - e * m : ℤ) : ℝ)| ≤
        |slope * s.x - s.y + 2 * π * k| + |slope * s.x - s.y + 2 * π * (e * m : ℤ)| := by
      have : 2 * π * ((k - e * m : ℤ) : ℝ) =
          (slope * s.x - s.y + 2 * π * k) - (slope * s.x - s.y + 2 * π * (e * m : ℤ)) := by push_cast; ring
      rw [this]
      exact abs_sub _ _
    rw [← hval] at h3
    linarith

theorem distance_zero (slope : ℝ) (s : Sample) : distance slope s = 0 ↔ SamePhase s.y (slope * s.x) := by
  obtain ⟨⟨k, hk⟩, hmin, -, hge⟩ := distance_spec slope s
  constructor
  · intro h
    rw [h] at hk
    have := abs_eq_zero.mp hk.symm
    exact ⟨k, by linarith⟩
  · rintro ⟨k, h⟩
    have := hmin k
    rw [h] at this
    rw [show slope * s.x - (slope * s.x + 2 * π * k) + 2 * π * k = 0 by ring, abs_zero] at this
    exact le_antisymm this hge

/-- The unwrapped phase is the same phase, within π of the line. -/
theorem unwrapped_spec (u : ℝ) (s : Sample) :
    SamePhase (unwrapped u s) s.y ∧ -π ≤ unwrapped u s - u * s.x ∧ unwrapped u s - u * s.x < π := by
  have hp := Real.pi_pos
  obtain ⟨n, hn⟩ := fmod_same (s.y - u * s.x)
  have hb : -(2 * π) < fmod (s.y - u * s.x) (2 * π) ∧ fmod (s.y - u * s.x) (2 * π) < 2 * π := by
    rcases lt_or_ge (s.y - u * s.x) 0 with h | h
    · have := fmod_neg _ h; exact ⟨this.1, by linarith [this.2]⟩
    · have := fmod_nonneg _ h; exact ⟨by linarith [this.1], this.2⟩
  unfold unwrapped
  simp only
  by_cases h1 : fmod (s.y - u * s.x) (2 * π) ≥ π
  · rw [if_pos h1]
    refine ⟨⟨n - 1, ?_⟩, by linarith, by linarith [hb.2]⟩
    rw [hn]; push_cast; ring
  · rw [if_neg h1]
    by_cases h2 : fmod (s.y - u * s.x) (2 * π) < -π
    · rw [if_pos h2]
      refine ⟨⟨n + 1, ?_⟩, by linarith [hb.1], by linarith⟩
      rw [hn]; push_cast; ring
    · rw [if_neg h2]
      refine ⟨⟨n, ?_⟩, by linarith, by linarith⟩
      rw [hn]; ring

/-- It is the only such value. -/
theorem unwrapped_eq (u : ℝ) (s : Sample) (v : ℝ) (h : SamePhase v s.y) (h1 : -π ≤ v - u * s.x) (h2 : v - u * s.x < π) :
    unwrapped u s = v := by
  obtain ⟨⟨n, hn⟩, h3, h4⟩ := unwrapped_spec u s
  obtain ⟨k, hk⟩ := h
  have : n - k = 0 := by
    apply small_multiple
    rw [abs_lt]
    have : 2 * π * ((n - k : ℤ) : ℝ) = (unwrapped u s - u * s.x) - (v - u * s.x) := by
      rw [hn, hk]; push_cast; ring
    rw [this]
    constructor <;> linarith
  have hnk : n = k := by omega
  rw [hn, hk, hnk]

/-! ## Sums -/

theorem foldl_pair (data : List Sample) (f g : Sample → ℝ) (a b : ℝ) :
    data.foldl (fun (r : ℝ × ℝ) s => (r.1 + f s, r.2 + g s)) (a, b) = (a + (data.map f).sum, b + (data.map g).sum) := by
  induction data generalizing a b with
  | nil => simp
  | cons s data ih => rw [List.foldl_cons, ih]; simp [add_assoc]

theorem cost_eq (data : List Sample) (slope : ℝ) :
    slopeModelCost data slope =
      (data.map fun s => distance slope s * s.weight).sum / (data.map Sample.weight).sum := by
  unfold slopeModelCost
  rw [foldl_pair data (fun s => distance slope s * s.weight) Sample.weight]
  simp only [zero_add]
  by_cases h : (data.map Sample.weight).sum = 0
  · rw [if_pos h, h, div_zero]
  · rw [if_neg h]

theorem fit_eq (data : List Sample) (u : ℝ) :
    unwrapAndFit data u =
      (data.map fun s => s.x * s.weight * unwrapped u s).sum / (data.map fun s => s.x * s.weight * s.x).sum := by
  unfold unwrapAndFit
  rw [foldl_pair data (fun s => s.x * s.weight * unwrapped u s) (fun s => s.x * s.weight * s.x)]
  simp only [zero_add]
  by_cases h : (data.map fun s => s.x * s.weight * s.x).sum = 0
  · rw [if_neg (by simpa using h), h, div_zero]
  · rw [if_pos h]

theorem sum_mul_left (data : List Sample) (c : ℝ) (f : Sample → ℝ) :
    (data.map fun s => c * f s).sum = c * (data.map f).sum := by
  induction data with
  | nil => simp
  | cons s data ih => rw [List.map_cons, List.sum_cons, ih, List.map_cons, List.sum_cons]; ring

theorem sum_add (data : List Sample) (f g : Sample → ℝ) :
    (data.map fun s => f s + g s).sum = (data.map f).sum + (data.map g).sum := by
  induction data with
  | nil => simp
  | cons s data ih => simp only [List.map_cons, List.sum_cons, ih]; ring

theorem sum_le (data : List Sample) (f g : Sample → ℝ) (h : ∀ s ∈ data, f s ≤ g s) :
    (data.map f).sum ≤ (data.map g).sum := List.sum_le_sum h

theorem sum_nonneg (data : List Sample) (f : Sample → ℝ) (h : ∀ s ∈ data, 0 ≤ f s) : 0 ≤ (data.map f).sum := by
  have := sum_le data (fun _ => 0) f h
  simpa using this

theorem sum_zero (data : List Sample) (f : Sample → ℝ) (h : ∀ s ∈ data, 0 ≤ f s) (hz : (data.map f).sum = 0) :
    ∀ s ∈ data, f s = 0 := by
  induction data with
  | nil => simp
  | cons a data ih =>
    rw [List.map_cons, List.sum_cons] at hz
    have h1 := h a (List.mem_cons_self ..)
    have h2 := sum_nonneg data f fun s hs => h s (List.mem_cons_of_mem _ hs)
    intro s hs
    rcases List.mem_cons.mp hs with e | e
    · subst e; linarith
    · exact ih (fun s hs => h s (List.mem_cons_of_mem _ hs)) (by linarith) s e

theorem sum_pos (data : List Sample) (f : Sample → ℝ) (h : ∀ s ∈ data, 0 ≤ f s) (s : Sample) (hs : s ∈ data) (hp : 0 < f s) :
    0 < (data.map f).sum := by
  rcases lt_or_eq_of_le (sum_nonneg data f h) with h1 | h1
  · exact h1
  · have := sum_zero data f h h1.symm s hs
    linarith

/-! ## The search -/

theorem mem_wraps (range : Range) (i : ℤ) : i ∈ wraps range ↔ -range.maxWraps ≤ i ∧ i ≤ range.maxWraps := by
  unfold wraps
  rw [List.mem_map]
  constructor
  · rintro ⟨j, hj, rfl⟩
    rw [List.mem_range] at hj
    omega
  · intro h
    exact ⟨(i + range.maxWraps).toNat, List.mem_range.mpr (by omega), by omega⟩

theorem four_lt_doubleMax : 4 < doubleMax := by
  unfold doubleMax
  have h1 : (2 : ℝ)⁻¹ ^ 52 ≤ 1 := pow_le_one₀ (by norm_num) (by norm_num)
  have h2 : (2 : ℝ) ^ 3 ≤ 2 ^ 1023 := pow_le_pow_right₀ (by norm_num) (by norm_num)
  have h3 : (1 : ℝ) * 2 ^ 3 ≤ (2 - (2 : ℝ)⁻¹ ^ 52) * 2 ^ 1023 := by
    apply mul_le_mul _ h2 (by positivity) (by linarith)
    linarith
  exact lt_of_lt_of_le (by norm_num) h3

/-- The loop ends with the smallest cost of the estimates, and the estimate that has it. -/
theorem foldl_tryWrap (data : List Sample) (range : Range) (l : List ℤ) (best : ℝ × ℝ) :
    (l.foldl (tryWrap data range) best = best ∨
      ∃ i ∈ l, l.foldl (tryWrap data range) best =
        (slopeModelCost data (unwrapAndFit data (range.wrapStep * i)), unwrapAndFit data (range.wrapStep * i))) ∧
    (l.foldl (tryWrap data range) best).1 ≤ best.1 ∧
    ∀ i ∈ l, (l.foldl (tryWrap data range) best).1 ≤ slopeModelCost data (unwrapAndFit data (range.wrapStep * i)) := by
  induction l generalizing best with
  | nil => simp
  | cons i l ih =>
    rw [List.foldl_cons]
    obtain ⟨h1, h2, h3⟩ := ih (tryWrap data range best i)
    by_cases hc : slopeModelCost data (unwrapAndFit data (range.wrapStep * i)) < best.1
    · have ht : tryWrap data range best i =
          (slopeModelCost data (unwrapAndFit data (range.wrapStep * i)), unwrapAndFit data (range.wrapStep * i)) := by
        unfold tryWrap; simp only; rw [if_pos hc]
      rw [ht] at h1 h2 h3 ⊢
      simp only at h2
      refine ⟨.inr ?_, by linarith, fun k hk => ?_⟩
      · rcases h1 with h1 | ⟨k, hk, h1⟩
        · exact ⟨i, List.mem_cons_self .., h1⟩
        · exact ⟨k, List.mem_cons_of_mem _ hk, h1⟩
      · rcases List.mem_cons.mp hk with e | e
        · subst e; exact h2
        · exact h3 k e
    · have ht : tryWrap data range best i = best := by
        unfold tryWrap; simp only; rw [if_neg hc]
      rw [ht] at h1 h2 h3 ⊢
      refine ⟨?_, h2, fun k hk => ?_⟩
      · rcases h1 with h1 | ⟨k, hk, h1⟩
        · exact .inl h1
        · exact .inr ⟨k, List.mem_cons_of_mem _ hk, h1⟩
      · rcases List.mem_cons.mp hk with e | e
        · subst e; linarith [not_lt.mp hc]
        · exact h3 k e

end DP3.PhaseLine
