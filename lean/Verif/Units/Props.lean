import Verif.Units.Model
import Mathlib.Tactic.Linarith
import Mathlib.Tactic.Ring
import Mathlib.Tactic.FieldSimp
import Mathlib.Tactic.Positivity
import Mathlib.Algebra.Order.Field.Rat

/-!
# Properties of units and memory

C283 printing with a prefix, C284 memory to use.
-/

namespace DP3.Units

set_option linter.unusedSimpArgs false

variable {K : Type} [Field K] [LinearOrder K] [IsStrictOrderedRing K]

/-! ## C283: printing with a prefix -/

theorem scale_spec (n : Nat) : ∀ (v : K) (i : Nat),
    (scale n v i).1 * 1000 ^ (scale n v i).2 = v * 1000 ^ i ∧ i ≤ (scale n v i).2 ∧ (scale n v i).2 ≤ i + n ∧
      ((scale n v i).2 < i + n → |(scale n v i).1| < 1999 / 2) ∧
      (i < (scale n v i).2 → 1999 / 2000 ≤ |(scale n v i).1|) := by
  induction n with
  | zero => intro v i; simp [scale]
  | succ n ih =>
    intro v i
    by_cases h : 1999 / 2 ≤ |v|
    · simp only [scale, h, if_true]
      obtain ⟨h1, h2, h3, h4, h5⟩ := ih (v / 1000) (i + 1)
      refine ⟨?_, by omega, by omega, fun hh => h4 (by omega), fun _ => ?_⟩
      · rw [h1, pow_succ]; field_simp
      · by_cases he : i + 1 < (scale n (v / 1000) (i + 1)).2
        · exact h5 he
        · have he' : (scale n (v / 1000) (i + 1)).2 = i + 1 := by omega
          rw [he'] at h1
          have hv : (scale n (v / 1000) (i + 1)).1 = v / 1000 :=
            mul_right_cancel₀ (pow_ne_zero _ (by norm_num)) h1
          rw [hv, abs_div, abs_of_pos (show (0 : K) < 1000 by norm_num), le_div_iff₀ (by norm_num)]
          linarith
    · simp only [scale, h, if_false]
      exact ⟨trivial, le_refl _, by omega, fun _ => not_le.mp h, fun hh => absurd hh (lt_irrefl _)⟩

/-- C283: the printed number and its prefix, with `8` for no prefix, are the value. -/
theorem pretty_value (value : K) : (pretty value).1 * 1000 ^ (pretty value).2 = value * 1000 ^ 8 := by
  unfold pretty
  split_ifs with h
  · simp [h]
  · simpa using (scale_spec (prefixes.length - 1) (value * 1000 ^ 8) 0).1

/-- C283: there is a prefix for each value, the number is printed with at most three digits before the point unless the
prefix is the last one, and with at least one unless it is the first one. -/
theorem pretty_range (value : K) : (pretty value).2 < prefixes.length ∧
    ((pretty value).2 + 1 < prefixes.length → |(pretty value).1| < 1999 / 2) ∧
    (value ≠ 0 → 0 < (pretty value).2 → 1999 / 2000 ≤ |(pretty value).1|) := by
  have hl : prefixes.length = 17 := by decide +kernel
  unfold pretty
  rw [hl]
  split_ifs with h
  · simp [h]
  · obtain ⟨-, h2, h3, h4, h5⟩ := scale_spec (17 - 1) (value * 1000 ^ 8) 0
    exact ⟨by omega, fun hh => h4 (by omega), fun _ hh => h5 hh⟩

/-- The powers of ten of the SI prefixes. -/
def si : List (Char × ℤ) :=
  [('y', -24), ('z', -21), ('a', -18), ('f', -15), ('p', -12), ('n', -9), ('u', -6), ('m', -3), (' ', 0), ('k', 3), ('M', 6),
    ('G', 9), ('T', 12), ('P', 15), ('E', 18), ('Z', 21), ('Y', 24)]

theorem prefixes_si : ∀ i : Nat, i < 17 → ∃ c, prefixes[i]? = some c ∧ (c, 3 * (i : ℤ) - 24) ∈ si := by
  have h : ∀ i : Nat, i < 17 → (prefixes[i]?.any fun c => decide ((c, 3 * (i : ℤ) - 24) ∈ si)) = true := by decide +kernel
  intro i hi
  have := h i hi
  rw [Option.any_eq_true] at this
  obtain ⟨c, hc, hd⟩ := this
  exact ⟨c, hc, of_decide_eq_true hd⟩

/-- C283: the printed number, times the power of ten of the printed SI prefix, is the value. -/
theorem pretty_si (value : K) : ∃ c e, prefixes[(pretty value).2]? = some c ∧ (c, e) ∈ si ∧
    value = (pretty value).1 * 10 ^ e := by
  have hl : prefixes.length = 17 := by decide +kernel
  have hr := (pretty_range value).1
  obtain ⟨c, hc, he⟩ := prefixes_si (pretty value).2 (by omega)
  refine ⟨c, _, hc, he, ?_⟩
  have hv := pretty_value value
  have h10 : (10 : K) ≠ 0 := by norm_num
  rw [zpow_sub₀ h10, zpow_mul, zpow_natCast]
  have h3 : ((10 : K) ^ (3 : ℤ)) = 1000 := by norm_num
  have h24 : ((10 : K) ^ (24 : ℤ)) = 1000 ^ 8 := by norm_num
  rw [h3, h24, mul_div_assoc', hv]
  field_simp

example : pretty (1500000 : ℚ) = (3 / 2, 10) ∧ prefixes[10]? = some 'M' ∧ pretty (1 / 1000 : ℚ) = (1, 7) ∧
    prefixes[7]? = some 'm' ∧ pretty (12 : ℚ) = (12, 8) ∧ prefixes[8]? = some ' ' := by decide +kernel

/-! ## C284: memory to use -/

omit [IsStrictOrderedRing K] in
/-- C284: a percentage outside zero to hundred is refused, others are not. -/
theorem memory_refused (sys memory percentage : K) (clip : Bool) :
    availableMemory sys memory percentage clip = none ↔ percentage < 0 ∨ 100 < percentage := by
  unfold availableMemory
  split_ifs <;> simp_all

example : availableMemory (8 * gb : ℚ) 0 101 true = none ∧ availableMemory (8 * gb : ℚ) 0 50 true = some (4 * gb) := by
  decide +kernel

/-- C284: the memory to use is positive; with `clip` it is at most that of the system; a given amount and a given percentage
are not exceeded. -/
theorem memory_bounds (sys memory percentage m : K) (clip : Bool) (hs : 0 < sys)
    (h : availableMemory sys memory percentage clip = some m) :
    0 < m ∧ (clip = true → m ≤ sys) ∧ (0 < memory → m ≤ memory * gb) ∧ (0 < percentage → m ≤ percentage * sys / 100) := by
  have hg : (0 : K) < gb := by unfold gb; norm_num
  unfold availableMemory at h
  by_cases h1 : percentage < 0 ∨ 100 < percentage
  · rw [if_pos h1] at h; simp at h
  rw [if_neg h1] at h
  rw [not_or, not_lt, not_lt] at h1
  have hmax : ∀ c : Bool, (if c = true then min (memory * gb) sys else memory * gb) ≤ memory * gb := by
    intro c; cases c <;> simp
  have hclip : clip = true → (if clip = true then min (memory * gb) sys else memory * gb) ≤ sys := by
    intro hc; simp [hc]
  have hpos : 0 < memory → 0 < (if clip = true then min (memory * gb) sys else memory * gb) := by
    intro hm; have := mul_pos hm hg
    cases clip <;> simp [this, hs]
  have hm0 := hmax clip
  clear hmax
  simp only at h
  generalize (if clip = true then min (memory * gb) sys else memory * gb) = mm at *
  by_cases hp : 0 < percentage
  · rw [if_pos hp] at h
    have ha : 0 < percentage * sys / 100 := by positivity
    have hle : percentage * sys / 100 ≤ sys := by
      rw [div_le_iff₀ (by norm_num)]; nlinarith
    simp only [Option.some.injEq] at h
    split_ifs at h with h2
    · subst h
      exact ⟨h2.1, hclip, fun _ => hm0, fun _ => h2.2.le⟩
    · subst h
      refine ⟨ha, fun _ => hle, fun hm => ?_, fun _ => le_refl _⟩
      have : ¬ mm < percentage * sys / 100 := fun hh => h2 ⟨hpos hm, hh⟩
      exact (not_lt.mp this).trans hm0
  · rw [if_neg hp] at h
    by_cases hm : memory ≤ 0
    · rw [if_pos hm] at h
      simp only [Option.some.injEq] at h
      subst h
      have h3 : min (sys / 2) (2 * gb) ≤ sys / 2 := min_le_left _ _
      have h4 : 0 < min (sys / 2) (2 * gb) := lt_min (by linarith) (by linarith)
      refine ⟨by linarith, fun _ => by linarith, fun hh => absurd hh (not_lt.mpr hm), fun hh => absurd hh hp⟩
    · rw [if_neg hm] at h
      simp only [Option.some.injEq] at h
      subst h
      exact ⟨hpos (not_le.mp hm), hclip, fun _ => hm0, fun hh => absurd hh hp⟩

example : availableMemory (8 * gb : ℚ) 16 0 true = some (8 * gb) ∧ availableMemory (8 * gb : ℚ) 3 50 true = some (3 * gb) ∧
    availableMemory (8 * gb : ℚ) 0 0 true = some (6 * gb) ∧ availableMemory (8 * gb : ℚ) 16 0 false = some (16 * gb) := by
  decide +kernel

/-- C284: if nothing is given, all memory is used but half of it or 2 GB. -/
theorem memory_default (sys : K) (clip : Bool) :
    availableMemory sys 0 0 clip = some (max (sys / 2) (sys - 2 * gb)) := by
  have h1 : ¬ ((0 : K) < 0 ∨ (100 : K) < 0) := by norm_num
  unfold availableMemory
  rw [if_neg h1]
  simp only [lt_irrefl, if_false, le_refl, if_true, Option.some.injEq]
  rcases le_total (sys / 2) (2 * gb) with h | h
  · rw [min_eq_left h, max_eq_left (by linarith)]; ring
  · rw [min_eq_right h, max_eq_right (by linarith)]

example : availableMemory (2 * gb : ℚ) 0 0 false = some gb := by decide +kernel

end DP3.Units
