import Verif.PreFlagRanges.Model
import Mathlib.Tactic.Linarith
import Mathlib.Tactic.Ring
import Mathlib.Tactic.IntervalCases
import Mathlib.Algebra.Order.Floor.Ring
import Mathlib.Data.Rat.Floor
import Mathlib.Algebra.Order.Field.Rat

/-! Properties of the ranges of PreFlagger. -/

namespace DP3.PreFlagRanges
set_option linter.unusedSimpArgs false
set_option linter.unusedVariables false

/-! ## Splitting of texts -/

/-- A text is split at the first place: the two characters are not in the first part, also not half of them. -/
theorem find2_first (x y : Char) (a b : List Char) (h : find2 x y (a ++ [x]) = none) : find2 x y (a ++ x :: y :: b) = some (a, b) := by
  induction a with
  | nil => simp [find2]
  | cons c a ih =>
    cases a with
    | nil =>
      simp only [List.cons_append, List.nil_append, find2] at h ⊢
      by_cases hc : c = x ∧ x = y
      · rw [if_pos hc] at h; cases h
      · rw [if_neg hc]; simp [find2]
    | cons d a =>
      simp only [List.cons_append, find2] at h ⊢
      by_cases hc : c = x ∧ d = y
      · rw [if_pos hc] at h; cases h
      · rw [if_neg hc, Option.map_eq_none_iff] at h
        rw [if_neg hc]
        have := ih (by simpa using h)
        rw [List.cons_append] at this
        rw [this]
        rfl

theorem split_dots (a b : List Char) (h : find2 '.' '.' (a ++ ['.']) = none) : splitRange (a ++ '.' :: '.' :: b) = .ok (false, a, b) := by
  simp only [splitRange, find2_first _ _ a b h]

theorem split_pm (a b : List Char) (h0 : find2 '.' '.' (a ++ '+' :: '-' :: b) = none) (h : find2 '+' '-' (a ++ ['+']) = none) :
    splitRange (a ++ '+' :: '-' :: b) = .ok (true, a, b) := by
  simp only [splitRange, h0, find2_first _ _ a b h]

example : splitRange "12:00..13:30".toList = .ok (false, "12:00".toList, "13:30".toList) ∧
    splitRange "10+-2.5".toList = .ok (true, "10".toList, "2.5".toList) ∧ splitRange "10-20".toList = .error .throws := by decide +kernel

/-! ## Times of a day, azimuths and elevations -/

/-- C264: a range of times of the day from `v1` to `v2` matches the times between them, on the way over midnight if `v2` is before `v1`. -/
theorem day_range (R : Readers) (a b : List Char) (v1 v2 t : ℚ) (hs : find2 '.' '.' (a ++ ['.']) = none)
    (h1 : R.angle a = some v1) (h2 : R.angle b = some v2) (b1 : 0 ≤ v1) (b2 : v1 ≤ 86400) (b3 : 0 ≤ v2) (b4 : v2 ≤ 86400)
    (t1 : 0 ≤ t) (t2 : t < 86400) :
    ∃ ps, fillOne R true true (a ++ '.' :: '.' :: b) = .ok ps ∧
      (matchRange t ps = true ↔ (v1 < v2 ∧ v1 < t ∧ t < v2) ∨ (v2 < v1 ∧ (v1 < t ∨ t < v2)) ∨ (v1 = v2 ∧ t ≠ v1)) := by
  have n1 : ¬ v1 < 0 := not_lt.2 b1
  have n2 : ¬ v2 < 0 := not_lt.2 b3
  have n3 : ¬ v2 > 86400 := not_lt.2 b4
  refine ⟨pairs v1 v2, ?_, ?_⟩
  · simp [fillOne, split_dots a b hs, Except.bind, getSeconds, h1, h2, n1, n2, bounds, n3, Except.map]
  · unfold pairs
    rcases lt_trichotomy v1 v2 with hlt | heq | hgt
    · rw [if_pos hlt]
      simp only [matchRange, List.any_cons, List.any_nil, Bool.or_false, decide_eq_true_eq]
      constructor
      · rintro ⟨h, h'⟩; exact Or.inl ⟨hlt, h, h'⟩
      · rintro (⟨_, h, h'⟩ | ⟨h, _⟩ | ⟨h, _⟩)
        · exact ⟨h, h'⟩
        · exact absurd h (not_lt.2 hlt.le)
        · exact absurd h hlt.ne
    · subst heq
      rw [if_neg (lt_irrefl _)]
      simp only [matchRange, List.any_cons, List.any_nil, Bool.or_false, Bool.or_eq_true, decide_eq_true_eq, lt_irrefl, false_and, false_or,
        true_and]
      constructor
      · rintro (⟨_, h⟩ | ⟨h, _⟩)
        · exact h.ne
        · exact ne_of_gt h
      · intro h
        rcases lt_or_gt_of_ne h with h | h
        · exact Or.inl ⟨by linarith, h⟩
        · exact Or.inr ⟨h, by linarith⟩
    · rw [if_neg (not_lt.2 hgt.le)]
      simp only [matchRange, List.any_cons, List.any_nil, Bool.or_false, Bool.or_eq_true, decide_eq_true_eq]
      constructor
      · rintro (⟨_, h⟩ | ⟨h, _⟩)
        · exact Or.inr (Or.inl ⟨hgt, Or.inr h⟩)
        · exact Or.inr (Or.inl ⟨hgt, Or.inl h⟩)
      · rintro (⟨h, _⟩ | ⟨_, h | h⟩ | ⟨h, _⟩)
        · exact absurd h (not_lt.2 hgt.le)
        · exact Or.inr ⟨h, by linarith⟩
        · exact Or.inl ⟨by linarith, h⟩
        · exact absurd h (ne_of_gt hgt)

/-- C264: a range `c+-p` matches the times that differ less than `p` from `c`, on the circle of a day, if `p` is half a day at most. -/
theorem day_around (R : Readers) (a b : List Char) (c p t : ℚ) (hd : find2 '.' '.' (a ++ '+' :: '-' :: b) = none)
    (hs : find2 '+' '-' (a ++ ['+']) = none) (h1 : R.angle a = some c) (h2 : R.angle b = some p)
    (b1 : 0 ≤ c) (b2 : c ≤ 86400) (b3 : 0 < p) (b4 : p ≤ 43200) (t1 : 0 ≤ t) (t2 : t < 86400) :
    ∃ ps, fillOne R true true (a ++ '+' :: '-' :: b) = .ok ps ∧ (matchRange t ps = true ↔ ∃ k : ℤ, |t + 86400 * k - c| < p) := by
  have n1 : ¬ c < 0 := not_lt.2 b1
  have n2 : ¬ p < 0 := not_lt.2 b3.le
  have n3 : ¬ p ≤ 0 := not_le.2 b3
  -- only the neighbouring days count
  have hk : (∃ k : ℤ, |t + 86400 * k - c| < p) ↔ (|t - 86400 - c| < p ∨ |t - c| < p ∨ |t + 86400 - c| < p) := by
    constructor
    · rintro ⟨k, hk⟩
      have h := abs_lt.1 hk
      have k1 : (k : ℚ) < 2 := by linarith
      have k2 : (-2 : ℚ) < k := by linarith
      have k1' : k < 2 := by exact_mod_cast k1
      have k2' : -2 < k := by exact_mod_cast k2
      interval_cases k
      · left; convert hk using 2; push_cast; ring
      · right; left; convert hk using 2; push_cast; ring
      · right; right; convert hk using 2; push_cast; ring
    · rintro (h | h | h)
      · exact ⟨-1, by convert h using 2; push_cast; ring⟩
      · exact ⟨0, by convert h using 2; push_cast; ring⟩
      · exact ⟨1, by convert h using 2; push_cast; ring⟩
  rw [hk]
  simp only [abs_lt]
  refine ⟨pairs (if c - p < 0 then c - p + 86400 else c - p) (if c + p > 86400 then c + p - 86400 else c + p), ?_, ?_⟩
  · simp [fillOne, split_pm a b hd hs, Except.bind, getSeconds, h1, h2, n1, n2, n3, bounds, Except.map]
  · by_cases hlo : c - p < 0
    · have hhi : ¬ c + p > 86400 := by intro h; linarith
      rw [if_pos hlo, if_neg hhi]
      unfold pairs
      rw [if_neg (by intro h; linarith)]
      simp only [matchRange, List.any_cons, List.any_nil, Bool.or_false, Bool.or_eq_true, decide_eq_true_eq]
      constructor
      · rintro (⟨_, h⟩ | ⟨h, _⟩)
        · right; left; constructor <;> linarith
        · left; constructor <;> linarith
      · rintro (⟨h, h'⟩ | ⟨h, h'⟩ | ⟨h, h'⟩)
        · right; constructor <;> linarith
        · left; constructor <;> linarith
        · left; constructor <;> linarith
    · rw [if_neg hlo]
      by_cases hhi : c + p > 86400
      · rw [if_pos hhi]
        unfold pairs
        rw [if_neg (by intro h; linarith)]
        simp only [matchRange, List.any_cons, List.any_nil, Bool.or_false, Bool.or_eq_true, decide_eq_true_eq]
        constructor
        · rintro (⟨_, h⟩ | ⟨h, _⟩)
          · right; right; constructor <;> linarith
          · right; left; constructor <;> linarith
        · rintro (⟨h, h'⟩ | ⟨h, h'⟩ | ⟨h, h'⟩)
          · right; constructor <;> linarith
          · right; constructor <;> linarith
          · left; constructor <;> linarith
      · rw [if_neg hhi]
        unfold pairs
        rw [if_pos (by linarith)]
        simp only [matchRange, List.any_cons, List.any_nil, Bool.or_false, Bool.or_eq_true, decide_eq_true_eq]
        constructor
        · rintro ⟨h, h'⟩; right; left; constructor <;> linarith
        · rintro (⟨h, h'⟩ | ⟨h, h'⟩ | ⟨h, h'⟩) <;> constructor <;> linarith

/-- Digits, for the examples. -/
def digits (s : List Char) : Option ℚ :=
  if s ≠ [] ∧ s.all Char.isDigit = true then some ((s.foldl (fun n c => 10 * n + (c.toNat - 48)) 0 : Nat) : ℚ) else none

/-- A reader for the examples: whole hours. -/
def hours : Readers := ⟨fun s => (digits s).map fun n => n * 3600, fun _ => none⟩

/-- One hour around midnight, and from 22 to 2 hours. -/
example : hours.angle ['1'] = some 3600 ∧ fillOne hours true true "0+-1".toList = .ok [(-1, 3600), (82800, 86401)] ∧
    fillOne hours true true "22..2".toList = .ok [(-1, 7200), (79200, 86401)] ∧
    fillOne hours true true "2..22".toList = .ok [(7200, 79200)] := by decide +kernel

/-- C264 is violated: 12 hours plus or minus 13 hours is the whole day, but noon does not match; from 1 to 26 hours is more than a day, but
only the hour from 1 to 2 matches; from 25 to 26 hours is the hour from 1 to 2, but half past midnight matches. -/
theorem long_ranges :
    (∃ ps, fillOne hours true true "12+-13".toList = .ok ps ∧ matchRange 43200 ps = false) ∧
    (∃ ps, fillOne hours true true "1..26".toList = .ok ps ∧ matchRange 43200 ps = false) ∧
    (∃ ps, fillOne hours true true "25..26".toList = .ok ps ∧ matchRange 1800 ps = true) :=
  ⟨⟨[(-1, 3600), (82800, 86401)], by decide +kernel, by decide +kernel⟩, ⟨[(3600, 7200)], by decide +kernel, by decide +kernel⟩,
    ⟨[(-1, 7200), (90000, 86401)], by decide +kernel, by decide +kernel⟩⟩

/-! ## Absolute and relative times -/

/-- C264: a range of absolute times matches the times between the two; a range that ends before it starts is refused. -/
theorem abs_range (R : Readers) (a b : List Char) (v1 v2 : ℚ) (hs : find2 '.' '.' (a ++ ['.']) = none)
    (g1 : R.angle a = none) (g2 : R.angle b = none) (h1 : R.dateTime a = some v1) (h2 : R.dateTime b = some v2) (b1 : 0 ≤ v1) (b3 : 0 ≤ v2) :
    (v2 ≤ v1 → fillOne R false false (a ++ '.' :: '.' :: b) = .error .throws) ∧
    (v1 < v2 → ∃ ps, fillOne R false false (a ++ '.' :: '.' :: b) = .ok ps ∧ ∀ t, matchRange t ps = true ↔ v1 < t ∧ t < v2) := by
  have n1 : ¬ v1 < 0 := not_lt.2 b1
  have n2 : ¬ v2 < 0 := not_lt.2 b3
  constructor
  · intro h
    simp [fillOne, split_dots a b hs, Except.bind, getSeconds, g1, g2, h1, h2, n1, n2, bounds, h, Except.map]
  · intro h
    refine ⟨[(v1, v2)], ?_, ?_⟩
    · simp [fillOne, split_dots a b hs, Except.bind, getSeconds, g1, g2, h1, h2, n1, n2, bounds, not_le.2 h, Except.map, pairs, h]
    · intro t; simp [matchRange]

/-- C264: a range of relative times `c+-p` matches the times that differ less than `p` from `c`. -/
theorem rel_around (R : Readers) (a b : List Char) (c p : ℚ) (hd : find2 '.' '.' (a ++ '+' :: '-' :: b) = none)
    (hs : find2 '+' '-' (a ++ ['+']) = none) (h1 : R.angle a = some c) (h2 : R.angle b = some p) (b1 : 0 ≤ c) (b3 : 0 < p) :
    ∃ ps, fillOne R true false (a ++ '+' :: '-' :: b) = .ok ps ∧ ∀ t, matchRange t ps = true ↔ |t - c| < p := by
  have n1 : ¬ c < 0 := not_lt.2 b1
  have n2 : ¬ p < 0 := not_lt.2 b3.le
  have n3 : ¬ p ≤ 0 := not_le.2 b3
  have n4 : ¬ c + p ≤ c - p := by intro h; linarith
  have n5 : c - p < c + p := by linarith
  refine ⟨[(c - p, c + p)], ?_, ?_⟩
  · simp [fillOne, split_pm a b hd hs, Except.bind, getSeconds, h1, h2, n1, n2, n3, n4, n5, bounds, Except.map, pairs]
  · intro t
    simp only [matchRange, List.any_cons, List.any_nil, Bool.or_false, decide_eq_true_eq, abs_lt]
    constructor <;> rintro ⟨h, h'⟩ <;> constructor <;> linarith

example : fillOne hours true false "1+-2".toList = .ok [(-3600, 10800)] ∧ fillOne hours true false "3..2".toList = .error .throws := by
  decide +kernel

/-- C264: several ranges match what one of them matches. -/
theorem fillTimes_union (R : Readers) (asTime canEnd : Bool) (l : List (List Char)) (ps : List (ℚ × ℚ))
    (h : fillTimes R asTime canEnd l = .ok ps) (t : ℚ) :
    matchRange t ps = true ↔ ∃ s ∈ l, ∃ qs, fillOne R asTime canEnd s = .ok qs ∧ matchRange t qs = true := by
  induction l generalizing ps with
  | nil =>
    simp only [fillTimes, Except.ok.injEq] at h
    subst h
    simp [matchRange]
  | cons s rest ih =>
    simp only [fillTimes] at h
    cases h1 : fillOne R asTime canEnd s with
    | error e => rw [h1] at h; cases h
    | ok a =>
      rw [h1] at h
      cases h2 : fillTimes R asTime canEnd rest with
      | error e => rw [h2] at h; cases h
      | ok b =>
        rw [h2] at h
        simp only [Except.bind, Except.map, Except.ok.injEq] at h
        subst h
        have := ih b h2
        have happ : matchRange t (a ++ b) = (matchRange t a || matchRange t b) := by simp [matchRange]
        rw [happ, Bool.or_eq_true, this]
        constructor
        · rintro (h | ⟨s', hs', qs, h3, h4⟩)
          · exact ⟨s, by simp, a, h1, h⟩
          · exact ⟨s', by simp [hs'], qs, h3, h4⟩
        · rintro ⟨s', hs', qs, h3, h4⟩
          rcases List.mem_cons.1 hs' with rfl | hs'
          · rw [h1, Except.ok.injEq] at h3
            subst h3
            exact Or.inl h4
          · exact Or.inr ⟨s', hs', qs, h3, h4⟩

/-! ## Channels -/

/-- An element of the list of channels, with the numbers that it stands for. -/
inductive Item
  | one (s : List Char) (n : Nat)
  | range (a b : List Char) (first last : Nat)

/-- The text. -/
def Item.text : Item → List Char
  | .one s _ => s
  | .range a b _ _ => a ++ '.' :: '.' :: b

/-- The channels. -/
def Item.covers : Item → Nat → Prop
  | .one _ n, ch => ch = n
  | .range _ _ n m, ch => n ≤ ch ∧ ch ≤ m

/-- A text has a value that gives the number; fractions are cut off. -/
def Gives (eval : List Char → Option ℚ) (s : List Char) (n : Nat) : Prop :=
  ∃ x, eval s = some x ∧ (n : ℚ) - 1 / 1000 ≤ x ∧ x < n + 999 / 1000 ∧ n < 4294967295

/-- The element is well formed. -/
def Item.Valid (eval : List Char → Option ℚ) : Item → Prop
  | .one s n => find2 '.' '.' s = none ∧ Gives eval s n
  | .range a b n m => find2 '.' '.' (a ++ ['.']) = none ∧ a ≠ [] ∧ b ≠ [] ∧ Gives eval a n ∧ Gives eval b m ∧ n ≤ m

theorem toUnsigned_gives {x : ℚ} {n : Nat} (h1 : (n : ℚ) - 1 / 1000 ≤ x) (h2 : x < n + 999 / 1000) (h3 : n < 4294967295) :
    toUnsigned x = .ok n := by
  have hn : (0 : ℚ) ≤ n := Nat.cast_nonneg n
  have hm : (n : ℚ) < 4294967295 := by exact_mod_cast h3
  have hf : ⌊x + 1 / 1000⌋₊ = n := by
    rw [Nat.floor_eq_iff (by linarith)]
    constructor <;> linarith
  unfold toUnsigned
  rw [if_neg, hf]
  rintro (h | h) <;> linarith

theorem channelRange_valid (eval : List Char → Option ℚ) (it : Item) (h : it.Valid eval) :
    ∃ r, channelRange eval it.text = .ok r ∧ r.2 < 4294967295 ∧ ∀ ch, it.covers ch ↔ r.1 ≤ ch ∧ ch ≤ r.2 := by
  cases it with
  | one s n =>
    obtain ⟨h1, x, hx, g1, g2, g3⟩ := h
    refine ⟨(n, n), ?_, g3, ?_⟩
    · simp only [Item.text, channelRange, h1, hx, toUnsigned_gives g1 g2 g3, Except.map]
    · intro ch; simp only [Item.covers]; omega
  | range a b n m =>
    obtain ⟨h1, ha, hb, ⟨x, hx, g1, g2, g3⟩, ⟨y, hy, k1, k2, k3⟩, hnm⟩ := h
    refine ⟨(n, m), ?_, k3, fun ch => Iff.rfl⟩
    have hc : ¬ (a = [] ∨ b = []) := by rintro (h | h) <;> contradiction
    have hgt : ¬ n > m := by omega
    simp only [Item.text, channelRange, find2_first _ _ a b h1, hc, if_false, hx, hy, toUnsigned_gives g1 g2 g3, toUnsigned_gives k1 k2 k3,
      Except.bind, hgt]

theorem selectRange_get (sel : List Bool) (r : Nat × Nat) (h : r.2 < 4294967295) (i : Nat) (hi : i < sel.length) :
    (selectRange sel r).length = sel.length ∧
      ((selectRange sel r)[i]? = some true ↔ sel[i]? = some true ∨ (r.1 ≤ i ∧ i ≤ r.2)) := by
  have hm : (r.2 + 1) % 4294967296 = r.2 + 1 := Nat.mod_eq_of_lt (by omega)
  unfold selectRange
  by_cases h1 : r.1 < sel.length
  · rw [if_pos h1, hm]
    refine ⟨by simp, ?_⟩
    rw [List.getElem?_mapIdx, List.getElem?_eq_getElem hi]
    simp only [Option.map_some, Option.some.injEq, Bool.or_eq_true, Bool.and_eq_true, decide_eq_true_eq]
    have : i < min (r.2 + 1) sel.length ↔ i ≤ r.2 := by omega
    rw [this]
  · rw [if_neg h1]
    refine ⟨rfl, ?_⟩
    constructor
    · exact Or.inl
    · rintro (h | ⟨h, _⟩)
      · exact h
      · omega

theorem selectRange_length (sel : List Bool) (r : Nat × Nat) : (selectRange sel r).length = sel.length := by
  unfold selectRange
  by_cases h1 : r.1 < sel.length
  · rw [if_pos h1]; simp
  · rw [if_neg h1]

theorem selectChannels_spec (eval : List Char → Option ℚ) (items : List Item) (hv : ∀ it ∈ items, it.Valid eval) (sel : List Bool) :
    ∃ out, selectChannels eval sel (items.map Item.text) = .ok out ∧ out.length = sel.length ∧
      ∀ i < sel.length, out[i]? = some true ↔ sel[i]? = some true ∨ ∃ it ∈ items, it.covers i := by
  induction items generalizing sel with
  | nil => exact ⟨sel, rfl, rfl, by simp⟩
  | cons it items ih =>
    obtain ⟨r, h1, h2, h3⟩ := channelRange_valid eval it (hv it (List.mem_cons_self ..))
    obtain ⟨out, g1, g2, g3⟩ := ih (fun x hx => hv x (List.mem_cons_of_mem _ hx)) (selectRange sel r)
    refine ⟨out, ?_, by rw [g2, selectRange_length], ?_⟩
    · simp only [List.map_cons, selectChannels, h1, Except.bind, g1]
    · intro i hi
      rw [g3 i (by rw [selectRange_length]; exact hi), (selectRange_get sel r h2 i hi).2, ← h3]
      constructor
      · rintro ((h | h) | ⟨x, hx, hc⟩)
        · exact Or.inl h
        · exact Or.inr ⟨it, by simp, h⟩
        · exact Or.inr ⟨x, by simp [hx], hc⟩
      · rintro (h | ⟨x, hx, hc⟩)
        · exact Or.inl (Or.inl h)
        · rcases List.mem_cons.1 hx with rfl | hx
          · exact Or.inl (Or.inr hc)
          · exact Or.inr ⟨x, hx, hc⟩

/-! ## Frequencies -/

theorem handleFreqRanges_spec (number hz : List Char → Option ℚ) (freqs : List ℚ) (l : List (List Char × ℚ × ℚ))
    (hb : ∀ r ∈ l, freqBounds number hz r.1 = .ok r.2) :
    ∃ out, handleFreqRanges number hz freqs (l.map Prod.fst) = .ok out ∧ out.length = freqs.length ∧
      ∀ (i : Nat) f, freqs[i]? = some f → (out[i]? = some true ↔ ∃ r ∈ l, r.2.1 < f ∧ f < r.2.2) := by
  induction l with
  | nil =>
    refine ⟨freqs.map fun _ => false, rfl, by simp, ?_⟩
    intro i f hf
    rw [List.getElem?_map, hf]
    simp
  | cons r l ih =>
    obtain ⟨out, h1, h2, h3⟩ := ih (fun x hx => hb x (List.mem_cons_of_mem _ hx))
    refine ⟨List.zipWith (fun f x => x || decide (f > r.2.1 ∧ f < r.2.2)) freqs out, ?_, by simp [h2], ?_⟩
    · simp only [List.map_cons, handleFreqRanges, hb r (List.mem_cons_self ..), Except.bind, h1, Except.map]
    · intro i f hf
      have hlt : i < out.length := by rw [h2]; exact (List.getElem?_eq_some_iff.1 hf).1
      have h4 := h3 i f hf
      rw [List.getElem?_zipWith, hf, List.getElem?_eq_getElem hlt]
      rw [List.getElem?_eq_getElem hlt, Option.some.injEq] at h4
      simp only [Option.some.injEq, Bool.or_eq_true, decide_eq_true_eq, h4]
      constructor
      · rintro (⟨x, hx, hc⟩ | h)
        · exact ⟨x, by simp [hx], hc⟩
        · exact ⟨r, by simp, h⟩
      · rintro ⟨x, hx, hc⟩
        rcases List.mem_cons.1 hx with rfl | hx
        · exact Or.inr hc
        · exact Or.inl ⟨x, hx, hc⟩

/-- C265: with well formed elements and frequency ranges, a channel is selected exactly if it is in one of the elements, if there are any,
and in one of the frequency ranges, if there are any. Channels behind the last one do no harm. -/
theorem channels_spec (eval number hz : List Char → Option ℚ) (freqs : List ℚ) (items : List Item) (l : List (List Char × ℚ × ℚ))
    (hv : ∀ it ∈ items, it.Valid eval) (hb : ∀ r ∈ l, freqBounds number hz r.1 = .ok r.2) :
    ∃ out, fillChannels eval number hz freqs (items.map Item.text) (l.map Prod.fst) = .ok out ∧ out.length = freqs.length ∧
      ∀ (i : Nat) f, freqs[i]? = some f →
        (out[i]? = some true ↔ (items = [] ∨ ∃ it ∈ items, it.covers i) ∧ (l = [] ∨ ∃ r ∈ l, r.2.1 < f ∧ f < r.2.2)) := by
  -- the selection by number
  obtain ⟨sel, s1, s2, s3⟩ : ∃ sel,
      (if items.map Item.text = [] then .ok (freqs.map fun _ => true) else
        selectChannels eval (freqs.map fun _ => false) (items.map Item.text) : Except Err (List Bool)) = .ok sel ∧
      sel.length = freqs.length ∧ ∀ (i : Nat) f, freqs[i]? = some f → (sel[i]? = some true ↔ items = [] ∨ ∃ it ∈ items, it.covers i) := by
    by_cases he : items = []
    · subst he
      refine ⟨freqs.map fun _ => true, by simp, by simp, ?_⟩
      intro i f hf; rw [List.getElem?_map, hf]; simp
    · obtain ⟨out, h1, h2, h3⟩ := selectChannels_spec eval items hv (freqs.map fun _ => false)
      refine ⟨out, ?_, by simpa using h2, ?_⟩
      · rw [if_neg (by simpa using he), h1]
      · intro i f hf
        have hlt := (List.getElem?_eq_some_iff.1 hf).1
        rw [h3 i (by simpa using hlt)]
        rw [List.getElem?_map, hf]
        simp [he]
  by_cases hl : l = []
  · subst hl
    refine ⟨sel, ?_, s2, ?_⟩
    · simp only [fillChannels, s1, Except.bind, List.map_nil, if_true]
    · intro i f hf; rw [s3 i f hf]; simp
  · obtain ⟨out, h1, h2, h3⟩ := handleFreqRanges_spec number hz freqs l hb
    have hl' : l.map Prod.fst ≠ [] := by simpa using hl
    refine ⟨List.zipWith (fun a b => a && b) sel out, ?_, by simp [s2, h2], ?_⟩
    · simp only [fillChannels, s1, Except.bind, if_neg hl', h1, Except.map]
    · intro i f hf
      have hlt := (List.getElem?_eq_some_iff.1 hf).1
      have e1 : sel[i]? = some (sel[i]'(by omega)) := List.getElem?_eq_getElem _
      have e2 : out[i]? = some (out[i]'(by omega)) := List.getElem?_eq_getElem _
      have a1 := s3 i f hf
      have a2 := h3 i f hf
      rw [e1, Option.some.injEq] at a1
      rw [e2, Option.some.injEq] at a2
      rw [List.getElem?_zipWith, e1, e2]
      simp only [Option.some.injEq, Bool.and_eq_true, a1, a2, hl, false_or]

/-- An evaluation for the examples. -/
def evalDemo (s : List Char) : Option ℚ :=
  if s = "nchan-1".toList then some 3 else if s = "nchan-100".toList then some (-96) else digits s

/-- Units for the examples. -/
def hzDemo (u : List Char) : Option ℚ :=
  if u = "Hz".toList then some 1 else if u = "kHz".toList then some 1000 else if u = "MHz".toList then some 1000000 else none

/-- Channels 0, and 2 to the last one; of which two have the right frequency. -/
example : fillChannels evalDemo evalDemo hzDemo [10000000, 20000000, 30000000, 40000000] ["0".toList, "2..nchan-1".toList] ["25..45MHz".toList] =
    .ok [false, false, true, true] ∧
    (Item.range "2".toList "nchan-1".toList 2 3).Valid evalDemo := by
  refine ⟨by decide +kernel, by decide +kernel, by decide, by decide, ⟨2, by decide +kernel, by decide +kernel, by decide +kernel, by omega⟩,
    ⟨3, by decide +kernel, by decide +kernel, by decide +kernel, by omega⟩, by omega⟩

/-- C265: a range without start or end, and one that ends before it starts, is refused. -/
theorem channel_refused (eval : List Char → Option ℚ) (a b : List Char) (n m : Nat) (hs : find2 '.' '.' (a ++ ['.']) = none)
    (h : a = [] ∨ b = [] ∨ (Gives eval a n ∧ Gives eval b m ∧ m < n)) (sel : List Bool) (rest : List (List Char)) :
    selectChannels eval sel ((a ++ '.' :: '.' :: b) :: rest) = .error .throws := by
  have key : channelRange eval (a ++ '.' :: '.' :: b) = .error .throws := by
    by_cases hc : a = [] ∨ b = []
    · simp only [channelRange, find2_first _ _ a b hs, if_pos hc]
    · obtain ⟨⟨x, hx, g1, g2, g3⟩, ⟨y, hy, k1, k2, k3⟩, hlt⟩ : Gives eval a n ∧ Gives eval b m ∧ m < n := by tauto
      have hgt : n > m := hlt
      simp only [channelRange, find2_first _ _ a b hs, hc, if_false, hx, hy, toUnsigned_gives g1 g2 g3, toUnsigned_gives k1 k2 k3,
        Except.bind, hgt, if_true]
  simp only [selectChannels, key, Except.bind]

example : selectChannels evalDemo [false, false] ["3..2".toList] = .error .throws ∧ selectChannels evalDemo [false, false] ["3..".toList] =
    .error .throws := by decide +kernel

/-- C265 is violated: an expression with a value below zero, such as `nchan-100` for fewer channels, is undefined behaviour. -/
theorem channel_negative (eval : List Char → Option ℚ) (s : List Char) (x : ℚ) (hs : find2 '.' '.' s = none) (he : eval s = some x)
    (hx : x ≤ -2) (sel : List Bool) (rest : List (List Char)) : selectChannels eval sel (s :: rest) = .error .ub := by
  have : x + 1 / 1000 ≤ -1 ∨ x + 1 / 1000 ≥ 4294967296 := Or.inl (by linarith)
  simp only [selectChannels, channelRange, hs, he, toUnsigned, if_pos this, Except.map, Except.bind]

example : selectChannels evalDemo [false, false, false, false] ["nchan-100".toList] = .error .ub := by decide +kernel

/-! ## Units of frequencies -/

theorem alpha_not_space (c : Char) (h : c.isAlpha = true) : c.isWhitespace = false := by
  by_contra hc
  have hc : c.isWhitespace = true := by simpa using hc
  simp only [Char.isWhitespace, Bool.or_eq_true, beq_iff_eq, decide_eq_true_eq] at hc
  rcases hc with ((rfl | rfl) | rfl) | rfl <;> revert h <;> decide

/-- A text of a number: it does not end with a letter or blank. -/
def NumberText (n : List Char) : Prop := ∀ c, n.getLast? = some c → c.isAlpha = false ∧ c.isWhitespace = false

theorem getValue_spec (number : List Char → Option ℚ) (n u unit : List Char) (hn : NumberText n) (hu : ∀ c ∈ u, c.isAlpha = true) (x : ℚ)
    (hx : number n = some x) : getValue number (n ++ u) unit = .ok (x, if u = [] then unit else u) := by
  have hr : (n ++ u).reverse = u.reverse ++ n.reverse := List.reverse_append
  have hnr : ∀ p : Char → Bool, (∀ c, n.getLast? = some c → p c = false) → n.reverse.dropWhile p = n.reverse ∧ n.reverse.takeWhile p = [] := by
    intro p hp
    cases hc : n.reverse with
    | nil => simp
    | cons d ds =>
      have : n.getLast? = some d := by rw [← List.head?_reverse, hc]; rfl
      simp [List.dropWhile, List.takeWhile, hp d this]
  have hdrop : (n ++ u).reverse.dropWhile Char.isWhitespace = u.reverse ++ n.reverse := by
    rw [hr]
    cases hc : u.reverse with
    | nil => rw [List.nil_append, (hnr _ (fun c h => (hn c h).2)).1]
    | cons d ds =>
      have hd : d ∈ u := by rw [← List.mem_reverse, hc]; simp
      simp [List.dropWhile, alpha_not_space d (hu d hd)]
  have hall : ∀ c ∈ u.reverse, c.isAlpha = true := fun c hc => hu c (List.mem_reverse.1 hc)
  simp only [getValue, hdrop]
  rw [List.dropWhile_append_of_pos hall, List.takeWhile_append_of_pos hall, (hnr _ (fun c h => (hn c h).1)).1,
    (hnr _ (fun c h => (hn c h).1)).2, List.reverse_reverse, hx]
  simp only [List.append_nil]
  by_cases h : u = []
  · simp [h]
  · simp [h]

/-- C266: the units of a frequency range: each value has its own unit, or else that of the other one, or else MHz. -/
theorem freq_units (number hz : List Char → Option ℚ) (n1 u1 n2 u2 : List Char) (hs : find2 '.' '.' (n1 ++ u1 ++ ['.']) = none)
    (c1 : NumberText n1) (c2 : NumberText n2) (a1 : ∀ c ∈ u1, c.isAlpha = true) (a2 : ∀ c ∈ u2, c.isAlpha = true) (x y f1 f2 : ℚ)
    (hx : number n1 = some x) (hy : number n2 = some y)
    (h1 : hz (if u1 ≠ [] then u1 else if u2 ≠ [] then u2 else "MHz".toList) = some f1)
    (h2 : hz (if u2 ≠ [] then u2 else if u1 ≠ [] then u1 else "MHz".toList) = some f2) :
    freqBounds number hz ((n1 ++ u1) ++ '.' :: '.' :: (n2 ++ u2)) = .ok (x * f1, y * f2) := by
  simp only [freqBounds, split_dots _ _ hs, Except.bind, getValue_spec number n1 u1 [] c1 a1 x hx]
  rw [getValue_spec number n2 u2 _ c2 a2 y hy]
  by_cases e1 : u1 = [] <;> by_cases e2 : u2 = [] <;> simp_all

/-- C266: the same for a value plus or minus another one. -/
theorem freq_units_pm (number hz : List Char → Option ℚ) (n1 u1 n2 u2 : List Char)
    (hd : find2 '.' '.' ((n1 ++ u1) ++ '+' :: '-' :: (n2 ++ u2)) = none) (hs : find2 '+' '-' (n1 ++ u1 ++ ['+']) = none)
    (c1 : NumberText n1) (c2 : NumberText n2) (a1 : ∀ c ∈ u1, c.isAlpha = true) (a2 : ∀ c ∈ u2, c.isAlpha = true) (x y f1 f2 : ℚ)
    (hx : number n1 = some x) (hy : number n2 = some y)
    (h1 : hz (if u1 ≠ [] then u1 else if u2 ≠ [] then u2 else "MHz".toList) = some f1)
    (h2 : hz (if u2 ≠ [] then u2 else if u1 ≠ [] then u1 else "MHz".toList) = some f2) :
    freqBounds number hz ((n1 ++ u1) ++ '+' :: '-' :: (n2 ++ u2)) = .ok (x * f1 - y * f2, x * f1 + y * f2) := by
  simp only [freqBounds, split_pm _ _ hd hs, Except.bind, getValue_spec number n1 u1 [] c1 a1 x hx]
  rw [getValue_spec number n2 u2 _ c2 a2 y hy]
  by_cases e1 : u1 = [] <;> by_cases e2 : u2 = [] <;> simp_all

/-- Both values have the unit that is given behind the second one; a bandwidth in kHz; and MHz if no unit is given. -/
example : freqBounds evalDemo hzDemo "100..200kHz".toList = .ok (100000, 200000) ∧
    freqBounds evalDemo hzDemo "100MHz+-5kHz".toList = .ok (99995000, 100005000) ∧
    freqBounds evalDemo hzDemo "10..20".toList = .ok (10000000, 20000000) ∧
    freqBounds evalDemo hzDemo "10..20m".toList = .error .throws := by decide +kernel

/-- C266 is violated: a range that ends before it starts is not refused, other than for times and channels; it selects nothing, so that the
criterion is ignored (C22) and all channels are flagged. -/
theorem freq_reversed (number hz : List Char → Option ℚ) (freqs : List ℚ) (s : List Char) (lo hi : ℚ)
    (hb : freqBounds number hz s = .ok (lo, hi)) (h : hi ≤ lo) : handleFreqRanges number hz freqs [s] = .ok (freqs.map fun _ => false) := by
  simp only [handleFreqRanges, hb, Except.bind, Except.map, Except.ok.injEq]
  induction freqs with
  | nil => rfl
  | cons f fs ih =>
    have hf : ¬ (f > lo ∧ f < hi) := by rintro ⟨h1, h2⟩; linarith
    rw [List.map_cons, List.zipWith_cons_cons, ih, decide_eq_false hf]
    rfl

example : handleFreqRanges evalDemo hzDemo [15000000] ["20..10".toList] = .ok [false] := by decide +kernel

end DP3.PreFlagRanges
