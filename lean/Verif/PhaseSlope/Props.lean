import Verif.PhaseSlope.Windows
import Mathlib.Algebra.BigOperators.Group.List.Basic
import Mathlib.Algebra.Order.BigOperators.Group.List
import Mathlib.Data.Rat.Floor
import Mathlib.Tactic.Ring
import Mathlib.Tactic.Linarith
import Mathlib.Tactic.LinearCombination
import Mathlib.Tactic.FieldSimp
import Mathlib.Tactic.Positivity

/-!
# The weighted median and the fits of lines to phases
-/

namespace DP3.PhaseSlope

set_option linter.unusedSimpArgs false
set_option linter.unusedSectionVars false

variable {K : Type} [Field K] [LinearOrder K] [IsStrictOrderedRing K]

/-! ## The weighted median -/

/-- The order of pairs. -/
private def pairLe (x y : K × K) : Prop := x.1 < y.1 ∨ (x.1 = y.1 ∧ x.2 ≤ y.2)

private instance : DecidableRel (pairLe : K × K → K × K → Prop) := fun x y => by unfold pairLe; infer_instance

private instance : Std.Total (pairLe : K × K → K × K → Prop) := ⟨by
  intro x y
  unfold pairLe
  rcases lt_trichotomy x.1 y.1 with h | h | h
  · exact Or.inl (Or.inl h)
  · rcases le_total x.2 y.2 with h' | h'
    · exact Or.inl (Or.inr ⟨h, h'⟩)
    · exact Or.inr (Or.inr ⟨h.symm, h'⟩)
  · exact Or.inr (Or.inl h)⟩

private instance : IsTrans (K × K) pairLe := ⟨by
  intro x y z h1 h2
  unfold pairLe at *
  rcases h1 with h1 | ⟨h1, h1'⟩ <;> rcases h2 with h2 | ⟨h2, h2'⟩
  · exact Or.inl (h1.trans h2)
  · exact Or.inl (h2 ▸ h1)
  · exact Or.inl (h1 ▸ h2)
  · exact Or.inr ⟨h1.trans h2, h1'.trans h2'⟩⟩

/-- The total weight of the values for which something holds. -/
def weightOf (l : List (K × K)) (p : K → Bool) : K := ((l.filter fun x => p x.1).map Prod.snd).sum

private theorem sum_nonneg (l : List (K × K)) (h : ∀ x ∈ l, 0 ≤ x.2) : 0 ≤ (l.map Prod.snd).sum :=
  List.sum_nonneg (by intro a ha; obtain ⟨x, hx, rfl⟩ := List.mem_map.mp ha; exact h x hx)

private theorem weightOf_perm (l l' : List (K × K)) (h : l.Perm l') (p : K → Bool) : weightOf l p = weightOf l' p :=
  ((h.filter _).map _).sum_eq

private theorem weightOf_append (l l' : List (K × K)) (p : K → Bool) : weightOf (l ++ l') p = weightOf l p + weightOf l' p := by
  simp [weightOf]

private theorem weightOf_le (l : List (K × K)) (p : K → Bool) (h : ∀ x ∈ l, 0 ≤ x.2) : weightOf l p ≤ (l.map Prod.snd).sum := by
  induction l with
  | nil => simp [weightOf]
  | cons x l ih =>
    have := ih fun y hy => h y (by simp [hy])
    have hx := h x (by simp)
    simp only [weightOf, List.filter_cons] at this ⊢
    split
    · simp only [List.map_cons, List.sum_cons]
      linarith
    · simp only [List.map_cons, List.sum_cons]
      linarith

private theorem weightOf_none (l : List (K × K)) (p : K → Bool) (h : ∀ x ∈ l, p x.1 = false) : weightOf l p = 0 := by
  unfold weightOf
  rw [List.filter_eq_nil_iff.mpr]
  · rfl
  · intro x hx
    simp [h x hx]

private theorem loop_spec (sum : K) (hsum : 0 ≤ sum) (rest before : List (K × K)) (v : K × K)
    (hb : before = [] ∨ sum / 2 < ((v :: rest).map Prod.snd).sum) :
    ∃ b x a, before ++ v :: rest = b ++ x :: a ∧ medianLoop sum (rest.map Prod.snd).sum (v :: rest) = some x.1 ∧
      (a.map Prod.snd).sum ≤ sum / 2 ∧ (b = [] ∨ sum / 2 < ((x :: a).map Prod.snd).sum) := by
  induction rest generalizing before v with
  | nil =>
    refine ⟨before, v, [], rfl, ?_, ?_, hb⟩
    · rw [medianLoop, if_neg]
      simp only [List.map_nil, List.sum_nil, not_lt]
      linarith
    · simp only [List.map_nil, List.sum_nil]
      linarith
  | cons w rest ih =>
    by_cases h : ((w :: rest).map Prod.snd).sum > sum / 2
    · obtain ⟨b, x, a, h1, h2, h3, h4⟩ := ih (before ++ [v]) w (Or.inr h)
      refine ⟨b, x, a, by rw [← h1]; simp, ?_, h3, h4⟩
      rw [medianLoop, if_pos h]
      rw [← h2]
      congr 1
      simp
    · refine ⟨before, v, w :: rest, rfl, ?_, not_lt.mp h, hb⟩
      rw [medianLoop, if_neg h]

/-- C229: the weighted median of values with non-negative weights exists: nothing is read after the last value. It is one of
the values, at most half of the weight is before it and at most half of it is after it; if there is weight at all, less than
half of it is before it, and the value itself has some. -/
theorem median_spec (l : List (K × K)) (hl : l ≠ []) (hw : ∀ x ∈ l, 0 ≤ x.2) :
    ∃ m, weightedMedian l = some m ∧ m ∈ l.map Prod.fst ∧
      weightOf l (fun v => v < m) ≤ (l.map Prod.snd).sum / 2 ∧ weightOf l (fun v => m < v) ≤ (l.map Prod.snd).sum / 2 ∧
      (0 < (l.map Prod.snd).sum → weightOf l (fun v => v < m) < (l.map Prod.snd).sum / 2 ∧ ∃ w, 0 < w ∧ (m, w) ∈ l) := by
  have hperm : (l.insertionSort pairLe).Perm l := List.perm_insertionSort _ _
  have hsort : (l.insertionSort pairLe).Pairwise pairLe := List.pairwise_insertionSort _ _
  have hdef : weightedMedian l = match l.insertionSort pairLe with
    | [] => some 0
    | v :: rest => medianLoop ((v :: rest).map Prod.snd).sum (((v :: rest).map Prod.snd).sum - v.2) (v :: rest) := rfl
  rw [hdef]
  generalize l.insertionSort pairLe = s at hperm hsort
  have hsum : (s.map Prod.snd).sum = (l.map Prod.snd).sum := (hperm.map _).sum_eq
  have hws : ∀ x ∈ s, 0 ≤ x.2 := fun x hx => hw x (hperm.mem_iff.mp hx)
  cases s with
  | nil => exact absurd hperm.nil_eq.symm hl
  | cons v rest =>
    dsimp only
    have hp : ((v :: rest).map Prod.snd).sum - v.2 = (rest.map Prod.snd).sum := by simp
    rw [hp]
    obtain ⟨b, x, a, h1, h2, h3, h4⟩ := loop_spec ((v :: rest).map Prod.snd).sum (sum_nonneg _ hws) rest [] v (Or.inl rfl)
    rw [List.nil_append] at h1
    refine ⟨x.1, h2, ?_, ?_⟩
    · exact List.mem_map.mpr ⟨x, hperm.mem_iff.mp (by rw [h1]; simp), rfl⟩
    rw [← weightOf_perm _ _ hperm, ← weightOf_perm _ _ hperm, ← hsum]
    rw [h1] at hsort h3 h4 hws hperm ⊢
    have htot : ((b ++ x :: a).map Prod.snd).sum = (b.map Prod.snd).sum + ((x :: a).map Prod.snd).sum := by simp
    have hb0 : ∀ y ∈ b, 0 ≤ y.2 := fun y hy => hws y (by simp [hy])
    have ha0 : ∀ y ∈ a, 0 ≤ y.2 := fun y hy => hws y (by simp [hy])
    obtain ⟨_, hxa, hbx⟩ := List.pairwise_append.mp hsort
    have hlow : weightOf (b ++ x :: a) (fun v => v < x.1) ≤ (b.map Prod.snd).sum := by
      rw [weightOf_append, weightOf_none (x :: a), add_zero]
      · exact weightOf_le _ _ hb0
      · intro y hy
        rcases List.mem_cons.mp hy with rfl | hy
        · simp
        · have := (List.pairwise_cons.mp hxa).1 y hy
          simp only [decide_eq_false_iff_not, not_lt]
          rcases this with h | ⟨h, _⟩
          · exact h.le
          · exact h.le
    have hhigh : weightOf (b ++ x :: a) (fun v => x.1 < v) ≤ (a.map Prod.snd).sum := by
      rw [show b ++ x :: a = (b ++ [x]) ++ a by simp, weightOf_append, weightOf_none (b ++ [x]), zero_add]
      · exact weightOf_le _ _ ha0
      · intro y hy
        simp only [decide_eq_false_iff_not, not_lt]
        rcases List.mem_append.mp hy with hy | hy
        · rcases hbx y hy x (by simp) with h | ⟨h, _⟩
          · exact h.le
          · exact h.le
        · rw [List.mem_singleton.mp hy]
    have hx0 := hws x (by simp)
    have hsn := sum_nonneg _ hws
    have hxasum : ((x :: a).map Prod.snd).sum = x.2 + (a.map Prod.snd).sum := by simp
    rw [htot] at h3 h4 hsn ⊢
    refine ⟨?_, by linarith, ?_⟩
    · rcases h4 with h4 | h4
      · rw [h4] at hlow hsn ⊢
        simp only [List.map_nil, List.sum_nil, zero_add] at hlow hsn ⊢
        linarith
      · linarith
    · intro hpos
      rcases h4 with h4 | h4
      · subst h4
        simp only [List.map_nil, List.sum_nil, zero_add] at hlow hpos h3 ⊢
        refine ⟨by linarith, x.2, ?_, hperm.mem_iff.mp (by simp)⟩
        linarith
      · refine ⟨by linarith, x.2, by linarith, hperm.mem_iff.mp (by simp)⟩

/-! ## The line -/

/-- C230: the values that are fitted are the phases, up to a turn. -/
theorem wrap_turn (pi near v : K) : ∃ k : ℤ, (k = -1 ∨ k = 0 ∨ k = 1) ∧ wrap pi near v = v + 2 * pi * k := by
  unfold wrap
  split_ifs
  · exact ⟨-1, Or.inl rfl, by push_cast; ring⟩
  · exact ⟨1, Or.inr (Or.inr rfl), by push_cast; ring⟩
  · exact ⟨0, Or.inr (Or.inl rfl), by push_cast; ring⟩

/-- The weighted sum of the squares of the differences of values and a line. -/
def cost (l : List (Sample K)) (y : Sample K → K) (a b : K) : K :=
  (l.map fun s => s.weight * (y s - (a + b * s.nu)) ^ 2).sum

private theorem cost_eq (l : List (Sample K)) (y : Sample K → K) (a b : K) : cost l y a b =
    (l.map fun s => y s * y s * s.weight).sum + a ^ 2 * (l.map Sample.weight).sum +
      b ^ 2 * (l.map fun s => s.nu * s.nu * s.weight).sum - 2 * a * (l.map fun s => y s * s.weight).sum -
      2 * b * (l.map fun s => s.nu * y s * s.weight).sum + 2 * a * b * (l.map fun s => s.nu * s.weight).sum := by
  unfold cost
  induction l with
  | nil => simp
  | cons s l ih =>
    simp only [List.map_cons, List.sum_cons, ih]
    ring

private theorem cost_nonneg (l : List (Sample K)) (y : Sample K → K) (a b : K) (hw : ∀ s ∈ l, 0 ≤ s.weight) :
    0 ≤ cost l y a b := by
  apply List.sum_nonneg
  intro x hx
  obtain ⟨s, hs, rfl⟩ := List.mem_map.mp hx
  exact mul_nonneg (hw s hs) (sq_nonneg _)

private theorem weight_pos (l : List (Sample K)) (hw : ∀ s ∈ l, 0 ≤ s.weight) (h : (l.map Sample.weight).sum ≠ 0) :
    0 < (l.map Sample.weight).sum :=
  lt_of_le_of_ne (List.sum_nonneg (by intro x hx; obtain ⟨s, hs, rfl⟩ := List.mem_map.mp hx; exact hw s hs)) h.symm

/-- The spread of the frequencies is the cost of fitting them by a constant. -/
private theorem spread_eq (l : List (Sample K)) (h : (l.map Sample.weight).sum ≠ 0) :
    (l.map fun s => s.nu * s.nu * s.weight).sum - (l.map fun s => s.nu * s.weight).sum / (l.map Sample.weight).sum *
      (l.map fun s => s.nu * s.weight).sum =
    cost l Sample.nu ((l.map fun s => s.nu * s.weight).sum / (l.map Sample.weight).sum) 0 := by
  rw [cost_eq]
  field_simp
  ring

/-- C230: the fitted line has the least weighted sum of squares of all lines. -/
theorem least_squares (pi near : K) (l : List (Sample K)) (hw : ∀ s ∈ l, 0 ≤ s.weight) (a b : K)
    (h : weightedLine pi near l = some (a, b)) (a' b' : K) :
    cost l (fun s => wrap pi near s.phase) a b ≤ cost l (fun s => wrap pi near s.phase) a' b' := by
  unfold weightedLine line at h
  dsimp only at h
  by_cases h0 : (l.map Sample.weight).sum = 0
  · have hz : ∀ s ∈ l, s.weight = 0 := by
      intro s hs
      have h1 : s.weight ≤ (l.map Sample.weight).sum := by
        apply List.single_le_sum
        · intro x hx
          obtain ⟨s, hs, rfl⟩ := List.mem_map.mp hx
          exact hw s hs
        · exact List.mem_map_of_mem hs
      exact le_antisymm (h0 ▸ h1) (hw s hs)
    have hc : ∀ a b, cost l (fun s => wrap pi near s.phase) a b = 0 := by
      intro a b
      unfold cost
      rw [List.map_congr_left (g := fun _ => (0 : K)) (by intro s hs; rw [hz s hs, zero_mul])]
      simp
    rw [hc, hc]
  · rw [if_neg h0] at h
    have hsp := spread_eq l h0
    have hpos := weight_pos l hw h0
    split_ifs at h with hx
    simp only [Option.some.injEq, Prod.mk.injEq] at h
    have hspos : 0 < (l.map fun s => s.nu * s.nu * s.weight).sum - (l.map fun s => s.nu * s.weight).sum /
        (l.map Sample.weight).sum * (l.map fun s => s.nu * s.weight).sum := by
      apply lt_of_le_of_ne _ (Ne.symm hx)
      rw [hsp]
      exact cost_nonneg _ _ _ _ hw
    rw [cost_eq, cost_eq]
    generalize (l.map Sample.weight).sum = n at *
    generalize (l.map fun s => s.nu * s.weight).sum = sx at *
    generalize (l.map fun s => s.nu * s.nu * s.weight).sum = sxx at *
    generalize (l.map fun s => wrap pi near s.phase * s.weight).sum = sy at *
    generalize (l.map fun s => s.nu * wrap pi near s.phase * s.weight).sum = sxy at *
    obtain ⟨h1, h2⟩ := h
    have e2 : b * (sxx - sx / n * sx) = sxy - sx * (sy / n) := by rw [← h2]; exact div_mul_cancel₀ _ hx
    have e1 : a * n = sy - b * sx := by rw [← h1, h2]; field_simp
    have e3 : a * sx + b * sxx = sxy := by
      have : a = (sy - b * sx) / n := by field_simp; exact e1
      rw [this]
      field_simp at e2 ⊢
      linarith
    have key : n * (a' ^ 2 * n + b' ^ 2 * sxx - 2 * a' * sy - 2 * b' * sxy + 2 * a' * b' * sx -
        (a ^ 2 * n + b ^ 2 * sxx - 2 * a * sy - 2 * b * sxy + 2 * a * b * sx)) =
        (n * (a' - a) + sx * (b' - b)) ^ 2 + n * (sxx - sx / n * sx) * (b' - b) ^ 2 := by
      have e4 : sy = a * n + b * sx := by linarith
      have e5 : n * (sxx - sx / n * sx) = n * sxx - sx ^ 2 := by field_simp
      rw [e5, e4, ← e3]
      ring
    have : 0 ≤ a' ^ 2 * n + b' ^ 2 * sxx - 2 * a' * sy - 2 * b' * sxy + 2 * a' * b' * sx -
        (a ^ 2 * n + b ^ 2 * sxx - 2 * a * sy - 2 * b * sxy + 2 * a * b * sx) := by
      apply nonneg_of_mul_nonneg_right _ hpos
      rw [key]
      positivity
    linarith

private theorem cost_zero (l : List (Sample K)) (y : Sample K → K) (a b : K) (hw : ∀ s ∈ l, 0 ≤ s.weight)
    (h : cost l y a b = 0) : ∀ s ∈ l, 0 < s.weight → y s = a + b * s.nu := by
  intro s hs hp
  have hle : s.weight * (y s - (a + b * s.nu)) ^ 2 ≤ cost l y a b := by
    apply List.single_le_sum
    · intro x hx
      obtain ⟨t, ht, rfl⟩ := List.mem_map.mp hx
      exact mul_nonneg (hw t ht) (sq_nonneg _)
    · exact List.mem_map_of_mem (f := fun s => s.weight * (y s - (a + b * s.nu)) ^ 2) hs
  rw [h] at hle
  have h0 : s.weight * (y s - (a + b * s.nu)) ^ 2 = 0 := le_antisymm hle (mul_nonneg hp.le (sq_nonneg _))
  rcases mul_eq_zero.mp h0 with h1 | h1
  · exact absurd h1 hp.ne'
  · have := pow_eq_zero_iff (n := 2) (by omega) |>.mp h1
    linarith

/-- C230: the line is not finite if and only if some samples have weight and all of these have the same frequency; so that one
sample with a weight among samples without is enough for that. -/
theorem line_none_iff (pi near : K) (l : List (Sample K)) (hw : ∀ s ∈ l, 0 ≤ s.weight) :
    weightedLine pi near l = none ↔
      (∃ s ∈ l, 0 < s.weight) ∧ ∀ s ∈ l, ∀ t ∈ l, 0 < s.weight → 0 < t.weight → s.nu = t.nu := by
  unfold weightedLine line
  dsimp only
  by_cases h0 : (l.map Sample.weight).sum = 0
  · rw [if_pos h0]
    simp only [reduceCtorEq, false_iff, not_and]
    rintro ⟨s, hs, hp⟩
    exfalso
    have h1 : s.weight ≤ (l.map Sample.weight).sum := by
      apply List.single_le_sum
      · intro x hx
        obtain ⟨s, hs, rfl⟩ := List.mem_map.mp hx
        exact hw s hs
      · exact List.mem_map_of_mem hs
    linarith
  · rw [if_neg h0, spread_eq l h0]
    have hpos := weight_pos l hw h0
    have hex : ∃ s ∈ l, 0 < s.weight := by
      by_contra hc
      apply h0
      rw [List.map_congr_left (g := fun _ => (0 : K)) (by
        intro s hs
        exact le_antisymm (not_lt.mp fun hp => hc ⟨s, hs, hp⟩) (hw s hs))]
      simp
    constructor
    · intro h
      split_ifs at h with hc
      refine ⟨hex, ?_⟩
      intro s hs t ht hps hpt
      have e1 := cost_zero l _ _ _ hw hc s hs hps
      have e2 := cost_zero l _ _ _ hw hc t ht hpt
      rw [e1, e2]
      ring
    · rintro ⟨_, h⟩
      obtain ⟨s, hs, hps⟩ := hex
      have hall : ∀ t ∈ l, t.nu * t.weight = s.nu * t.weight := by
        intro t ht
        rcases (hw t ht).eq_or_lt with h1 | h1
        · rw [← h1, mul_zero, mul_zero]
        · rw [h t ht s hs h1 hps]
      have hm : (l.map fun s => s.nu * s.weight).sum / (l.map Sample.weight).sum = s.nu := by
        rw [List.map_congr_left hall]
        have : ∀ l' : List (Sample K), (l'.map fun t => s.nu * t.weight).sum = s.nu * (l'.map Sample.weight).sum := by
          intro l'
          induction l' with
          | nil => simp
          | cons t l' ih => simp only [List.map_cons, List.sum_cons, ih]; ring
        rw [this]
        field_simp
      rw [if_pos]
      rw [hm]
      unfold cost
      rw [List.map_congr_left (g := fun _ => (0 : K))]
      · simp
      · intro t ht
        rcases (hw t ht).eq_or_lt with h1 | h1
        · rw [← h1, zero_mul]
        · rw [h t ht s hs h1 hps]
          ring

private theorem line_of_exact (pi near : K) (l : List (Sample K)) (hw : ∀ s ∈ l, 0 ≤ s.weight) (a b : K)
    (hy : ∀ s ∈ l, 0 < s.weight → wrap pi near s.phase = a + b * s.nu)
    (h2 : ∃ s ∈ l, ∃ t ∈ l, 0 < s.weight ∧ 0 < t.weight ∧ s.nu ≠ t.nu) : weightedLine pi near l = some (a, b) := by
  have hn : weightedLine pi near l ≠ none := by
    rw [Ne, line_none_iff pi near l hw]
    rintro ⟨_, h⟩
    obtain ⟨s, hs, t, ht, h3, h4, h5⟩ := h2
    exact h5 (h s hs t ht h3 h4)
  obtain ⟨p, hp⟩ := Option.ne_none_iff_exists'.mp hn
  obtain ⟨a', b'⟩ := p
  have hle := least_squares pi near l hw a' b' hp a b
  have hz : cost l (fun s => wrap pi near s.phase) a b = 0 := by
    unfold cost
    rw [List.map_congr_left (g := fun _ => (0 : K))]
    · simp
    · intro t ht
      rcases (hw t ht).eq_or_lt with h1 | h1
      · rw [← h1, zero_mul]
      · dsimp only
        rw [hy t ht h1]
        ring
  have hz' := le_antisymm (hz ▸ hle) (cost_nonneg l _ a' b' hw)
  obtain ⟨s, hs, t, ht, h3, h4, h5⟩ := h2
  have e1 := cost_zero l _ _ _ hw hz' s hs h3
  have e2 := cost_zero l _ _ _ hw hz' t ht h4
  rw [hy s hs h3] at e1
  rw [hy t ht h4] at e2
  have hb : (b - b') * (s.nu - t.nu) = 0 := by linear_combination e1 - e2
  rcases mul_eq_zero.mp hb with hb | hb
  · have hb : b' = b := by linarith
    subst hb
    rw [hp]
    have : a' = a := by linarith
    rw [this]
  · exact absurd (sub_eq_zero.mp hb) h5

/-- C230: the fit without weights is the one with weights that are all one, with the middle value in place of the weighted
median. -/
theorem plain_weighted (pi : K) (l : List (Sample K)) (hl : l ≠ []) (hw : ∀ s ∈ l, s.weight = 1) :
    plainSlope pi l = weightedLine pi (middle ((l.map Sample.phase).map
      (wrap pi (centre pi (maxQuarter (plainCounts pi (l.map Sample.phase))))))) l := by
  unfold plainSlope weightedLine
  dsimp only
  generalize middle (K := K) _ = near
  have hs : (l.map Sample.weight).sum = (l.length : K) := by
    rw [List.map_congr_left hw]
    simp
  have h0 : ((l.length : Nat) : K) ≠ 0 := by
    rw [Nat.cast_ne_zero]
    intro h
    exact hl (List.length_eq_zero_iff.mp h)
  rw [hs, if_neg h0]
  have key : ∀ f : Sample K → K, (l.map fun s => f s * s.weight) = l.map f := by
    intro f
    apply List.map_congr_left
    intro s hs
    rw [hw s hs, mul_one]
  rw [key fun s => s.nu, key fun s => s.nu * s.nu, key fun s => wrap pi near s.phase, key fun s => s.nu * wrap pi near s.phase]

/-! ## Recovering a line -/

variable [FloorSemiring K]

private theorem counts_zero (pi : K) (l : List (Sample K)) (q : Nat) (h : ∀ s ∈ l, quarter pi s.phase ≠ q) :
    weightedCounts pi l q = 0 := by
  unfold weightedCounts
  have : ∀ (c : Nat → Nat), c q = 0 → (l.foldl (fun c s =>
      Function.update c (quarter pi s.phase) ⌊(c (quarter pi s.phase) : K) + s.weight⌋₊) c) q = 0 := by
    induction l with
    | nil => intro c hc; exact hc
    | cons s l ih =>
      intro c hc
      rw [List.foldl_cons]
      apply ih fun t ht => h t (by simp [ht])
      rw [Function.update_of_ne (h s (by simp)).symm]
      exact hc
  exact this _ rfl

private theorem first_centre (pi : K) (hpi : 0 < pi) (l : List (Sample K)) (h : ∀ s ∈ l, s.phase ≤ pi) :
    pi / 4 ≤ centre pi (maxQuarter (weightedCounts pi l)) ∧ centre pi (maxQuarter (weightedCounts pi l)) ≤ 3 * pi / 4 := by
  have hq : ∀ s ∈ l, quarter pi s.phase ≤ 1 := by
    intro s hs
    have := h s hs
    unfold quarter
    rw [if_neg (by linarith), if_neg (by linarith)]
    split_ifs <;> omega
  have h2 := counts_zero pi l 2 fun s hs => by have := hq s hs; omega
  have h3 := counts_zero pi l 3 fun s hs => by have := hq s hs; omega
  have hm : maxQuarter (weightedCounts pi l) ≤ 1 := by
    unfold maxQuarter
    simp only [List.foldl_cons, List.foldl_nil, h2, h3]
    split_ifs <;> omega
  unfold centre
  generalize maxQuarter (weightedCounts pi l) = q at hm
  have : q = 0 ∨ q = 1 := by omega
  rcases this with rfl | rfl
  · constructor <;> push_cast <;> linarith
  · constructor <;> push_cast <;> linarith

/-- C231: when the phases with a weight are those of a line, up to turns, that changes by less than half a turn in the window,
and a sample of the inner half of the window has a weight, then the fit gives this line, up to a number of turns. Phases are
between minus a half and a half turn, as `std::arg` gives them. The offset and the slope are any numbers. -/
theorem line_recovered_partial (pi : K) (hpi : 0 < pi) (l : List (Sample K)) (hw : ∀ s ∈ l, 0 ≤ s.weight)
    (hr : ∀ s ∈ l, -pi ≤ s.phase ∧ s.phase ≤ pi) (a b : K)
    (hline : ∀ s ∈ l, 0 < s.weight → ∃ k : ℤ, s.phase = a + b * s.nu + 2 * pi * k)
    (hnear : ∀ s ∈ l, ∀ t ∈ l, 0 < s.weight → 0 < t.weight → |b * s.nu - b * t.nu| < pi)
    (hin : ∃ s ∈ inner l, 0 < s.weight)
    (h2 : ∃ s ∈ l, ∃ t ∈ l, 0 < s.weight ∧ 0 < t.weight ∧ s.nu ≠ t.nu) :
    ∃ k : ℤ, weightedSlope pi l = some (a + 2 * pi * k, b) := by
  have hsub : ∀ s ∈ inner l, s ∈ l := fun s hs => List.mem_of_mem_take (List.mem_of_mem_drop hs)
  obtain ⟨hc1, hc2⟩ := first_centre pi hpi l fun s hs => (hr s hs).2
  unfold weightedSlope medianPhase
  dsimp only
  generalize centre pi (maxQuarter (weightedCounts pi l)) = c at hc1 hc2
  obtain ⟨s0, hs0, hp0⟩ := hin
  obtain ⟨m, hm, _, _, _, h5⟩ := median_spec ((inner l).map fun s => (wrap pi c s.phase, s.weight))
    (by intro h; rw [List.map_eq_nil_iff] at h; rw [h] at hs0; exact absurd hs0 (by simp))
    (by intro x hx; obtain ⟨s, hs, rfl⟩ := List.mem_map.mp hx; exact hw s (hsub s hs))
  have hpos : 0 < (((inner l).map fun s => (wrap pi c s.phase, s.weight)).map Prod.snd).sum := by
    apply lt_of_lt_of_le hp0
    apply List.single_le_sum
    · intro x hx
      simp only [List.map_map, List.mem_map, Function.comp] at hx
      obtain ⟨s, hs, rfl⟩ := hx
      exact hw s (hsub s hs)
    · simp only [List.map_map, List.mem_map, Function.comp]
      exact ⟨s0, hs0, rfl⟩
  obtain ⟨_, w, hw0, hmem⟩ := h5 hpos
  obtain ⟨t, ht, hte⟩ := List.mem_map.mp hmem
  simp only [Prod.mk.injEq] at hte
  obtain ⟨hte1, hte2⟩ := hte
  have htw : 0 < t.weight := by rw [hte2]; exact hw0
  have htl := hsub t ht
  rw [hm, Option.bind_some]
  obtain ⟨k0, hk0⟩ := hline t htl htw
  obtain ⟨j0, _, hj0⟩ := wrap_turn pi c t.phase
  have hmk : m = a + b * t.nu + 2 * pi * ((k0 + j0 : ℤ) : K) := by
    rw [← hte1, hj0, hk0]
    push_cast
    ring
  have hmr : -(3 * pi / 4) ≤ m ∧ m ≤ 7 * pi / 4 := by
    rw [← hte1]
    obtain ⟨hr1, hr2⟩ := hr t htl
    unfold wrap
    split_ifs <;> constructor <;> linarith
  refine ⟨k0 + j0, ?_⟩
  apply line_of_exact pi m l hw _ _ _ h2
  intro s hs hps
  obtain ⟨k, hk⟩ := hline s hs hps
  obtain ⟨j, _, hj⟩ := wrap_turn pi m s.phase
  have hyr : |wrap pi m s.phase - m| ≤ pi := by
    obtain ⟨hr1, hr2⟩ := hr s hs
    rw [abs_le]
    unfold wrap
    split_ifs <;> constructor <;> linarith
  have hn := hnear s hs t htl hps htw
  have hdiff : wrap pi m s.phase - m = (b * s.nu - b * t.nu) + 2 * pi * ((k + j - (k0 + j0) : ℤ) : K) := by
    rw [hj, hk]
    nth_rw 1 [hmk]
    push_cast
    ring
  have hz : k + j - (k0 + j0) = 0 := by
    rw [hdiff] at hyr
    rw [abs_le] at hyr
    rw [abs_lt] at hn
    generalize k + j - (k0 + j0) = d at hyr
    have hd1 : ((d : ℤ) : K) < 1 := by
      by_contra hc
      have : 2 * pi * 1 ≤ 2 * pi * (d : K) := by
        apply mul_le_mul_of_nonneg_left (not_lt.mp hc)
        linarith
      linarith
    have hd2 : (-1 : K) < (d : K) := by
      by_contra hc
      have : 2 * pi * (d : K) ≤ 2 * pi * (-1) := by
        apply mul_le_mul_of_nonneg_left (not_lt.mp hc)
        linarith
      linarith
    have h1 : d < 1 := by exact_mod_cast hd1
    have h2 : (-1 : ℤ) < d := by exact_mod_cast hd2
    omega
  rw [hz] at hdiff
  rw [show wrap pi m s.phase = m + (b * s.nu - b * t.nu) by rw [Int.cast_zero, mul_zero, add_zero] at hdiff; linarith, hmk]
  ring

/-- C231: when the samples of the inner half have no weight, the line is not recovered: the phases 2 and -2 = 4 - 6 of a line
that goes from 2 to 4 (with 3 for pi) are taken as they are. -/
theorem inner_flagged_wrong :
    (∀ s ∈ ([⟨0, 2, 1⟩, ⟨1, 0, 0⟩, ⟨2, 0, 0⟩, ⟨3, -2, 1⟩] : List (Sample ℚ)), 0 < s.weight →
      ∃ k : ℤ, s.phase = 2 + 2 / 3 * s.nu + 2 * 3 * k) ∧
    weightedSlope (3 : ℚ) [⟨0, 2, 1⟩, ⟨1, 0, 0⟩, ⟨2, 0, 0⟩, ⟨3, -2, 1⟩] = some (2, -4 / 3) := by
  refine ⟨?_, by decide +kernel⟩
  intro s hs hp
  simp only [List.mem_cons, List.not_mem_nil, or_false] at hs
  rcases hs with rfl | rfl | rfl | rfl
  · exact ⟨0, by norm_num⟩
  · exact absurd hp (by norm_num)
  · exact absurd hp (by norm_num)
  · exact ⟨-1, by norm_num⟩

/-- C230: one sample with a weight in a window makes the line of the window not finite, so that also the samples without a
weight get values that are not finite. -/
theorem single_weight_wrong (pi near nu phase : K) : weightedLine pi near [⟨nu, phase, 1⟩, ⟨nu + 1, phase, 0⟩] = none := by
  rw [line_none_iff _ _ _ (by intro s hs; simp only [List.mem_cons, List.not_mem_nil, or_false] at hs; rcases hs with rfl | rfl <;> simp)]
  constructor
  · exact ⟨⟨nu, phase, 1⟩, by simp, by simp⟩
  · intro s hs t ht hps hpt
    simp only [List.mem_cons, List.not_mem_nil, or_false] at hs ht
    rcases hs with rfl | rfl <;> rcases ht with rfl | rfl
    · rfl
    · exact absurd hpt (lt_irrefl _)
    · exact absurd hps (lt_irrefl _)
    · rfl

/-! ## The first guess -/

/-- C232: with weights that are natural numbers, the count of a quarter is its weight. -/
theorem counts_natural_partial (pi : K) (l : List (Sample K)) (w : Sample K → Nat) (hw : ∀ s ∈ l, s.weight = w s) (q : Nat) :
    weightedCounts pi l q = ((l.filter fun s => quarter pi s.phase = q).map w).sum := by
  unfold weightedCounts
  have : ∀ (c : Nat → Nat), (l.foldl (fun c s =>
      Function.update c (quarter pi s.phase) ⌊(c (quarter pi s.phase) : K) + s.weight⌋₊) c) q =
        c q + ((l.filter fun s => quarter pi s.phase = q).map w).sum := by
    induction l with
    | nil => intro c; simp
    | cons s l ih =>
      intro c
      rw [List.foldl_cons, ih (fun t ht => hw t (by simp [ht]))]
      rw [hw s (by simp), ← Nat.cast_add, Nat.floor_natCast]
      by_cases h : quarter pi s.phase = q
      · rw [h, Function.update_self, List.filter_cons_of_pos (by simpa using h), List.map_cons, List.sum_cons]
        omega
      · rw [Function.update_of_ne (Ne.symm h), List.filter_cons_of_neg (by simpa using h)]
  rw [this]
  omega

/-- C232: the quarter that is chosen has the largest count, and of equal ones it is the first. -/
theorem largest_count (counts : Nat → Nat) (q : Nat) (hq : q < 4) :
    maxQuarter counts < 4 ∧ counts q ≤ counts (maxQuarter counts) ∧
      (counts q = counts (maxQuarter counts) → maxQuarter counts ≤ q) := by
  unfold maxQuarter
  simp only [List.foldl_cons, List.foldl_nil]
  have : q = 0 ∨ q = 1 ∨ q = 2 ∨ q = 3 := by omega
  rcases this with rfl | rfl | rfl | rfl <;> split_ifs <;> omega

/-- C232: weights below one are not counted at all, however many there are, since the counts are integers. -/
theorem fractions_lost_wrong (pi : K) (l : List (Sample K)) (hw : ∀ s ∈ l, 0 ≤ s.weight ∧ s.weight < 1) :
    maxQuarter (weightedCounts pi l) = 0 := by
  have : ∀ q, weightedCounts pi l q = 0 := by
    intro q
    unfold weightedCounts
    have : ∀ (c : Nat → Nat), (∀ q, c q = 0) → (l.foldl (fun c s =>
        Function.update c (quarter pi s.phase) ⌊(c (quarter pi s.phase) : K) + s.weight⌋₊) c) q = 0 := by
      induction l with
      | nil => intro c hc; exact hc q
      | cons s l ih =>
        intro c hc
        rw [List.foldl_cons]
        apply ih fun t ht => hw t (by simp [ht])
        intro q'
        by_cases h : q' = quarter pi s.phase
        · rw [h, Function.update_self, hc, Nat.cast_zero, zero_add]
          exact Nat.floor_eq_zero.mpr (hw s (by simp)).2
        · rw [Function.update_of_ne h]
          exact hc q'
    exact this _ fun _ => rfl
  unfold maxQuarter
  simp [this]

/-! ## Examples -/

example : weightedMedian [((5 : ℚ), 1), (1, 1), (3, 4), (9, 1)] = some 3 := by decide +kernel

-- A line that goes through pi (3 here): the phases 2, 5/2, -3, -5/2 are those of 2 + nu / 2.
example : weightedSlope (3 : ℚ) [⟨0, 2, 1⟩, ⟨1, 5 / 2, 1⟩, ⟨2, -3, 1⟩, ⟨3, -5 / 2, 1⟩] = some (2, 1 / 2) := by decide +kernel

-- With a flagged sample.
example : weightedSlope (3 : ℚ) [⟨0, 2, 1⟩, ⟨1, 0, 0⟩, ⟨2, -3, 1⟩, ⟨3, -5 / 2, 1⟩] = some (2, 1 / 2) := by decide +kernel

example : weightedCounts (3 : ℚ) [⟨0, 2, 2⟩, ⟨1, 1, 1⟩, ⟨2, 5 / 2, 3⟩] 1 = 5 := by decide +kernel

example : maxQuarter (weightedCounts (3 : ℚ) [⟨0, 2, 1 / 2⟩, ⟨1, 2, 1 / 2⟩, ⟨2, 5 / 2, 1 / 2⟩]) = 0 := by decide +kernel

end DP3.PhaseSlope
