import Verif.LowRank.Model
import Mathlib.Tactic.Ring
import Mathlib.Tactic.Linarith
import Mathlib.Tactic.FieldSimp
import Mathlib.Tactic.Abel

/-!
# The correlations of the low rank solver

C216 and C217.
-/

namespace DP3.LowRank

set_option linter.unusedSimpArgs false

open ComplexConjugate

/-- What the data say about the product of the gain with index `i` and the conjugated gain with index `j`: the values,
weights and model values of all finite elements of visibilities with these antennas and polarizations; for the antennas
in reverse order the conjugated ones. Element `2 r + c` of a visibility has polarization `r` of the first antenna and `c`
of the second one. -/
def about (sol : Nat) (vs : List Vis) (i j : Nat) : List (ℂ × ℝ × ℂ) :=
  vs.flatMap fun v => if v.sol = sol then
    (List.range 2).flatMap fun r => (List.range 2).flatMap fun c =>
      match v.data (2 * r + c) with
      | none => []
      | some d =>
        (if i = 2 * v.a1 + r ∧ j = 2 * v.a2 + c then [(d, v.weight (2 * r + c), v.model (2 * r + c))] else []) ++
        (if i = 2 * v.a2 + c ∧ j = 2 * v.a1 + r then [(conj d, v.weight (2 * r + c), conj (v.model (2 * r + c)))] else [])
  else []

/-- The value, weight and model value of an entry with a finite value. -/
private def Entry.triple (e : Entry) : Option (ℂ × ℝ × ℂ) := e.data.map fun d => (d, e.weight, e.model)

private theorem entries_perm (v : Vis) (i j : Nat) :
    ((v.entries.filter fun e => e.row = i ∧ e.col = j).filterMap Entry.triple).Perm
      ((List.range 2).flatMap fun r => (List.range 2).flatMap fun c =>
        match v.data (2 * r + c) with
        | none => []
        | some d =>
          (if i = 2 * v.a1 + r ∧ j = 2 * v.a2 + c then [(d, v.weight (2 * r + c), v.model (2 * r + c))] else []) ++
          (if i = 2 * v.a2 + c ∧ j = 2 * v.a1 + r then [(conj d, v.weight (2 * r + c), conj (v.model (2 * r + c)))]
            else [])) := by
  classical
  rw [List.perm_iff_count]
  intro t
  have e1 : ∀ (e : Entry) (l : List Entry), List.count t (((e :: l).filter fun e => e.row = i ∧ e.col = j).filterMap
      Entry.triple) = (if e.row = i ∧ e.col = j then (if e.triple = some t then 1 else 0) else 0) +
      List.count t ((l.filter fun e => e.row = i ∧ e.col = j).filterMap Entry.triple) := by
    intro e l
    by_cases hc : e.row = i ∧ e.col = j
    · rw [List.filter_cons_of_pos (by simpa using hc), if_pos hc, List.filterMap_cons]
      cases he : e.triple with
      | none => simp
      | some x => by_cases hx : x = t <;> simp [hx, add_comm]
    · rw [List.filter_cons_of_neg (by simpa using hc), if_neg hc, Nat.zero_add]
  have e2 : ∀ (r c : Nat) (k : Nat), List.count t (match v.data k with
        | none => []
        | some d =>
          (if i = 2 * v.a1 + r ∧ j = 2 * v.a2 + c then [(d, v.weight k, v.model k)] else []) ++
          (if i = 2 * v.a2 + c ∧ j = 2 * v.a1 + r then [(conj d, v.weight k, conj (v.model k))] else [])) =
      (if v.a1 * 2 + r = i ∧ v.a2 * 2 + c = j then
        (if (Entry.mk (v.a1 * 2 + r) (v.a2 * 2 + c) (v.data k) (v.weight k) (v.model k)).triple = some t then 1 else 0)
        else 0) +
      (if v.a2 * 2 + c = i ∧ v.a1 * 2 + r = j then
        (if (Entry.mk (v.a2 * 2 + c) (v.a1 * 2 + r) ((v.data k).map conj) (v.weight k) (conj (v.model k))).triple = some t
          then 1 else 0) else 0) := by
    intro r c k
    have q1 : (i = 2 * v.a1 + r ∧ j = 2 * v.a2 + c) ↔ (v.a1 * 2 + r = i ∧ v.a2 * 2 + c = j) := by omega
    have q2 : (i = 2 * v.a2 + c ∧ j = 2 * v.a1 + r) ↔ (v.a2 * 2 + c = i ∧ v.a1 * 2 + r = j) := by omega
    simp only [q1, q2]
    cases v.data k with
    | none => simp [Entry.triple]
    | some d =>
      rw [List.count_append]
      congr 1
      · split <;> simp [Entry.triple, List.count_singleton]
      · split <;> simp [Entry.triple, List.count_singleton]
  unfold Vis.entries
  simp only [e1, List.filter_nil, List.filterMap_nil, List.count_nil]
  rw [show List.range 2 = [0, 1] from rfl]
  simp only [List.flatMap_cons, List.flatMap_nil, List.append_nil, List.count_append, e2]
  simp only [Nat.mul_zero, Nat.mul_one, Nat.add_zero, Nat.zero_add, show (2 + 1 : Nat) = 3 from rfl]
  omega

/-- The calls of AddToCorrelation for an element are what the data say about it. -/
private theorem about_perm (sol : Nat) (vs : List Vis) (i j : Nat) :
    ((((vs.filter fun v => v.sol = sol).flatMap Vis.entries).filter fun e => e.row = i ∧ e.col = j).filterMap
      Entry.triple).Perm (about sol vs i j) := by
  induction vs with
  | nil => simp [about]
  | cons v vs ih =>
    unfold about at ih ⊢
    rw [List.flatMap_cons]
    by_cases hs : v.sol = sol
    · rw [List.filter_cons_of_pos (by simpa using hs), List.flatMap_cons, List.filter_append, List.filterMap_append,
        if_pos hs]
      exact (entries_perm v i j).append ih
    · rw [List.filter_cons_of_neg (by simpa using hs), if_neg hs, List.nil_append]
      exact ih

/-- The sum of values with the weights and models. -/
private noncomputable def numer (l : List (ℂ × ℝ × ℂ)) : ℂ := (l.map fun t => (t.2.1 : ℂ) * conj t.2.2 * t.1).sum

/-- The sum of the weighted norms of the models. -/
private noncomputable def denom (l : List (ℂ × ℝ × ℂ)) : ℝ := (l.map fun t => t.2.1 * Complex.normSq t.2.2).sum

private theorem add_term (w : ℝ) (m d : ℂ) (hm : m ≠ 0) :
    (w : ℂ) * Complex.normSq m * (d / m) = (w : ℂ) * conj m * d := by
  rw [Complex.normSq_eq_conj_mul_self]
  field_simp

private theorem foldl_add (l : List Entry) (x : Element) (c : ℂ) (hx : x.corr = some c)
    (hm : ∀ t ∈ l.filterMap Entry.triple, t.2.2 ≠ 0) :
    (l.foldl Element.add x).corr = some (c + numer (l.filterMap Entry.triple)) ∧
    (l.foldl Element.add x).div = x.div + denom (l.filterMap Entry.triple) ∧
    (l.foldl Element.add x).var =
      x.var + ((l.filterMap Entry.triple).map fun t => (t.2.1 * Complex.normSq t.2.2) ^ 2).sum := by
  induction l generalizing x c with
  | nil => simp [hx, numer, denom]
  | cons e l ih =>
    rw [List.foldl_cons]
    cases he : e.data with
    | none =>
      have h1 : x.add e = x := by unfold Element.add; rw [he]
      have h2 : (e :: l).filterMap Entry.triple = l.filterMap Entry.triple := by simp [Entry.triple, he]
      rw [h1, h2]
      rw [h2] at hm
      exact ih x c hx hm
    | some d =>
      have h2 : (e :: l).filterMap Entry.triple = (d, e.weight, e.model) :: l.filterMap Entry.triple := by
        simp [Entry.triple, he]
      rw [h2] at hm
      rw [h2]
      have hm0 : e.model ≠ 0 := hm _ (List.mem_cons_self)
      have h1 : x.add e = ⟨some (c + e.weight * Complex.normSq e.model * (d / e.model)),
          x.var + e.weight * e.weight * Complex.normSq e.model * Complex.normSq e.model,
          x.div + e.weight * Complex.normSq e.model⟩ := by
        unfold Element.add
        rw [he]
        simp [hm0, hx]
      rw [h1]
      obtain ⟨a1, a2, a3⟩ := ih ⟨some (c + e.weight * Complex.normSq e.model * (d / e.model)),
          x.var + e.weight * e.weight * Complex.normSq e.model * Complex.normSq e.model,
          x.div + e.weight * Complex.normSq e.model⟩ _ rfl fun t ht => hm t (List.mem_cons_of_mem _ ht)
      refine ⟨?_, ?_, ?_⟩
      · rw [a1]
        simp only [numer, List.map_cons, List.sum_cons]
        rw [add_term _ _ _ hm0]
        congr 1
        ring
      · rw [a2]
        simp only [denom, List.map_cons, List.sum_cons]
        ring
      · rw [a3]
        simp only [List.map_cons, List.sum_cons]
        ring

private theorem foldl_sums (l : List Entry) (x : Element) :
    (l.foldl Element.add x).div = x.div + denom (l.filterMap Entry.triple) ∧
    (l.foldl Element.add x).var =
      x.var + ((l.filterMap Entry.triple).map fun t => (t.2.1 * Complex.normSq t.2.2) ^ 2).sum := by
  induction l generalizing x with
  | nil => simp [denom]
  | cons e l ih =>
    rw [List.foldl_cons]
    cases he : e.data with
    | none =>
      have h1 : x.add e = x := by unfold Element.add; rw [he]
      have h2 : (e :: l).filterMap Entry.triple = l.filterMap Entry.triple := by simp [Entry.triple, he]
      rw [h1, h2]
      exact ih x
    | some d =>
      have h2 : (e :: l).filterMap Entry.triple = (d, e.weight, e.model) :: l.filterMap Entry.triple := by
        simp [Entry.triple, he]
      obtain ⟨a1, a2⟩ := ih (x.add e)
      rw [a1, a2, h2]
      simp only [denom, List.map_cons, List.sum_cons, Element.add, he]
      constructor <;> ring

private theorem sums_eq (sol : Nat) (vs : List Vis) (i j : Nat) :
    (sums sol vs i j).div = denom (about sol vs i j) ∧
    (sums sol vs i j).var = ((about sol vs i j).map fun t => (t.2.1 * Complex.normSq t.2.2) ^ 2).sum := by
  have hp := about_perm sol vs i j
  obtain ⟨a1, a2⟩ := foldl_sums (((vs.filter fun v => v.sol = sol).flatMap Vis.entries).filter fun e =>
    e.row = i ∧ e.col = j) ⟨some 0, 0, 0⟩
  refine ⟨?_, ?_⟩
  · unfold sums
    rw [a1]
    simp only [zero_add, denom]
    exact (hp.map _).sum_eq
  · unfold sums
    rw [a2]
    simp only [zero_add]
    exact (hp.map _).sum_eq

private theorem corr_eq (sol : Nat) (vs : List Vis) (i j : Nat) (hm : ∀ t ∈ about sol vs i j, t.2.2 ≠ 0) :
    (sums sol vs i j).corr = some (numer (about sol vs i j)) := by
  have hp := about_perm sol vs i j
  obtain ⟨a1, -⟩ := foldl_add (((vs.filter fun v => v.sol = sol).flatMap Vis.entries).filter fun e =>
    e.row = i ∧ e.col = j) ⟨some 0, 0, 0⟩ 0 rfl fun t ht => hm t (hp.mem_iff.1 ht)
  unfold sums
  rw [a1, zero_add]
  congr 1
  exact (hp.map _).sum_eq

private theorem square_sum (l : List (ℂ × ℝ × ℂ)) (c : ℂ) :
    (l.map fun t => t.2.1 * Complex.normSq (t.1 - c * t.2.2)).sum =
      (l.map fun t => t.2.1 * Complex.normSq t.1).sum - 2 * (conj c * numer l).re + Complex.normSq c * denom l := by
  induction l with
  | nil => simp [numer, denom]
  | cons t l ih =>
    simp only [List.map_cons, List.sum_cons, ih, numer, denom, mul_add, Complex.add_re]
    have : t.2.1 * Complex.normSq (t.1 - c * t.2.2) = t.2.1 * Complex.normSq t.1 -
        2 * (conj c * ((t.2.1 : ℂ) * conj t.2.2 * t.1)).re + Complex.normSq c * (t.2.1 * Complex.normSq t.2.2) := by
      simp only [Complex.normSq_apply, Complex.sub_re, Complex.sub_im, Complex.mul_re, Complex.mul_im, Complex.conj_re,
        Complex.conj_im, Complex.ofReal_re, Complex.ofReal_im]
      ring
    rw [this]
    ring

private theorem denom_nonneg (l : List (ℂ × ℝ × ℂ)) (hw : ∀ t ∈ l, 0 ≤ t.2.1) : 0 ≤ denom l := by
  unfold denom
  apply List.sum_nonneg
  intro x hx
  rw [List.mem_map] at hx
  obtain ⟨t, ht, rfl⟩ := hx
  exact mul_nonneg (hw t ht) (Complex.normSq_nonneg _)

private theorem weights_zero (l : List (ℂ × ℝ × ℂ)) (hw : ∀ t ∈ l, 0 ≤ t.2.1) (hm : ∀ t ∈ l, t.2.2 ≠ 0)
    (h : denom l = 0) : ∀ t ∈ l, t.2.1 = 0 := by
  induction l with
  | nil => simp
  | cons t l ih =>
    have h1 : 0 ≤ t.2.1 * Complex.normSq t.2.2 := mul_nonneg (hw t (by simp)) (Complex.normSq_nonneg _)
    have h2 := denom_nonneg l fun s hs => hw s (by simp [hs])
    have h3 : t.2.1 * Complex.normSq t.2.2 + denom l = 0 := by simpa [denom] using h
    have h4 : t.2.1 * Complex.normSq t.2.2 = 0 := by linarith
    have h5 : denom l = 0 := by linarith
    intro s hs
    rcases List.mem_cons.1 hs with rfl | hs
    · rcases mul_eq_zero.1 h4 with h | h
      · exact h
      · exact absurd (Complex.normSq_eq_zero.1 h) (hm s (by simp))
    · exact ih (fun s hs => hw s (by simp [hs])) (fun s hs => hm s (by simp [hs])) h5 s hs

/-- C216: an element of the matrix of correlations is the weighted least squares solution for the product of gains from
the data about it, it is unique if these have a weight, and the matrix is Hermitian. -/
theorem correlation_least_squares_partial (sol : Nat) (vs : List Vis) (i j : Nat)
    (hw : ∀ t ∈ about sol vs i j, 0 ≤ t.2.1) (hm : ∀ t ∈ about sol vs i j, t.2.2 ≠ 0) :
    ∃ c, correlation sol vs i j = some c ∧
      (∀ c', ((about sol vs i j).map fun t => t.2.1 * Complex.normSq (t.1 - c * t.2.2)).sum ≤
        ((about sol vs i j).map fun t => t.2.1 * Complex.normSq (t.1 - c' * t.2.2)).sum) ∧
      ((∃ t ∈ about sol vs i j, t.2.1 ≠ 0) → ∀ c', (∀ c'',
        ((about sol vs i j).map fun t => t.2.1 * Complex.normSq (t.1 - c' * t.2.2)).sum ≤
        ((about sol vs i j).map fun t => t.2.1 * Complex.normSq (t.1 - c'' * t.2.2)).sum) → c' = c) := by
  obtain ⟨hd, -⟩ := sums_eq sol vs i j
  have hc := corr_eq sol vs i j hm
  generalize about sol vs i j = l at *
  by_cases h0 : denom l = 0
  · have hz := weights_zero l hw hm h0
    refine ⟨0, ?_, ?_, ?_⟩
    · simp only [correlation, hd, h0, if_true]
    · intro c'
      have : ∀ c : ℂ, (l.map fun t => t.2.1 * Complex.normSq (t.1 - c * t.2.2)).sum = 0 := by
        intro c
        apply List.sum_eq_zero
        intro x hx
        rw [List.mem_map] at hx
        obtain ⟨t, ht, rfl⟩ := hx
        rw [hz t ht, zero_mul]
      rw [this, this]
    · rintro ⟨t, ht, hne⟩
      exact absurd (hz t ht) hne
  · have hpos : 0 < denom l := lt_of_le_of_ne (denom_nonneg l hw) (Ne.symm h0)
    have key : ∀ c' : ℂ, (l.map fun t => t.2.1 * Complex.normSq (t.1 - c' * t.2.2)).sum =
        (l.map fun t => t.2.1 * Complex.normSq (t.1 - numer l / denom l * t.2.2)).sum +
          denom l * Complex.normSq (c' - numer l / denom l) := by
      intro c'
      rw [square_sum, square_sum]
      have hN : numer l = (denom l : ℂ) * (numer l / denom l) := by
        rw [mul_div_cancel₀]
        exact_mod_cast h0
      generalize numer l / (denom l : ℂ) = q at *
      rw [hN]
      simp only [Complex.normSq_apply, Complex.sub_re, Complex.sub_im, Complex.mul_re, Complex.mul_im, Complex.conj_re,
        Complex.conj_im, Complex.ofReal_re, Complex.ofReal_im]
      ring
    refine ⟨numer l / denom l, ?_, ?_, ?_⟩
    · simp only [correlation, hd, h0, if_false, hc, Option.map_some]
    · intro c'
      rw [key c']
      have := mul_nonneg hpos.le (Complex.normSq_nonneg (c' - numer l / denom l))
      linarith
    · intro _ c' hmin
      have h1 := hmin (numer l / denom l)
      rw [key c'] at h1
      have h2 : denom l * Complex.normSq (c' - numer l / denom l) ≤ 0 := by linarith
      have h3 : Complex.normSq (c' - numer l / denom l) = 0 := by
        have := Complex.normSq_nonneg (c' - numer l / denom l)
        by_contra hne
        have : 0 < Complex.normSq (c' - numer l / denom l) := lt_of_le_of_ne this (Ne.symm hne)
        have := mul_pos hpos this
        linarith
      exact sub_eq_zero.1 (Complex.normSq_eq_zero.1 h3)

/-- What the data say about the elements with row and column exchanged is conjugated. -/
private theorem about_swap (sol : Nat) (vs : List Vis) (i j : Nat) :
    (about sol vs j i).Perm ((about sol vs i j).map fun t => (conj t.1, t.2.1, conj t.2.2)) := by
  unfold about
  rw [List.map_flatMap]
  apply List.Perm.flatMap_left
  intro v _
  by_cases hs : v.sol = sol
  · rw [if_pos hs, if_pos hs, List.map_flatMap]
    apply List.Perm.flatMap_left
    intro r _
    rw [List.map_flatMap]
    apply List.Perm.flatMap_left
    intro c _
    cases v.data (2 * r + c) with
    | none => simp
    | some d =>
      simp only [List.map_append]
      refine List.perm_append_comm.trans (List.Perm.of_eq ?_)
      congr 1
      · by_cases h : i = 2 * v.a1 + r ∧ j = 2 * v.a2 + c
        · rw [if_pos h, if_pos ⟨h.2, h.1⟩]; simp
        · rw [if_neg h, if_neg fun h' => h ⟨h'.2, h'.1⟩]; simp
      · by_cases h : i = 2 * v.a2 + c ∧ j = 2 * v.a1 + r
        · rw [if_pos h, if_pos ⟨h.2, h.1⟩]; simp
        · rw [if_neg h, if_neg fun h' => h ⟨h'.2, h'.1⟩]; simp
  · rw [if_neg hs, if_neg hs]; simp

private theorem denom_swap (sol : Nat) (vs : List Vis) (i j : Nat) :
    denom (about sol vs j i) = denom (about sol vs i j) := by
  unfold denom
  rw [((about_swap sol vs i j).map _).sum_eq, List.map_map]
  congr 1
  apply List.map_congr_left
  intro t _
  simp [Complex.normSq_conj]

/-- C216: the matrix of correlations is Hermitian and that of the weights symmetric. -/
theorem correlation_hermitian_partial (sol : Nat) (vs : List Vis) (i j : Nat) (hm : ∀ t ∈ about sol vs i j, t.2.2 ≠ 0) :
    correlation sol vs j i = (correlation sol vs i j).map conj ∧ variance sol vs j i = variance sol vs i j := by
  have hm' : ∀ t ∈ about sol vs j i, t.2.2 ≠ 0 := by
    intro t ht
    rw [(about_swap sol vs i j).mem_iff, List.mem_map] at ht
    obtain ⟨s, hs, rfl⟩ := ht
    simpa using hm s hs
  have hv : ((about sol vs j i).map fun t => (t.2.1 * Complex.normSq t.2.2) ^ 2).sum =
      ((about sol vs i j).map fun t => (t.2.1 * Complex.normSq t.2.2) ^ 2).sum := by
    rw [((about_swap sol vs i j).map _).sum_eq, List.map_map]
    congr 1
    apply List.map_congr_left
    intro t _
    simp [Complex.normSq_conj]
  have hn : numer (about sol vs j i) = conj (numer (about sol vs i j)) := by
    unfold numer
    rw [((about_swap sol vs i j).map _).sum_eq, List.map_map, map_list_sum, List.map_map]
    congr 1
    apply List.map_congr_left
    intro t _
    simp
  have hd := denom_swap sol vs i j
  refine ⟨?_, ?_⟩
  · simp only [correlation, (sums_eq sol vs i j).1, (sums_eq sol vs j i).1, hd, corr_eq sol vs i j hm,
      corr_eq sol vs j i hm', hn]
    split <;> simp
  · simp only [variance, (sums_eq sol vs i j).1, (sums_eq sol vs j i).1, hd, (sums_eq sol vs i j).2, (sums_eq sol vs j i).2,
      hv]

/-- C217: with data that are exact for the gains `g`, an element of the matrix of correlations is the product of the gains,
or has weight 0. -/
theorem correlation_exact (sol : Nat) (vs : List Vis) (i j : Nat) (g : Nat → ℂ)
    (hm : ∀ t ∈ about sol vs i j, t.2.2 ≠ 0) (hd : ∀ t ∈ about sol vs i j, t.1 = g i * conj (g j) * t.2.2) :
    correlation sol vs i j = some (g i * conj (g j)) ∨
      (correlation sol vs i j = some 0 ∧ variance sol vs i j = 0) := by
  by_cases h0 : denom (about sol vs i j) = 0
  · right
    simp only [correlation, variance, (sums_eq sol vs i j).1, h0, if_true, true_and]
  · left
    simp only [correlation, (sums_eq sol vs i j).1, h0, if_false, corr_eq sol vs i j hm, Option.map_some]
    congr 1
    rw [div_eq_iff (by exact_mod_cast h0)]
    clear h0 hm
    generalize about sol vs i j = l at *
    induction l with
    | nil => simp [numer, denom]
    | cons t l ih =>
      have := ih fun s hs => hd s (by simp [hs])
      simp only [numer, denom, List.map_cons, List.sum_cons, Complex.ofReal_add, Complex.ofReal_mul] at this ⊢
      rw [this, hd t (by simp), Complex.normSq_eq_conj_mul_self]
      ring

/-- C216: one finite element of which the model value is zero makes the correlation not finite, if there are other ones
with a model value. -/
theorem zero_model (sol : Nat) (vs : List Vis) (i j : Nat) (t t' : ℂ × ℝ × ℂ) (ht : t ∈ about sol vs i j)
    (h0 : t.2.2 = 0) (hw : ∀ t ∈ about sol vs i j, 0 ≤ t.2.1) (ht' : t' ∈ about sol vs i j) (hw' : 0 < t'.2.1)
    (hm' : t'.2.2 ≠ 0) : correlation sol vs i j = none := by
  have hp := about_perm sol vs i j
  have hnone : ∀ (l : List Entry) (x : Element), x.corr = none ∨ (∃ t ∈ l.filterMap Entry.triple, t.2.2 = 0) →
      (l.foldl Element.add x).corr = none := by
    intro l
    induction l with
    | nil =>
      intro x hx
      simpa using hx
    | cons e l ih =>
      intro x hx
      rw [List.foldl_cons]
      apply ih
      cases he : e.data with
      | none =>
        have h1 : x.add e = x := by unfold Element.add; rw [he]
        have h2 : (e :: l).filterMap Entry.triple = l.filterMap Entry.triple := by simp [Entry.triple, he]
        rw [h1, ← h2]
        exact hx
      | some d =>
        have h2 : (e :: l).filterMap Entry.triple = (d, e.weight, e.model) :: l.filterMap Entry.triple := by
          simp [Entry.triple, he]
        rw [h2] at hx
        by_cases hme : e.model = 0
        · left
          simp [Element.add, he, hme]
        · rcases hx with hx | ⟨t, ht, h0⟩
          · left
            simp [Element.add, he, hx]
          · rcases List.mem_cons.1 ht with rfl | ht
            · exact absurd h0 hme
            · exact Or.inr ⟨t, ht, h0⟩
  have hc : (sums sol vs i j).corr = none := hnone _ _ (Or.inr ⟨t, hp.mem_iff.2 ht, h0⟩)
  have hpos : 0 < denom (about sol vs i j) := by
    unfold denom
    refine lt_of_lt_of_le (mul_pos hw' (Complex.normSq_pos.2 hm')) (List.single_le_sum ?_ _ ?_)
    · intro x hx
      rw [List.mem_map] at hx
      obtain ⟨s, hs, rfl⟩ := hx
      exact mul_nonneg (hw s hs) (Complex.normSq_nonneg _)
    · rw [List.mem_map]
      exact ⟨t', ht', rfl⟩
  simp only [correlation, (sums_eq sol vs i j).1, ne_of_gt hpos, if_false, hc, Option.map_none]

/-- C217: the weight of an element that has `k` equal visibilities is proportional to 1 / k: it does not depend on the
weights of the data and is lower if there are more data. -/
theorem weight_of_equal (sol : Nat) (vs : List Vis) (i j : Nat) (k : Nat) (hk : 0 < k) (d : ℂ) (w : ℝ) (hw : 0 < w) (m : ℂ)
    (hm : m ≠ 0) (h : about sol vs i j = List.replicate k (d, w, m)) : variance sol vs i j = 1 / k := by
  have hn : 0 < Complex.normSq m := Complex.normSq_pos.2 hm
  have hk' : (0 : ℝ) < k := by exact_mod_cast hk
  have h1 : (sums sol vs i j).div = k * (w * Complex.normSq m) := by
    rw [(sums_eq sol vs i j).1, h]; simp [denom]
  have h2 : (sums sol vs i j).var = k * (w * Complex.normSq m) ^ 2 := by
    rw [(sums_eq sol vs i j).2, h]; simp
  have h3 : (k : ℝ) * (w * Complex.normSq m) ≠ 0 := ne_of_gt (mul_pos hk' (mul_pos hw hn))
  simp only [variance, h1, h2, h3, if_false]
  have := ne_of_gt hk'
  have := ne_of_gt hw
  have := ne_of_gt hn
  field_simp

/-- C217: the weights of the elements are between 0 and 1, and an element without data has weight 0. -/
theorem weights_bounds (n : Nat) (sol : Nat) (vs : List Vis) (i j : Fin n) :
    0 ≤ weights n sol vs i j ∧ weights n sol vs i j ≤ 1 ∧ (about sol vs i j = [] → weights n sol vs i j = 0) := by
  have hv : ∀ i j, 0 ≤ variance sol vs i j := by
    intro i j
    simp only [variance]
    split
    · exact le_rfl
    · rw [(sums_eq sol vs i j).2]
      refine div_nonneg (List.sum_nonneg ?_) (mul_self_nonneg _)
      intro x hx
      rw [List.mem_map] at hx
      obtain ⟨t, -, rfl⟩ := hx
      positivity
  have hle : variance sol vs i j ≤ maxWeight n sol vs :=
    le_ciSup (f := fun p : Fin n × Fin n => variance sol vs p.1 p.2) (Set.finite_range _).bddAbove (i, j)
  have hz : about sol vs i j = [] → variance sol vs i j = 0 := by
    intro h
    simp only [variance, (sums_eq sol vs i j).1, h, denom, List.map_nil, List.sum_nil, if_true]
  unfold weights
  split
  · rename_i hne
    have hpos : 0 < maxWeight n sol vs := lt_of_le_of_ne (le_trans (hv i j) hle) (Ne.symm hne)
    refine ⟨div_nonneg (hv i j) hpos.le, (div_le_one hpos).2 hle, ?_⟩
    intro h
    rw [hz h, zero_div]
  · rename_i hne
    push Not at hne
    refine ⟨hv i j, by linarith, hz⟩

end DP3.LowRank
