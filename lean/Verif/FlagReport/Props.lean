import Verif.FlagReport.Model
import Mathlib.Algebra.BigOperators.Group.List.Basic
import Mathlib.Data.List.Nodup
import Mathlib.Data.List.TakeWhile
import Mathlib.Algebra.Order.BigOperators.Group.List
import Mathlib.Tactic.Tauto
import Mathlib.Tactic.Ring
import Mathlib.Tactic.Linarith

/-!
# Properties of the report of a flag counter
-/

namespace DP3.FlagReport
set_option linter.unusedSimpArgs false

/-! ## Counts -/

/-- A baseline between antennas `x` and `y`, in any order. -/
def Between (x y : Nat) (b : Baseline) : Prop := (b.ant1 = x ∧ b.ant2 = y) ∨ (b.ant1 = y ∧ b.ant2 = x)

instance (x y : Nat) (b : Baseline) : Decidable (Between x y b) := by unfold Between; infer_instance

/-- A baseline with antenna `x`. -/
def With (x : Nat) (b : Baseline) : Prop := b.ant1 = x ∨ b.ant2 = x

instance (x : Nat) (b : Baseline) : Decidable (With x b) := by unfold With; infer_instance

theorem add_apply (m : Matrix) (a b n x y : Nat) : m.add a b n x y = if x = a ∧ y = b then m x y + n else m x y := rfl

theorem bump_apply (v : Nat → Nat) (a n x : Nat) : bump v a n x = if x = a then v x + n else v x := rfl

theorem countStep_spec (c : Counts) (b : Baseline) (x y : Nat) :
    (countStep c b).count x y = c.count x y + (if Between x y b then b.count else 0) ∧
    (countStep c b).used x y = c.used x y + (if Between x y b then 1 else 0) ∧
    (countStep c b).countAnt x = c.countAnt x + (if With x b then b.count else 0) ∧
    (countStep c b).usedAnt x = c.usedAnt x + (if With x b then 1 else 0) := by
  obtain ⟨a1, a2, n⟩ := b
  have hB : Between x y ⟨a1, a2, n⟩ ↔ (a1 = x ∧ a2 = y) ∨ (a1 = y ∧ a2 = x) := Iff.rfl
  have hW : With x ⟨a1, a2, n⟩ ↔ a1 = x ∨ a2 = x := Iff.rfl
  simp only [countStep]
  by_cases h : a1 = a2
  · rw [if_neg (by simpa using h)]
    by_cases b1 : Between x y ⟨a1, a2, n⟩ <;> by_cases b2 : With x ⟨a1, a2, n⟩ <;>
      simp only [b1, b2, if_true, if_false, add_apply, bump_apply] <;>
      rw [hB] at b1 <;> rw [hW] at b2 <;> refine ⟨?_, ?_, ?_, ?_⟩ <;> split_ifs <;> omega
  · rw [if_pos h]
    by_cases b1 : Between x y ⟨a1, a2, n⟩ <;> by_cases b2 : With x ⟨a1, a2, n⟩ <;>
      simp only [b1, b2, if_true, if_false, add_apply, bump_apply] <;>
      rw [hB] at b1 <;> rw [hW] at b2 <;> refine ⟨?_, ?_, ?_, ?_⟩ <;> split_ifs <;> omega

theorem foldl_spec (bls : List Baseline) (c : Counts) (x y : Nat) :
    (bls.foldl countStep c).count x y = c.count x y + ((bls.filter fun b => Between x y b).map Baseline.count).sum ∧
    (bls.foldl countStep c).used x y = c.used x y + (bls.filter fun b => Between x y b).length ∧
    (bls.foldl countStep c).countAnt x = c.countAnt x + ((bls.filter fun b => With x b).map Baseline.count).sum ∧
    (bls.foldl countStep c).usedAnt x = c.usedAnt x + (bls.filter fun b => With x b).length := by
  induction bls generalizing c with
  | nil => simp
  | cons b bs ih =>
    obtain ⟨h1, h2, h3, h4⟩ := countStep_spec c b x y
    obtain ⟨i1, i2, i3, i4⟩ := ih (countStep c b)
    simp only [List.foldl_cons, i1, i2, i3, i4, h1, h2, h3, h4, List.filter_cons]
    refine ⟨?_, ?_, ?_, ?_⟩ <;> split_ifs <;> simp_all <;> omega

theorem counts_spec (bls : List Baseline) (x y : Nat) :
    (counts bls).count x y = ((bls.filter fun b => Between x y b).map Baseline.count).sum ∧
    (counts bls).used x y = (bls.filter fun b => Between x y b).length ∧
    (counts bls).countAnt x = ((bls.filter fun b => With x b).map Baseline.count).sum ∧
    (counts bls).usedAnt x = (bls.filter fun b => With x b).length := by
  have := foldl_spec bls ⟨fun _ _ => 0, fun _ _ => 0, fun _ => 0, fun _ => 0⟩ x y
  simpa [counts] using this

/-! ## Pages -/

/-- The positions of the used antennas of a list that starts at `pos`. -/
def indices : List Bool → Nat → List Nat
  | [], _ => []
  | b :: l, pos => if b then pos :: indices l (pos + 1) else indices l (pos + 1)

theorem scan_spec (l : List Bool) (pos n : Nat) (h : n ≤ (indices l pos).length) :
    ∃ d, scan l pos n = some ((indices l pos).take n, pos + d) ∧ indices (l.drop d) (pos + d) = (indices l pos).drop n := by
  induction l generalizing pos n with
  | nil =>
    simp [indices] at h
    subst h
    exact ⟨0, by simp [scan, indices]⟩
  | cons b l ih =>
    cases n with
    | zero => exact ⟨0, by simp [scan]⟩
    | succ n =>
      cases b with
      | true =>
        simp only [indices, if_true, List.length_cons] at h
        obtain ⟨d, h1, h2⟩ := ih (pos + 1) n (by omega)
        refine ⟨d + 1, ?_, ?_⟩
        · simp only [scan, if_true, h1, Option.map_some, indices, List.take_succ_cons]
          simp; omega
        · simp only [List.drop_succ_cons, indices, if_true]
          rw [← h2]
          congr 1; omega
      | false =>
        simp only [indices, Bool.false_eq_true, if_false] at h
        obtain ⟨d, h1, h2⟩ := ih (pos + 1) (n + 1) h
        refine ⟨d + 1, ?_, ?_⟩
        · simp only [scan, Bool.false_eq_true, if_false, h1, indices]
          simp; omega
        · simp only [List.drop_succ_cons, indices, Bool.false_eq_true, if_false]
          rw [← h2]
          congr 1; omega

theorem nUsed_eq (l : List Bool) (pos n : Nat) : l.foldl (fun n b => if b then n + 1 else n) n = n + (indices l pos).length := by
  induction l generalizing pos n with
  | nil => simp [indices]
  | cons b l ih =>
    cases b <;> simp only [List.foldl_cons, indices, if_true, Bool.false_eq_true, if_false, List.length_cons]
    · exact ih _ _
    · rw [ih (pos + 1) (n + 1)]; omega

theorem pageLoop_spec (used : List Bool) (left i ant : Nat) (hleft : left = ((indices (used.drop ant) ant).length + 14) / 15)
    (hn : nUsed used - i * 15 = (indices (used.drop ant) ant).length) :
    ∃ ps, pageLoop used (nUsed used) left i ant = some ps ∧ ps.flatten = indices (used.drop ant) ant ∧
      ps.length = left ∧ (∀ p ∈ ps, 0 < p.length ∧ p.length ≤ 15) ∧ (∀ (k : Nat) p, k + 1 < left → ps[k]? = some p → p.length = 15) := by
  induction left generalizing i ant with
  | zero =>
    refine ⟨[], by simp [pageLoop], ?_, rfl, by simp, by simp⟩
    have : (indices (used.drop ant) ant).length = 0 := by omega
    simp [List.length_eq_zero_iff.mp this]
  | succ left ih =>
    have hpos : 0 < (indices (used.drop ant) ant).length := by omega
    obtain ⟨d, h1, h2⟩ := scan_spec (used.drop ant) ant (min 15 (nUsed used - i * 15)) (by omega)
    rw [List.drop_drop] at h2
    have hlen : (indices (used.drop (ant + d)) (ant + d)).length =
        (indices (used.drop ant) ant).length - min 15 (nUsed used - i * 15) := by rw [h2, List.length_drop]
    obtain ⟨ps, e1, e2, e3, e4, e5⟩ := ih (i + 1) (ant + d) (by omega) (by omega)
    refine ⟨(indices (used.drop ant) ant).take (min 15 (nUsed used - i * 15)) :: ps, ?_, ?_, ?_, ?_, ?_⟩
    · simp only [pageLoop, h1, e1, Option.map_some]
    · rw [List.flatten_cons, e2, h2, List.take_append_drop]
    · simp [e3]
    · intro p hp
      rcases List.mem_cons.mp hp with rfl | hp
      · rw [List.length_take]; omega
      · exact e4 p hp
    · intro k p hk hp
      cases k with
      | zero =>
        simp only [List.getElem?_cons_zero, Option.some.injEq] at hp
        rw [← hp, List.length_take]; omega
      | succ k => exact e5 k p (by omega) (by simpa using hp)

theorem mem_indices (l : List Bool) (pos a : Nat) : a ∈ indices l pos ↔ pos ≤ a ∧ l[a - pos]? = some true := by
  induction l generalizing pos with
  | nil => simp [indices]
  | cons b l ih =>
    have key : a ∈ indices l (pos + 1) ↔ pos + 1 ≤ a ∧ (b :: l)[a - pos]? = some true := by
      rw [ih (pos + 1)]
      constructor
      · rintro ⟨h1, h2⟩
        refine ⟨h1, ?_⟩
        have : a - pos = (a - (pos + 1)) + 1 := by omega
        rw [this, List.getElem?_cons_succ]; exact h2
      · rintro ⟨h1, h2⟩
        refine ⟨h1, ?_⟩
        have : a - pos = (a - (pos + 1)) + 1 := by omega
        rw [this, List.getElem?_cons_succ] at h2; exact h2
    cases b with
    | true =>
      simp only [indices, if_true, List.mem_cons, key]
      constructor
      · rintro (rfl | ⟨h1, h2⟩)
        · simp
        · exact ⟨by omega, h2⟩
      · rintro ⟨h1, h2⟩
        rcases Nat.eq_or_lt_of_le h1 with h | h
        · exact Or.inl h.symm
        · exact Or.inr ⟨h, h2⟩
    | false =>
      simp only [indices, Bool.false_eq_true, if_false, key]
      constructor
      · rintro ⟨h1, h2⟩; exact ⟨by omega, h2⟩
      · rintro ⟨h1, h2⟩
        rcases Nat.eq_or_lt_of_le h1 with h | h
        · subst h; simp at h2
        · exact ⟨h, h2⟩

theorem indices_sorted (l : List Bool) (pos : Nat) : (indices l pos).Pairwise (· < ·) := by
  induction l generalizing pos with
  | nil => simp [indices]
  | cons b l ih =>
    cases b with
    | true =>
      simp only [indices, if_true, List.pairwise_cons]
      refine ⟨fun a ha => ?_, ih _⟩
      have := ((mem_indices l (pos + 1) a).mp ha).1
      omega
    | false => simpa [indices] using ih (pos + 1)

/-- An antenna that occurs in a baseline. -/
def Occurs (bls : List Baseline) (a : Nat) : Prop := ∃ b ∈ bls, With a b

theorem lt_nAntennas (bls : List Baseline) (b : Baseline) (hb : b ∈ bls) : b.ant1 < nAntennas bls ∧ b.ant2 < nAntennas bls := by
  have mono : ∀ (l : List Baseline) (m : Nat), m ≤ l.foldl (fun m b => max m (1 + max b.ant1 b.ant2)) m := by
    intro l
    induction l with
    | nil => simp
    | cons c l ih => intro m; simp only [List.foldl_cons]; exact le_trans (le_max_left _ _) (ih _)
  have key : ∀ (l : List Baseline) (m : Nat), b ∈ l → 1 + max b.ant1 b.ant2 ≤ l.foldl (fun m b => max m (1 + max b.ant1 b.ant2)) m := by
    intro l
    induction l with
    | nil => simp
    | cons c l ih =>
      intro m hm
      simp only [List.foldl_cons]
      rcases List.mem_cons.mp hm with rfl | hm
      · exact le_trans (le_max_right _ _) (mono _ _)
      · exact ih _ hm
  have := key bls 0 hb
  simp only [nAntennas]
  omega

theorem used_iff (bls : List Baseline) (a : Nat) : (usedList bls)[a]? = some true ↔ Occurs bls a := by
  have hu : 0 < (counts bls).usedAnt a ↔ Occurs bls a := by
    rw [(counts_spec bls a a).2.2.2, List.length_pos_iff_exists_mem]
    simp [Occurs]
  constructor
  · intro h
    obtain ⟨hlt, h⟩ := List.getElem?_eq_some_iff.mp h
    simp only [usedList, List.getElem_map, List.getElem_range, decide_eq_true_eq] at h
    exact hu.mp h
  · intro h
    have hlt : a < nAntennas bls := by
      obtain ⟨b, hb, hw⟩ := h
      have := lt_nAntennas bls b hb
      rcases hw with h | h <;> omega
    simp only [usedList, List.getElem?_map, List.getElem?_range hlt, Option.map_some, Option.some.injEq, decide_eq_true_eq]
    exact hu.mpr h

/-- C245: the pages of the table have the antennas that occur in a baseline, each of them once and in increasing order; all pages but
the last have 15, and no page is empty. The loops stay within the vectors. -/
theorem pages_spec (bls : List Baseline) :
    ∃ ps, pages (usedList bls) = some ps ∧ (∀ a, a ∈ ps.flatten ↔ Occurs bls a) ∧ ps.flatten.Pairwise (· < ·) ∧
      (∀ p ∈ ps, 0 < p.length ∧ p.length ≤ 15) ∧ (∀ (k : Nat) p, k + 1 < ps.length → ps[k]? = some p → p.length = 15) := by
  have hn : nUsed (usedList bls) = (indices (usedList bls) 0).length := by
    simp only [nUsed]; rw [nUsed_eq _ 0]; simp
  obtain ⟨ps, e1, e2, e3, e4, e5⟩ := pageLoop_spec (usedList bls) ((nUsed (usedList bls) + 14) / 15) 0 0
    (by simp [hn]) (by simp [hn])
  simp only [List.drop_zero] at e2
  refine ⟨ps, e1, ?_, ?_, e4, fun k p hk => e5 k p (by omega)⟩
  · intro a
    rw [e2, mem_indices]
    simp [used_iff]
  · rw [e2]; exact indices_sorted _ _

theorem cells_mem (bls : List Baseline) :
    ∃ cs, tableCells bls = some cs ∧ cs.Nodup ∧ ∀ x y, (x, y) ∈ cs ↔ Occurs bls x ∧ Occurs bls y := by
  obtain ⟨ps, h1, h2, h3, -, -⟩ := pages_spec bls
  have hk : ∀ k, k ∈ ((List.range (usedList bls).length).filter fun (k : Nat) => (usedList bls).getD k false) ↔ Occurs bls k := by
    intro k
    rw [List.mem_filter, ← used_iff]
    simp only [List.mem_range, List.getD_eq_getElem?_getD]
    constructor
    · rintro ⟨hlt, h⟩
      rw [List.getElem?_eq_getElem hlt] at h ⊢
      simpa using h
    · intro h
      obtain ⟨hlt, h'⟩ := List.getElem?_eq_some_iff.mp h
      exact ⟨hlt, by rw [h]; rfl⟩
  refine ⟨ps.flatMap (pageCells (usedList bls)), by simp [tableCells, h1], ?_, ?_⟩
  · have hnd : ps.flatten.Nodup := h3.imp (fun h => Nat.ne_of_lt h)
    rw [List.nodup_flatten] at hnd
    rw [List.flatMap_def, List.nodup_flatten]
    constructor
    · intro l hl
      obtain ⟨p, hp, rfl⟩ := List.mem_map.mp hl
      simp only [pageCells]
      rw [List.flatMap_def, List.nodup_flatten]
      constructor
      · intro l hl
        obtain ⟨k, -, rfl⟩ := List.mem_map.mp hl
        exact (hnd.1 p hp).map (fun a b h => (Prod.mk.inj h).2)
      · rw [List.pairwise_map]
        refine List.Pairwise.imp ?_ (List.Nodup.filter _ List.nodup_range)
        intro a b hab c hc1 hc2
        obtain ⟨_, -, rfl⟩ := List.mem_map.mp hc1
        obtain ⟨_, -, h⟩ := List.mem_map.mp hc2
        exact hab (Prod.mk.inj h).1.symm
    · rw [List.pairwise_map]
      refine List.Pairwise.imp ?_ hnd.2
      intro p q hpq c hc1 hc2
      simp only [pageCells, List.mem_flatMap, List.mem_map] at hc1 hc2
      obtain ⟨k1, -, i1, hi1, rfl⟩ := hc1
      obtain ⟨k2, -, i2, hi2, h⟩ := hc2
      rw [(Prod.mk.inj h).2] at hi2
      exact hpq hi1 hi2
  · intro x y
    rw [← h2 y, ← hk x]
    simp only [List.mem_flatMap, pageCells, List.mem_map, Prod.mk.injEq, List.mem_flatten]
    constructor
    · rintro ⟨p, hp, k, hk', i, hi, rfl, rfl⟩
      exact ⟨hk', p, hp, hi⟩
    · rintro ⟨hx, p, hp, hy⟩
      exact ⟨p, hp, x, hx, y, hy, rfl, rfl⟩

/-- C245: each pair of antennas that occur has one cell. It is empty when there is no baseline between them; else it has the percentage
of the visibilities of all baselines between them that are flagged, in both orders of the antennas. -/
theorem table (bls : List Baseline) (nPoints : Nat) :
    ∃ cs, tableCells bls = some cs ∧ cs.Nodup ∧ (∀ x y, (x, y) ∈ cs ↔ Occurs bls x ∧ Occurs bls y) ∧
      ∀ x y, cell (counts bls) nPoints x y =
        if ∃ b ∈ bls, Between x y b then
          some (percentage ((bls.filter fun b => Between x y b).map Baseline.count).sum
            ((bls.filter fun b => Between x y b).length * nPoints))
        else none := by
  obtain ⟨cs, h1, h2, h3⟩ := cells_mem bls
  refine ⟨cs, h1, h2, h3, fun x y => ?_⟩
  obtain ⟨c1, c2, -, -⟩ := counts_spec bls x y
  simp only [cell, c1, c2]
  have : (0 < (bls.filter fun b => Between x y b).length) ↔ ∃ b ∈ bls, Between x y b := by
    rw [List.length_pos_iff_exists_mem]; simp
  by_cases h : ∃ b ∈ bls, Between x y b
  · rw [if_pos (this.mpr h), if_pos h]
  · rw [if_neg (fun g => h (this.mp g)), if_neg h]

theorem between_comm (x y : Nat) (b : Baseline) : Between x y b ↔ Between y x b := by
  simp only [Between]; tauto

/-- C245: a percentage is the nearest whole one, and is at most 100. -/
theorem percentage_nearest (count total : Nat) (ht : 0 < total) (hc : count ≤ total) :
    ∃ p, percentage count total = some p ∧ p ≤ 100 ∧ 2 * total * p ≤ 200 * count + total ∧ 200 * count + total < 2 * total * (p + 1) := by
  refine ⟨(200 * count + total) / (2 * total), by simp [percentage, Nat.ne_of_gt ht], ?_, ?_, ?_⟩
  · have : (200 * count + total) / (2 * total) < 101 := by
      rw [Nat.div_lt_iff_lt_mul (by omega)]; omega
    omega
  · exact Nat.mul_div_le _ _
  · have := Nat.lt_mul_div_succ (200 * count + total) (show 0 < 2 * total by omega)
    simpa using this

theorem sum_full (l : List Nat) (n : Nat) (h : ∀ x ∈ l, x ≤ n) : l.sum = l.length * n ↔ ∀ x ∈ l, x = n := by
  induction l with
  | nil => simp
  | cons a l ih =>
    have ha := h a (by simp)
    have hl := ih fun x hx => h x (by simp [hx])
    have hle : l.sum ≤ l.length * n := by
      have := List.sum_le_card_nsmul l n (fun x hx => h x (by simp [hx]))
      simpa using this
    simp only [List.sum_cons, List.length_cons, List.mem_cons, forall_eq_or_imp, ← hl]
    have : (l.length + 1) * n = l.length * n + n := by ring
    omega

/-- C246, when there are visibilities: the list of fully flagged baselines has each pair of antennas (the smaller one first) once, and
exactly those that have a baseline and of which all visibilities of all baselines are flagged. -/
theorem fully_flagged_partial (bls : List Baseline) (nPoints : Nat) (hc : ∀ b ∈ bls, b.count ≤ nPoints) (hn : 0 < nPoints) :
    ∃ l, fullyFlagged bls nPoints = some l ∧ l.Nodup ∧
      ∀ x y, (x, y) ∈ l ↔ x ≤ y ∧ (∃ b ∈ bls, Between x y b) ∧ ∀ b ∈ bls, Between x y b → b.count = nPoints ∧ 0 < b.count := by
  obtain ⟨cs, h1, h2, h3⟩ := cells_mem bls
  refine ⟨cs.filter fun p => isFull (counts bls) nPoints p.1 p.2, by simp [fullyFlagged, h1], h2.filter _, fun x y => ?_⟩
  rw [List.mem_filter, h3]
  obtain ⟨c1, c2, -, -⟩ := counts_spec bls x y
  simp only [isFull, c1, c2, decide_eq_true_eq]
  have hpos : (0 < (bls.filter fun b => Between x y b).length) ↔ ∃ b ∈ bls, Between x y b := by
    rw [List.length_pos_iff_exists_mem]; simp
  have hfull := sum_full ((bls.filter fun b => Between x y b).map Baseline.count) nPoints (by
    intro n hm
    obtain ⟨b, hb, rfl⟩ := List.mem_map.mp hm
    exact hc b (List.mem_filter.mp hb).1)
  rw [List.length_map] at hfull
  rw [hpos, hfull]
  constructor
  · rintro ⟨-, h4, h5, h6⟩
    refine ⟨h5, h4, fun b hb hbb => ?_⟩
    have := h6 b.count (List.mem_map.mpr ⟨b, List.mem_filter.mpr ⟨hb, by simpa using hbb⟩, rfl⟩)
    exact ⟨this, by omega⟩
  · rintro ⟨h5, h4, h6⟩
    obtain ⟨b, hb, hbb⟩ := h4
    refine ⟨⟨⟨b, hb, ?_⟩, ⟨b, hb, ?_⟩⟩, ⟨b, hb, hbb⟩, h5, ?_⟩
    · rcases hbb with h | h <;> simp [With, h.1, h.2]
    · rcases hbb with h | h <;> simp [With, h.1, h.2]
    · intro n hm
      obtain ⟨c, hc', rfl⟩ := List.mem_map.mp hm
      have := List.mem_filter.mp hc'
      exact (h6 c this.1 (by simpa using this.2)).1

/-- C246 is false without visibilities, when no time slot was processed: every baseline is in the list, and the percentages are
undefined. -/
theorem no_data_wrong (bls : List Baseline) (hc : ∀ b ∈ bls, b.count = 0) (b : Baseline) (hb : b ∈ bls) :
    (∃ l, fullyFlagged bls 0 = some l ∧ (min b.ant1 b.ant2, max b.ant1 b.ant2) ∈ l) ∧
      cell (counts bls) 0 b.ant1 b.ant2 = some none := by
  obtain ⟨cs, h1, -, h3⟩ := cells_mem bls
  have hbtw : Between (min b.ant1 b.ant2) (max b.ant1 b.ant2) b := by
    simp only [Between]; omega
  constructor
  · refine ⟨cs.filter fun p => isFull (counts bls) 0 p.1 p.2, by simp [fullyFlagged, h1], ?_⟩
    rw [List.mem_filter, h3]
    obtain ⟨c1, c2, -, -⟩ := counts_spec bls (min b.ant1 b.ant2) (max b.ant1 b.ant2)
    refine ⟨⟨⟨b, hb, ?_⟩, ⟨b, hb, ?_⟩⟩, ?_⟩
    · simp only [With]; omega
    · simp only [With]; omega
    · simp only [isFull, c1, c2, decide_eq_true_eq]
      refine ⟨?_, by omega, ?_⟩
      · rw [List.length_pos_iff_exists_mem]
        exact ⟨b, List.mem_filter.mpr ⟨hb, by simpa using hbtw⟩⟩
      · rw [Nat.mul_zero, List.sum_eq_zero_iff]
        intro n hm
        obtain ⟨c, hc', rfl⟩ := List.mem_map.mp hm
        exact hc c (List.mem_filter.mp hc').1
  · obtain ⟨c1, c2, -, -⟩ := counts_spec bls b.ant1 b.ant2
    simp only [cell, c2, Nat.mul_zero, percentage, if_true]
    rw [if_pos]
    rw [List.length_pos_iff_exists_mem]
    exact ⟨b, List.mem_filter.mpr ⟨hb, by simp [Between]⟩⟩

/-- Antennas 0, 2 and 3; two baselines between 0 and 2, one of which has another order. -/
def sample : List Baseline := [⟨0, 2, 6⟩, ⟨2, 0, 6⟩, ⟨0, 3, 5⟩, ⟨3, 3, 6⟩]

example : pages (usedList sample) = some [[0, 2, 3]] ∧ fullyFlagged sample 6 = some [(0, 2), (3, 3)] ∧
    cell (counts sample) 6 0 3 = some (some 83) ∧ cell (counts sample) 6 2 3 = none ∧
    (pages (List.replicate 32 true)).map (List.map List.length) = some [15, 15, 2] := by decide +kernel

/-! ## Warnings -/

/-- C247, for the list of channels: there is a warning exactly for the channels of which at least the given percentage is flagged. -/
theorem warnings_partial (warn : Nat) (hw : 0 < warn) (chans : List Nat) (nPoints i : Nat) :
    i ∈ channelWarnings warn chans nPoints ↔ ∃ c, chans[i]? = some c ∧ warn * nPoints ≤ 100 * c := by
  simp only [channelWarnings, if_pos hw, List.mem_filter, List.mem_range, decide_eq_true_eq, List.getD_eq_getElem?_getD]
  constructor
  · rintro ⟨h1, h2⟩
    rw [List.getElem?_eq_getElem h1] at h2 ⊢
    exact ⟨_, rfl, h2⟩
  · rintro ⟨c, h1, h2⟩
    obtain ⟨hlt, -⟩ := List.getElem?_eq_some_iff.mp h1
    exact ⟨hlt, by rw [h1]; exact h2⟩

/-- C247: without the setting there are no warnings. -/
theorem no_warnings (chans : List Nat) (nPoints : Nat) : channelWarnings 0 chans nPoints = [] := rfl

/-- C247 is false for the text: the percentage is followed by itself as a duration in seconds or milliseconds. -/
theorem warning_text_wrong (tenths : Nat) (h : 100 ≤ tenths) : showPerc1 tenths 1000 = (tenths, (tenths / 10, "s")) := by
  have : (2000 * tenths + 1000) / (2 * 1000) = tenths := by omega
  simp only [showPerc1, writeDuration]
  rw [if_neg (by omega), if_neg (by omega), this]

example : channelWarnings 50 [3, 5, 10] 10 = [1, 2] ∧ showPerc1 500 1000 = (500, (50, "s")) ∧
    showPerc1 55 1000 = (55, (5500, "ms")) := by decide

/-- C247: the total number of flagged visibilities is the sum over channels. -/
theorem total_sum (chans : List Nat) : totalFlagged chans = chans.sum := by
  have : ∀ (l : List Nat) n, l.foldl (fun n c => n + c) n = n + l.sum := by
    intro l
    induction l with
    | nil => simp
    | cons a l ih => intro n; simp only [List.foldl_cons, ih, List.sum_cons]; omega
  simp [totalFlagged, this]

/-! ## Names of tables -/

theorem beforeDot_append (n : List Char) (hn : '.' ∉ n) (rest : List Char) (hr : rest = [] ∨ rest.head? = some '.') :
    beforeDot (n ++ rest) = n := by
  induction n with
  | nil =>
    rcases hr with rfl | hr
    · rfl
    · cases rest with
      | nil => simp at hr
      | cons c r => simp at hr; simp [beforeDot, hr]
  | cons a n ih =>
    have ha : a ≠ '.' := fun h => hn (by simp [h])
    have := ih fun h => hn (by simp [h])
    simp only [beforeDot, List.cons_append] at this ⊢
    rw [List.takeWhile_cons_of_pos (by simpa using ha), this]

theorem takeWhile_slash (n d : List Char) (hn : '/' ∉ n) :
    ((n ++ '/' :: d).takeWhile fun c => c != '/') = n ∧ ((n ++ '/' :: d).dropWhile fun c => c != '/') = '/' :: d := by
  induction n with
  | nil => simp
  | cons a n ih =>
    have ha : a ≠ '/' := fun h => hn (by simp [h])
    obtain ⟨h1, h2⟩ := ih fun h => hn (by simp [h])
    constructor
    · rw [List.cons_append, List.takeWhile_cons_of_pos (by simpa using ha), h1]
    · rw [List.cons_append, List.dropWhile_cons_of_pos (by simpa using ha), h2]

/-- C248: the tables of a Measurement Set `d/n.ext` and a step `s` are `d/n_s.flag`, or in the given path when there is one. -/
theorem save_name (path d n ext s rest : List Char) (hn : '/' ∉ n) (hn2 : '.' ∉ n) (he : '/' ∉ ext) (hs : '.' ∉ s)
    (hext : ext = [] ∨ ext.head? = some '.') (hrest : rest = [] ∨ rest.head? = some '.') :
    saveFilename path (d ++ '/' :: (n ++ ext)) (s ++ rest) =
      (if path = [] then d else path) ++ ['/'] ++ n ++ ['_'] ++ s ++ ".flag".toList := by
  have hne : '/' ∉ (n ++ ext).reverse := by simp [hn, he]
  have hrev : (d ++ '/' :: (n ++ ext)).reverse = (n ++ ext).reverse ++ '/' :: d.reverse := by simp
  obtain ⟨h1, h2⟩ := takeWhile_slash (n ++ ext).reverse d.reverse hne
  have ha : afterSlash (d ++ '/' :: (n ++ ext)) = n ++ ext := by
    simp only [afterSlash, hrev, h1, List.reverse_reverse]
  have hd : directory (d ++ '/' :: (n ++ ext)) = d := by
    simp only [directory]
    rw [if_pos (by simp), hrev, h2]
    simp
  simp only [saveFilename, ha, hd, beforeDot_append n hn2 ext hext, beforeDot_append s hs rest hrest]

/-- C248 for a name without a directory. -/
theorem save_name_here (path n ext s rest : List Char) (hn : '/' ∉ n) (hn2 : '.' ∉ n) (he : '/' ∉ ext) (hs : '.' ∉ s)
    (hext : ext = [] ∨ ext.head? = some '.') (hrest : rest = [] ∨ rest.head? = some '.') :
    saveFilename path (n ++ ext) (s ++ rest) =
      (if path = [] then ['.'] else path) ++ ['/'] ++ n ++ ['_'] ++ s ++ ".flag".toList := by
  have ha : afterSlash (n ++ ext) = n ++ ext := by
    simp only [afterSlash]
    rw [List.takeWhile_eq_self_iff.mpr, List.reverse_reverse]
    intro x hx
    simp only [List.mem_reverse, List.mem_append] at hx
    simp only [bne_iff_ne, ne_eq]
    rintro rfl
    rcases hx with h | h
    · exact hn h
    · exact he h
  have hd : directory (n ++ ext) = ['.'] := by
    simp only [directory]
    rw [if_neg (by simp [hn, he])]
  simp only [saveFilename, ha, hd, beforeDot_append n hn2 ext hext, beforeDot_append s hs rest hrest]

/-- C248 is false for different names: Measurement Sets whose names differ after the first dot only share their tables, so that the
second run replaces those of the first one. -/
theorem save_name_collision (path d n ext1 ext2 s : List Char) (hn : '/' ∉ n) (hn2 : '.' ∉ n) (he1 : '/' ∉ ext1) (he2 : '/' ∉ ext2)
    (hs : '.' ∉ s) (h1 : ext1.head? = some '.') (h2 : ext2.head? = some '.') :
    saveFilename path (d ++ '/' :: (n ++ ext1)) (s ++ ['.']) = saveFilename path (d ++ '/' :: (n ++ ext2)) (s ++ ['.']) := by
  rw [save_name path d n ext1 s ['.'] hn hn2 he1 hs (Or.inr h1) (Or.inr rfl),
    save_name path d n ext2 s ['.'] hn hn2 he2 hs (Or.inr h2) (Or.inr rfl)]

example : saveFilename [] "data/L1.SB001.MS".toList "flag.".toList = "data/L1_flag.flag".toList ∧
    saveFilename [] "data/L1.SB002.MS".toList "flag.".toList = "data/L1_flag.flag".toList := by decide

end DP3.FlagReport
