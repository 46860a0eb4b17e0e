import Verif.ParmGrid.Model
import Mathlib.Tactic.Linarith
import Mathlib.Tactic.Ring
import Mathlib.Tactic.FieldSimp
import Mathlib.Tactic.Push
import Mathlib.Algebra.Field.Rat
import Mathlib.Algebra.Order.Ring.Rat

/-!
# C48: finding cells, and parts of an axis
-/

namespace DP3.ParmGrid

open DP3.StringTools

set_option linter.unusedSectionVars false

variable {K : Type} [Field K] [LinearOrder K] [IsStrictOrderedRing K]

/-- The intervals of an axis: not empty, in order and disjoint (the assertions of parmdb/Axis.cc:77-83). -/
def Valid (cells : Cells K) : Prop :=
  cells ≠ [] ∧ (∀ c ∈ cells, c.1 < c.2) ∧ cells.Pairwise fun a b => a.2 ≤ b.1

/-- A value lies in a cell. At an edge the cell on the right or that on the left is taken. -/
def In (biasRight : Bool) (x : K) (c : K × K) : Prop :=
  if biasRight then c.1 ≤ x ∧ x < c.2 else c.1 < x ∧ x ≤ c.2

/-- A cell lies before a value. -/
def Before (biasRight : Bool) (x : K) (c : K × K) : Prop := if biasRight then c.2 ≤ x else c.2 < x

instance (b : Bool) (x : K) (c : K × K) : Decidable (In b x c) := by unfold In; infer_instance
instance (b : Bool) (x : K) (c : K × K) : Decidable (Before b x c) := by unfold Before; infer_instance

/-! ## find -/

private theorem findFrom_sound (near : K → K → Bool) (x : K) (b : Bool) (cells : Cells K) (i j : Nat)
    (h : findFrom near x b cells i = (j, true)) :
    i ≤ j ∧ ∃ c, cells[j - i]? = some c ∧
      ((b = true ∧ near x c.1 = true) ∨ (b = false ∧ near x c.2 = true) ∨ (c.1 ≤ x ∧ x < c.2)) := by
  induction cells generalizing i with
  | nil => simp [findFrom] at h
  | cons c r ih =>
    rw [findFrom] at h
    by_cases h1 : near x c.1 = true
    · rw [if_pos h1] at h
      simp only [Prod.mk.injEq] at h
      obtain ⟨rfl, hb⟩ := h
      exact ⟨le_refl _, c, by simp, .inl ⟨hb, h1⟩⟩
    rw [if_neg h1] at h
    have step : findFrom near x b r (i + 1) = (j, true) → i ≤ j ∧ ∃ d, (c :: r)[j - i]? = some d ∧
        ((b = true ∧ near x d.1 = true) ∨ (b = false ∧ near x d.2 = true) ∨ (d.1 ≤ x ∧ x < d.2)) := by
      intro h
      obtain ⟨h1, d, hd, h2⟩ := ih (i + 1) h
      refine ⟨by omega, d, ?_, h2⟩
      have : j - i = (j - (i + 1)) + 1 := by omega
      rw [this, List.getElem?_cons_succ]; exact hd
    by_cases h2 : near x c.2 = true
    · rw [if_pos h2] at h
      cases b with
      | false =>
        simp only [Bool.not_false, if_true, Prod.mk.injEq, and_true] at h
        subst h
        exact ⟨le_refl _, c, by simp, .inr (.inl ⟨rfl, h2⟩)⟩
      | true => exact step (by simpa using h)
    rw [if_neg h2] at h
    by_cases h3 : x < c.1
    · rw [if_pos h3] at h; simp at h
    rw [if_neg h3] at h
    by_cases h4 : x < c.2
    · rw [if_pos h4] at h
      simp only [Prod.mk.injEq, and_true] at h
      subst h
      exact ⟨le_refl _, c, by simp, .inr (.inr ⟨not_lt.mp h3, h4⟩)⟩
    rw [if_neg h4] at h
    exact step h

/-- C48: whatever `near` is, a cell that is found contains the value, or has an edge near the value on the
side that the caller asked for. -/
theorem find_sound (near : K → K → Bool) (cells : Cells K) (x : K) (b : Bool) (hint i : Nat)
    (h : find near cells x b hint = (i, true)) :
    ∃ c, cells[i]? = some c ∧
      ((b = true ∧ near x c.1 = true) ∨ (b = false ∧ near x c.2 = true) ∨ (c.1 ≤ x ∧ x < c.2)) := by
  have all : findFrom near x b cells 0 = (i, true) → ∃ c, cells[i]? = some c ∧
      ((b = true ∧ near x c.1 = true) ∨ (b = false ∧ near x c.2 = true) ∨ (c.1 ≤ x ∧ x < c.2)) :=
    fun h => (findFrom_sound near x b cells 0 i h).2
  unfold find at h
  cases hc : cells[hint]? with
  | none => rw [hc] at h; exact all h
  | some c =>
    rw [hc] at h
    simp only at h
    split_ifs at h with h1 h2 h3
    · simp only [Prod.mk.injEq, and_true] at h
      subst h
      exact ⟨c, hc, .inl ⟨h2, h1⟩⟩
    · exact all h
    · exact all h
    · obtain ⟨h4, d, hd, h5⟩ := findFrom_sound near x b _ _ _ h
      refine ⟨d, ?_, h5⟩
      rw [List.getElem?_drop] at hd
      rwa [Nat.add_sub_cancel' h4] at hd

private theorem findFrom_exact (x : K) (b : Bool) (cells : Cells K) (i : Nat)
    (hw : ∀ c ∈ cells, c.1 < c.2) (hs : cells.Pairwise fun a b => a.2 ≤ b.1) :
    findFrom exact x b cells i =
      (i + cells.countP (fun c => decide (Before b x c)), cells.any fun c => decide (In b x c)) := by
  induction cells generalizing i with
  | nil => simp [findFrom]
  | cons c r ih =>
    obtain ⟨h1, h2⟩ := List.pairwise_cons.mp hs
    have hc := hw c (by simp)
    have ih := ih (i + 1) (fun d hd => hw d (by simp [hd])) h2
    rw [findFrom]
    simp only [exact, decide_eq_true_eq]
    -- the cells behind a value that is before the end of the first one
    have later : ∀ d ∈ r, ¬ In b x d ∨ (b = true ∧ c.2 ≤ x) ∨ (b = false ∧ c.2 < x) := by
      intro d hd
      by_cases hin : In b x d
      · right
        have := h1 d hd
        cases b with
        | true => simp only [In, if_true] at hin; exact .inl ⟨rfl, this.trans hin.1⟩
        | false =>
          simp only [In, Bool.false_eq_true, if_false] at hin
          exact .inr ⟨rfl, this.trans_lt hin.1⟩
      · exact .inl hin
    have none_later : ¬ ((b = true ∧ c.2 ≤ x) ∨ (b = false ∧ c.2 < x)) →
        r.countP (fun c => decide (Before b x c)) = 0 ∧ (r.any fun c => decide (In b x c)) = false ∧
        ¬ Before b x c := by
      intro hn
      refine ⟨?_, ?_, ?_⟩
      · rw [List.countP_eq_zero]
        intro d hd
        simp only [decide_eq_true_eq]
        intro hb
        have h3 := h1 d hd
        have h4 := hw d (by simp [hd])
        refine hn ?_
        cases b with
        | true => simp only [Before, if_true] at hb; exact .inl ⟨rfl, by linarith⟩
        | false => simp only [Before, Bool.false_eq_true, if_false] at hb; exact .inr ⟨rfl, by linarith⟩
      · rw [List.any_eq_false]
        intro d hd
        simp only [decide_eq_true_eq]
        intro hin
        rcases later d hd with h | h
        · exact h hin
        · exact hn h
      · intro hb
        refine hn ?_
        cases b with
        | true => exact .inl ⟨rfl, by simpa [Before] using hb⟩
        | false => exact .inr ⟨rfl, by simpa [Before] using hb⟩
    have goOn : ((b = true ∧ c.2 ≤ x) ∨ (b = false ∧ c.2 < x)) →
        findFrom exact x b r (i + 1) =
          (i + (c :: r).countP (fun c => decide (Before b x c)),
            (c :: r).any fun c => decide (In b x c)) := by
      intro hg
      have hb : Before b x c := by
        rcases hg with ⟨rfl, h⟩ | ⟨rfl, h⟩ <;> simpa [Before] using h
      have hn : ¬ In b x c := by
        rcases hg with ⟨rfl, h⟩ | ⟨rfl, h⟩
        · simp only [In, if_true]; exact fun h' => absurd h'.2 (not_lt.mpr h)
        · simp only [In, Bool.false_eq_true, if_false]; exact fun h' => absurd h'.2 (not_le.mpr h)
      rw [ih, List.countP_cons, List.any_cons, if_pos (by simpa using hb), decide_eq_false hn,
        Bool.false_or]
      congr 1; omega
    have stop : ¬ ((b = true ∧ c.2 ≤ x) ∨ (b = false ∧ c.2 < x)) →
        (i, decide (In b x c)) = (i + (c :: r).countP (fun c => decide (Before b x c)),
            (c :: r).any fun c => decide (In b x c)) := by
      intro hg
      obtain ⟨e1, e2, e3⟩ := none_later hg
      rw [List.countP_cons, List.any_cons, e1, e2, if_neg (by simpa using e3), Bool.or_false]
      rfl
    by_cases k1 : x = c.1
    · rw [if_pos k1]
      rw [← stop (by rintro (⟨-, h⟩ | ⟨-, h⟩) <;> linarith)]
      cases b with
      | true => simp [In, k1, hc]
      | false => simp [In, k1]
    rw [if_neg k1]
    by_cases k2 : x = c.2
    · rw [if_pos k2]
      cases b with
      | true => simpa using goOn (.inl ⟨rfl, k2.ge⟩)
      | false =>
        rw [← stop (by rintro (⟨h, -⟩ | ⟨-, h⟩); · cases h
                       · linarith)]
        simp [In, k2, hc]
    rw [if_neg k2]
    by_cases k3 : x < c.1
    · rw [if_pos k3, ← stop (by rintro (⟨-, h⟩ | ⟨-, h⟩) <;> linarith)]
      cases b with
      | true => simp [In, k3]
      | false => simp only [In, Bool.false_eq_true, if_false, Prod.mk.injEq, true_and]; symm
                 rw [decide_eq_false_iff_not]; exact fun h => absurd h.1 (not_lt.mpr k3.le)
    rw [if_neg k3]
    by_cases k4 : x < c.2
    · rw [if_pos k4, ← stop (by rintro (⟨-, h⟩ | ⟨-, h⟩) <;> linarith)]
      have : c.1 < x := lt_of_le_of_ne (not_lt.mp k3) (Ne.symm k1)
      cases b with
      | true => simp [In, k4, this.le]
      | false => simp [In, k4.le, this]
    rw [if_neg k4]
    have : c.2 < x := lt_of_le_of_ne (not_lt.mp k4) (Ne.symm k2)
    exact goOn (by cases b with
      | true => exact .inl ⟨rfl, this.le⟩
      | false => exact .inr ⟨rfl, this⟩)

private theorem find_exact (cells : Cells K) (hv : Valid cells) (x : K) (b : Bool) (hint : Nat) :
    find exact cells x b hint =
      (cells.countP (fun c => decide (Before b x c)), cells.any fun c => decide (In b x c)) := by
  obtain ⟨-, hw, hs⟩ := hv
  have hall := findFrom_exact x b cells 0 hw hs
  rw [Nat.zero_add] at hall
  unfold find
  cases hc : cells[hint]? with
  | none => exact hall
  | some c =>
    simp only [exact, decide_eq_true_eq]
    obtain ⟨hlt, hce⟩ := List.getElem?_eq_some_iff.mp hc
    -- the cells before the hint
    have hsplit : cells = cells.take hint ++ cells.drop hint := (List.take_append_drop _ _).symm
    have hmem : c ∈ cells.drop hint := by
      rw [List.drop_eq_getElem_cons hlt, hce]; simp
    have hpre : ∀ d ∈ cells.take hint, d.2 ≤ c.1 := by
      intro d hd
      rw [hsplit] at hs
      exact (List.pairwise_append.mp hs).2.2 d hd c hmem
    have skip : c.1 < x → findFrom exact x b (cells.drop hint) hint =
        (cells.countP (fun c => decide (Before b x c)), cells.any fun c => decide (In b x c)) := by
      intro hx
      rw [findFrom_exact x b _ _ (fun d hd => hw d (List.mem_of_mem_drop hd)) (hs.sublist (List.drop_sublist _ _))]
      have e1 : (cells.take hint).countP (fun c => decide (Before b x c)) = hint := by
        have : (cells.take hint).length = hint := by rw [List.length_take]; omega
        rw [List.countP_eq_length.mpr ?_, this]
        intro d hd
        have := hpre d hd
        cases b with
        | true => simp only [Before, if_true, decide_eq_true_eq]; linarith
        | false => simp only [Before, Bool.false_eq_true, if_false, decide_eq_true_eq]; linarith
      have e2 : ((cells.take hint).any fun c => decide (In b x c)) = false := by
        rw [List.any_eq_false]
        intro d hd
        have := hpre d hd
        simp only [decide_eq_true_eq]
        cases b with
        | true => simp only [In, if_true]; exact fun h => absurd h.2 (not_lt.mpr (by linarith))
        | false => simp only [In, Bool.false_eq_true, if_false]; exact fun h => absurd h.2 (not_le.mpr (by linarith))
      conv_rhs => rw [hsplit]
      rw [List.countP_append, List.any_append, e1, e2, Bool.false_or]
    by_cases h1 : x = c.1
    · rw [if_pos h1]
      cases b with
      | false => simpa using hall
      | true =>
        rw [if_pos rfl]
        -- the loop finds the cell as well
        have := findFrom_exact x true (cells.drop hint) hint
          (fun d hd => hw d (List.mem_of_mem_drop hd)) (hs.sublist (List.drop_sublist _ _))
        rw [List.drop_eq_getElem_cons hlt, hce, findFrom, exact, if_pos (by simpa using h1)] at this
        rw [this]
        have e1 : (cells.take hint).countP (fun c => decide (Before true x c)) = hint := by
          have : (cells.take hint).length = hint := by rw [List.length_take]; omega
          rw [List.countP_eq_length.mpr ?_, this]
          intro d hd
          have := hpre d hd
          simp only [Before, if_true, decide_eq_true_eq]; linarith
        have e2 : ((cells.take hint).any fun c => decide (In true x c)) = false := by
          rw [List.any_eq_false]
          intro d hd
          have := hpre d hd
          simp only [decide_eq_true_eq, In, if_true]
          exact fun h => absurd h.2 (not_lt.mpr (by linarith))
        conv_rhs => rw [hsplit]
        rw [List.countP_append, List.any_append, e1, e2, Bool.false_or, List.drop_eq_getElem_cons hlt, hce]
    rw [if_neg h1]
    by_cases h2 : x < c.1
    · rw [if_pos h2]; exact hall
    · rw [if_neg h2]
      exact skip (lt_of_le_of_ne (not_lt.mp h2) (Ne.symm h1))

private theorem count_index (b : Bool) (x : K) (cells : Cells K) (hv : Valid cells) (i : Nat) (c : K × K)
    (hc : cells[i]? = some c) (hin : In b x c) : cells.countP (fun c => decide (Before b x c)) = i := by
  obtain ⟨-, hw, hs⟩ := hv
  obtain ⟨hlt, hce⟩ := List.getElem?_eq_some_iff.mp hc
  have hsplit : cells = cells.take i ++ c :: cells.drop (i + 1) := by
    rw [← hce, ← List.drop_eq_getElem_cons hlt, List.take_append_drop]
  rw [hsplit] at hs
  obtain ⟨-, h2, h3⟩ := List.pairwise_append.mp hs
  rw [List.pairwise_cons] at h2
  rw [hsplit, List.countP_append, List.countP_cons]
  have hlen : (cells.take i).length = i := by rw [List.length_take]; omega
  have e1 : (cells.take i).countP (fun c => decide (Before b x c)) = i := by
    rw [List.countP_eq_length.mpr ?_, hlen]
    intro d hd
    have := h3 d hd c (by simp)
    cases b with
    | true => simp only [In, if_true] at hin; simp only [Before, if_true, decide_eq_true_eq]; linarith [hin.1]
    | false =>
      simp only [In, Bool.false_eq_true, if_false] at hin
      simp only [Before, Bool.false_eq_true, if_false, decide_eq_true_eq]; linarith [hin.1]
  have e2 : (cells.drop (i + 1)).countP (fun c => decide (Before b x c)) = 0 := by
    rw [List.countP_eq_zero]
    intro d hd
    have k1 := h2.1 d hd
    have k2 := hw d (List.mem_of_mem_drop hd)
    cases b with
    | true =>
      simp only [In, if_true] at hin
      simp only [Before, if_true, decide_eq_true_eq]; intro; linarith [hin.2]
    | false =>
      simp only [In, Bool.false_eq_true, if_false] at hin
      simp only [Before, Bool.false_eq_true, if_false, decide_eq_true_eq]; intro; linarith [hin.2]
  have e3 : ¬ Before b x c := by
    cases b with
    | true => simp only [In, if_true] at hin; simp only [Before, if_true]; intro; linarith [hin.2]
    | false =>
      simp only [In, Bool.false_eq_true, if_false] at hin
      simp only [Before, Bool.false_eq_true, if_false]; intro; linarith [hin.2]
  rw [e1, e2, if_neg (by simpa using e3)]
  rfl

/-- C48: the cell that contains a value is found, whatever the hint. -/
theorem find_inside (cells : Cells K) (hv : Valid cells) (x : K) (b : Bool) (hint i : Nat) (c : K × K)
    (hc : cells[i]? = some c) (hin : In b x c) : find exact cells x b hint = (i, true) := by
  rw [find_exact cells hv, count_index b x cells hv i c hc hin]
  congr 1
  rw [List.any_eq_true]
  exact ⟨c, List.mem_of_getElem? hc, by simpa using hin⟩

/-- C48: a value that lies in no cell is not found; the index is then that of the next higher cell: the
cells below it end before the value, the others start behind it. -/
theorem find_outside (cells : Cells K) (hv : Valid cells) (x : K) (b : Bool) (hint : Nat)
    (h : ∀ c ∈ cells, ¬ In b x c) :
    ∃ i, find exact cells x b hint = (i, false) ∧ i ≤ cells.length ∧
      ∀ j c, cells[j]? = some c → if j < i then c.2 ≤ x else x ≤ c.1 := by
  rw [find_exact cells hv]
  have hany : (cells.any fun c => decide (In b x c)) = false := by
    rw [List.any_eq_false]; intro c hc; simpa using h c hc
  rw [hany]
  refine ⟨_, rfl, List.countP_le_length, ?_⟩
  obtain ⟨-, hw, hs⟩ := hv
  -- not in a cell and not behind it: before it
  have hcase : ∀ c ∈ cells, ¬ Before b x c → x ≤ c.1 := by
    intro c hc hb
    have := h c hc
    cases b with
    | true =>
      simp only [In, if_true, not_and, not_lt] at this
      simp only [Before, if_true, not_le] at hb
      by_contra hx
      exact absurd (this (not_le.mp hx).le) (not_le.mpr hb)
    | false =>
      simp only [In, Bool.false_eq_true, if_false, not_and, not_le] at this
      simp only [Before, Bool.false_eq_true, if_false, not_lt] at hb
      by_contra hx
      exact absurd (this (not_le.mp hx)) (not_lt.mpr hb)
  have hbef : ∀ c, Before b x c → c.2 ≤ x := by
    intro c hb
    cases b with
    | true => simpa [Before] using hb
    | false => simp only [Before, Bool.false_eq_true, if_false] at hb; exact hb.le
  clear hany h
  induction cells with
  | nil => simp
  | cons c r ih =>
    obtain ⟨h1, h2⟩ := List.pairwise_cons.mp hs
    have ih := ih (fun d hd => hw d (by simp [hd])) h2 (fun d hd => hcase d (by simp [hd]))
    intro j d hd
    by_cases hb : Before b x c
    · have hcnt : (c :: r).countP (fun c => decide (Before b x c)) =
          r.countP (fun c => decide (Before b x c)) + 1 := by
        rw [List.countP_cons, if_pos (by simpa using hb)]
      rw [hcnt]
      cases j with
      | zero =>
        simp at hd; subst hd
        rw [if_pos (by omega)]; exact hbef _ hb
      | succ j =>
        have := ih j d (by simpa using hd)
        by_cases hj : j < r.countP fun c => decide (Before b x c)
        · rw [if_pos hj] at this; rw [if_pos (by omega)]; exact this
        · rw [if_neg hj] at this; rw [if_neg (by omega)]; exact this
    · have hx := hcase c (by simp) hb
      have hz : (c :: r).countP (fun c => decide (Before b x c)) = 0 := by
        rw [List.countP_eq_zero]
        intro e he
        simp only [decide_eq_true_eq]
        rcases List.mem_cons.mp he with rfl | he
        · exact hb
        · intro hbe
          have k1 := h1 e he
          have k2 := hbef e hbe
          have k3 := hw e (by simp [he])
          have k4 := hw c (by simp)
          linarith
      rw [hz, if_neg (by omega)]
      cases j with
      | zero => simp at hd; subst hd; exact hx
      | succ j =>
        have hd' : d ∈ r := List.mem_of_getElem? (by simpa using hd)
        have k1 := h1 d hd'
        have k4 := hw c (by simp)
        linarith

/-- C48: `locate` gives the cell that contains the value. -/
theorem locate_inside (cells : Cells K) (hv : Valid cells) (x : K) (b : Bool) (hint i : Nat) (c : K × K)
    (hc : cells[i]? = some c) (hin : In b x c) : locate exact cells x b hint = .ok i := by
  simp only [locate]; rw [find_inside cells hv x b hint i c hc hin]; rfl

/-- C48: `locate` throws for a value that lies in no cell. -/
theorem locate_outside (cells : Cells K) (hv : Valid cells) (x : K) (b : Bool) (hint : Nat)
    (h : ∀ c ∈ cells, ¬ In b x c) : locate exact cells x b hint = .error .throws := by
  obtain ⟨i, e, -⟩ := find_outside cells hv x b hint h
  simp only [locate]; rw [e]; rfl

/-! ## Regular axes -/

/-- C48: the cells of a regular axis. -/
theorem regular_cell (start width : K) (n i : Nat) (h : i < n) :
    (regularCells start width n)[i]? = some (start + i * width, start + (i + 1) * width) := by
  induction n generalizing start i with
  | zero => omega
  | succ n ih =>
    rw [regularCells]
    cases i with
    | zero => simp
    | succ i =>
      rw [List.getElem?_cons_succ, ih _ _ (by omega)]
      push_cast
      congr 1
      ext <;> ring

theorem regular_length (start width : K) (n : Nat) : (regularCells start width n).length = n := by
  induction n generalizing start with
  | zero => rfl
  | succ n ih => rw [regularCells, List.length_cons, ih]

private theorem regular_ge (start width : K) (hw : 0 < width) (n : Nat) :
    ∀ c ∈ regularCells start width n, start ≤ c.1 ∧ c.1 < c.2 := by
  induction n generalizing start with
  | zero => simp [regularCells]
  | succ n ih =>
    intro c hc
    rw [regularCells, List.mem_cons] at hc
    rcases hc with rfl | hc
    · exact ⟨le_refl _, by simpa using hw⟩
    · have := ih _ c hc; exact ⟨by linarith [this.1], this.2⟩

/-- C48: a regular axis is valid, so that the theorems on `find` apply to it. -/
theorem regular_valid (start width : K) (n : Nat) (hw : 0 < width) (hn : 0 < n) :
    Valid (regularCells start width n) := by
  refine ⟨?_, fun c hc => (regular_ge start width hw n c hc).2, ?_⟩
  · intro e
    have := regular_length start width n
    rw [e] at this; simp at this; omega
  · clear hn
    induction n generalizing start with
    | zero => simp [regularCells]
    | succ n ih =>
      rw [regularCells, List.pairwise_cons]
      exact ⟨fun c hc => (regular_ge _ _ hw n c hc).1, ih _⟩

/-! ## Examples -/

example : Valid ([(0, 1), (1, 3), (4, 5)] : Cells ℚ) :=
  ⟨by decide, by decide +kernel, by decide +kernel⟩
example : find exact ([(0, 1), (1, 3), (4, 5)] : Cells ℚ) 1 true 0 = (1, true) ∧
    find exact ([(0, 1), (1, 3), (4, 5)] : Cells ℚ) 1 false 2 = (0, true) ∧
    find exact ([(0, 1), (1, 3), (4, 5)] : Cells ℚ) (7 / 2) true 1 = (2, false) ∧
    find exact ([(0, 1), (1, 3), (4, 5)] : Cells ℚ) 5 true 1 = (3, false) := by decide +kernel
example : In (K := ℚ) false 1 (0, 1) ∧ In (K := ℚ) true 1 (1, 3) := by decide +kernel
example : ∀ c ∈ ([(0, 1), (1, 3), (4, 5)] : Cells ℚ), ¬ In true (7 / 2) c := by decide +kernel
example : regularCells (2 : ℚ) 3 2 = [(2, 5), (5, 8)] := by decide +kernel

end DP3.ParmGrid
