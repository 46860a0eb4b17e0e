import Verif.ParmGrid.SubsetProps
import Mathlib.Tactic.Tauto
import Mathlib.Tactic.IntervalCases

/-!
# C83: combining axes
-/

namespace DP3.ParmGrid

open DP3.StringTools

set_option linter.unusedSectionVars false

variable {K : Type} [Field K] [LinearOrder K] [IsStrictOrderedRing K]

/-- Cells without holes between them. -/
def Gapless (cells : Cells K) : Prop :=
  ∀ i c d, cells[i]? = some c → cells[i + 1]? = some d → c.2 = d.1

/-! ## Cells without holes -/

private theorem gapless_tail {c : K × K} {l : Cells K} (h : Gapless (c :: l)) : Gapless l := by
  intro i a b ha hb
  exact h (i + 1) a b (by simpa using ha) (by simpa using hb)

private theorem gapless_cons {c d : K × K} {l : Cells K} (h1 : c.2 = d.1) (h2 : Gapless (d :: l)) :
    Gapless (c :: d :: l) := by
  intro i a b ha hb
  cases i with
  | zero =>
    simp at ha hb
    rw [← ha, ← hb, h1]
  | succ i => exact h2 i a b (by simpa using ha) (by simpa using hb)

private theorem regular_gapless (s w : K) (n : Nat) : Gapless (regularCells s w n) := by
  intro i c d hc hd
  have h1 : i < n := by rw [← regular_length s w n]; exact (List.getElem?_eq_some_iff.mp hc).1
  have h2 : i + 1 < n := by rw [← regular_length s w n]; exact (List.getElem?_eq_some_iff.mp hd).1
  rw [regular_cell s w n _ h1] at hc
  rw [regular_cell s w n _ h2] at hd
  simp only [Option.some.injEq] at hc hd
  rw [← hc, ← hd]
  push_cast
  ring

/-- A value in the range of cells without holes is in one of them. -/
private theorem gapless_in (cells : Cells K) (hg : Gapless cells) (a b : K × K)
    (ha : cells.head? = some a) (hb : cells.getLast? = some b) (x : K) (h1 : a.1 ≤ x) (h2 : x < b.2) :
    ∃ (i : Nat) (c : K × K), cells[i]? = some c ∧ c.1 ≤ x ∧ x < c.2 := by
  induction cells generalizing a with
  | nil => simp at ha
  | cons c l ih =>
    have hca : c = a := by simpa using ha
    subst hca
    by_cases hx : x < c.2
    · exact ⟨0, c, rfl, h1, hx⟩
    · cases l with
      | nil => simp at hb; subst hb; exact absurd h2 hx
      | cons d l =>
        have hcd : c.2 = d.1 := hg 0 c d rfl rfl
        obtain ⟨i, e, he, h⟩ := ih (gapless_tail hg) d rfl (by simpa using hb) (by rw [← hcd]; exact not_lt.mp hx)
        exact ⟨i + 1, e, by rw [List.getElem?_cons_succ]; exact he, h⟩

private theorem valid_lt {cells : Cells K} (hv : Valid cells) {i j : Nat} {c d : K × K} (hij : i < j)
    (hc : cells[i]? = some c) (hd : cells[j]? = some d) : c.2 ≤ d.1 := by
  obtain ⟨-, -, hs⟩ := hv
  rw [List.pairwise_iff_getElem] at hs
  obtain ⟨h1, e1⟩ := List.getElem?_eq_some_iff.mp hc
  obtain ⟨h2, e2⟩ := List.getElem?_eq_some_iff.mp hd
  have := hs i j h1 h2 hij
  rw [e1, e2] at this
  exact this

private theorem valid_width {cells : Cells K} (hv : Valid cells) {i : Nat} {c : K × K}
    (hc : cells[i]? = some c) : c.1 < c.2 := hv.2.1 c (List.mem_of_getElem? hc)

/-- Two cells with a common inner value are the same. -/
private theorem valid_unique {cells : Cells K} (hv : Valid cells) {i j : Nat} {c d : K × K} {x : K}
    (hc : cells[i]? = some c) (hd : cells[j]? = some d) (h1 : c.1 ≤ x) (h2 : x < c.2) (h3 : d.1 ≤ x)
    (h4 : x < d.2) : i = j := by
  rcases Nat.lt_trichotomy i j with h | h | h
  · have := valid_lt hv h hc hd; exfalso; linarith
  · exact h
  · have := valid_lt hv h hd hc; exfalso; linarith

private theorem center_in {c : K × K} (h : c.1 < c.2) :
    c.1 < (c.1 + c.2) / 2 ∧ (c.1 + c.2) / 2 < c.2 := by
  constructor <;> linarith

private theorem find_center {cells : Cells K} (hv : Valid cells) {i : Nat} {c : K × K} {x : K}
    (hc : cells[i]? = some c) (h1 : c.1 ≤ x) (h2 : x < c.2) : find exact cells x true 0 = (i, true) :=
  find_inside cells hv x true 0 i c hc (by simpa [In] using ⟨h1, h2⟩)

/-! ## makeAxis -/

private theorem equal_widths (w : K) (c : K × K) (l : Cells K) (hc : c.2 - c.1 = w)
    (hw : ∀ d ∈ l, d.2 - d.1 = w) (hg : Gapless (c :: l)) :
    c :: l = regularCells c.1 w (l.length + 1) := by
  induction l generalizing c with
  | nil =>
    simp only [List.length_nil, regularCells]
    congr 1
    ext
    · rfl
    · show c.2 = c.1 + w; rw [← hc]; ring
  | cons d l ih =>
    rw [List.length_cons, regularCells]
    have e : c.1 + w = d.1 := by
      rw [← hg 0 c d rfl rfl, ← hc]; ring
    rw [e]
    congr 1
    · ext
      · rfl
      · exact hg 0 c d rfl rfl
    · exact ih d (hw d (by simp)) (fun x hx => hw x (by simp [hx])) (gapless_tail hg)

/-- C83: an axis made of cells without holes has these cells, regular or not. -/
theorem makeAxis_cells (cells : Cells K) (hv : Valid cells) (hg : Gapless cells) :
    ∃ ax, makeAxis exact cells = .ok ax ∧ ax.cells = cells ∧ ax.WF := by
  cases cells with
  | nil => exact absurd rfl hv.1
  | cons c r =>
    simp only [makeAxis]
    by_cases h : (r.all fun d => exact (c.2 - c.1) (d.2 - d.1)) = true
    · rw [if_pos h]
      have e : (regularAxis c.1 (c.2 - c.1) (c :: r).length).cells = c :: r := by
        show regularCells _ _ _ = _
        refine (equal_widths _ c r rfl ?_ hg).symm
        intro d hd
        have := List.all_eq_true.mp h d hd
        simp only [exact, decide_eq_true_eq] at this
        exact this.symm
      refine ⟨_, rfl, e, regularAxis_wf _ _ _ ?_ (by simp)⟩
      have := hv.2.1 c (by simp)
      linarith
    · rw [if_neg h]
      exact ⟨_, rfl, rfl, hv, by simp⟩

/-- C83: cells of the same width with a hole between them become an axis without the hole. -/
theorem makeAxis_hole :
    (makeAxis exact ([(0, 1), (2, 3)] : Cells ℚ)).toOption.map Axis.cells = some [(0, 1), (1, 2)] := by
  decide +kernel

/-! ## Joining cells -/

private theorem last_index {cells : Cells K} {b : K × K} (hb : cells.getLast? = some b) :
    0 < cells.length ∧ cells[cells.length - 1]? = some b := by
  rw [List.getLast?_eq_getElem?] at hb
  exact ⟨by have := (List.getElem?_eq_some_iff.mp hb).1; omega, hb⟩

private theorem head_index {cells : Cells K} {a : K × K} (ha : cells.head? = some a) :
    0 < cells.length ∧ cells[0]? = some a := by
  rw [List.head?_eq_getElem?] at ha
  exact ⟨(List.getElem?_eq_some_iff.mp ha).1, ha⟩

/-- Cells after others, when both touch. -/
private theorem valid_append {a b : Cells K} (ha : Valid a) (hb : Valid b) (ga : Gapless a) (gb : Gapless b)
    (x y : K × K) (hx : a.getLast? = some x) (hy : b.head? = some y) (h : x.2 = y.1) :
    Valid (a ++ b) ∧ Gapless (a ++ b) := by
  obtain ⟨hx0, hx1⟩ := last_index hx
  obtain ⟨hy0, hy1⟩ := head_index hy
  refine ⟨⟨by simp [ha.1], ?_, ?_⟩, ?_⟩
  · intro c hc
    rcases List.mem_append.mp hc with hc | hc
    · exact ha.2.1 c hc
    · exact hb.2.1 c hc
  · refine List.pairwise_append.mpr ⟨ha.2.2, hb.2.2, ?_⟩
    intro c hc d hd
    obtain ⟨i, hi⟩ := List.mem_iff_getElem?.mp hc
    obtain ⟨j, hj⟩ := List.mem_iff_getElem?.mp hd
    have hil := (List.getElem?_eq_some_iff.mp hi).1
    have h1 : c.2 ≤ x.2 := by
      rcases Nat.lt_or_ge i (a.length - 1) with hlt | hge
      · have := valid_lt ha hlt hi hx1
        have := valid_width ha hx1
        linarith
      · have : i = a.length - 1 := by omega
        rw [this, hx1] at hi
        rw [Option.some.inj hi]
    have h2 : y.1 ≤ d.1 := by
      rcases Nat.eq_zero_or_pos j with h0 | h0
      · rw [h0, hy1] at hj
        rw [Option.some.inj hj]
      · have := valid_lt hb h0 hy1 hj
        have := valid_width hb hy1
        linarith
    linarith
  · intro i c d hc hd
    rw [List.getElem?_append] at hc hd
    split_ifs at hc with h1
    · split_ifs at hd with h2
      · exact ga i c d hc hd
      · have e1 : i = a.length - 1 := by omega
        have e2 : i + 1 - a.length = 0 := by omega
        rw [e1, hx1] at hc
        rw [e2, hy1] at hd
        rw [← Option.some.inj hc, ← Option.some.inj hd, h]
    · split_ifs at hd with h2
      · omega
      · have : i + 1 - a.length = i - a.length + 1 := by omega
        rw [this] at hd
        exact gb _ c d hc hd

private theorem slice_append (a b : Cells K) : ((a ++ b).drop a.length).take b.length = b := by
  rw [List.drop_left, List.take_length]

/-- The cells of an axis are between two indices of a combined axis. -/
def Holds (new : Cells K) (s e : Nat) (old : Cells K) : Prop :=
  e = s + old.length ∧ (new.drop s).take old.length = old

/-- C83, what a combined axis is: without holes, both axes are in it, and any other cell fills the hole
between both. -/
def Combines (a b : Cells K) (r : Combined K) : Prop :=
  r.axis.WF ∧ Gapless r.axis.cells ∧ Holds r.axis.cells r.s1 r.e1 a ∧ Holds r.axis.cells r.s2 r.e2 b ∧
  ∀ i c, r.axis.cells[i]? = some c → (r.s1 ≤ i ∧ i < r.e1) ∨ (r.s2 ≤ i ∧ i < r.e2) ∨
    (a.getLast?.map Prod.snd = some c.1 ∧ b.head?.map Prod.fst = some c.2) ∨
    (b.getLast?.map Prod.snd = some c.1 ∧ a.head?.map Prod.fst = some c.2)

/-- The result for axes that do not overlap, the first before the second. -/
private theorem add_combines (a b : Cells K) (ha : Valid a) (hb : Valid b) (ga : Gapless a) (gb : Gapless b)
    (x y : K × K) (hx : a.getLast? = some x) (hy : b.head? = some y) (h : x.2 ≤ y.1) :
    ∃ ax, makeAxis exact (addCells exact a b x.2 y.1) = .ok ax ∧ ax.WF ∧ Gapless ax.cells ∧
      ax.cells = addCells exact a b x.2 y.1 ∧
      (ax.cells.take a.length = a) ∧
      ((ax.cells.drop (ax.cells.length - b.length)).take b.length = b) ∧
      b.length ≤ ax.cells.length ∧
      ∀ i c, ax.cells[i]? = some c → i < a.length ∨ ax.cells.length - b.length ≤ i ∨ c = (x.2, y.1) := by
  by_cases he : x.2 = y.1
  · have e : addCells exact a b x.2 y.1 = a ++ b := by simp [addCells, exact, he]
    obtain ⟨v, g⟩ := valid_append ha hb ga gb x y hx hy he
    rw [e]
    obtain ⟨ax, h1, h2, h3⟩ := makeAxis_cells _ v g
    refine ⟨ax, h1, h3, by rw [h2]; exact g, h2, by rw [h2, List.take_left], ?_, ?_, ?_⟩
    · rw [h2, List.length_append, Nat.add_sub_cancel]
      exact slice_append a b
    · rw [h2, List.length_append]; omega
    · intro i c hc
      rw [h2, List.length_append]
      omega
  · have hlt : x.2 < y.1 := lt_of_le_of_ne h he
    have e : addCells exact a b x.2 y.1 = a ++ (x.2, y.1) :: b := by simp [addCells, exact, he]
    have vh : Valid [(x.2, y.1)] := ⟨by simp, by simpa using hlt, by simp⟩
    have gh : Gapless [(x.2, y.1)] := by
      intro i c d hc hd
      simp at hd
    obtain ⟨v1, g1⟩ := valid_append vh hb gh gb (x.2, y.1) y rfl hy rfl
    obtain ⟨v, g⟩ := valid_append ha v1 ga g1 x (x.2, y.1) hx rfl rfl
    rw [e]
    obtain ⟨ax, h1, h2, h3⟩ := makeAxis_cells _ v g
    have el : ax.cells.length = a.length + 1 + b.length := by
      rw [h2]; simp; omega
    refine ⟨ax, h1, h3, by rw [h2]; exact g, h2, by rw [h2, List.take_left], ?_, by omega, ?_⟩
    · have : ax.cells.length - b.length = (a ++ [(x.2, y.1)]).length := by simp; omega
      rw [this, h2, ← List.append_assoc]
      exact slice_append _ b
    · intro i c hc
      rw [h2] at hc
      by_cases hi : i < a.length
      · exact .inl hi
      · by_cases hi2 : i = a.length
        · right; right
          rw [List.getElem?_append_right (by omega), hi2, Nat.sub_self] at hc
          simpa using hc.symm
        · right; left; omega

/-! ## The overlap -/

private theorem overlapOk_iff (a b : Cells K) (s1 s2 i n : Nat) :
    overlapOk exact a b s1 s2 i n = .ok () ↔
      ∀ k < n, ∃ c, a[s2 + (i + k)]? = some c ∧ b[s1 + (i + k)]? = some c := by
  induction n generalizing i with
  | zero => simp [overlapOk]
  | succ n ih =>
    rw [overlapOk]
    constructor
    · intro h
      split at h
      · rename_i c d hc hd
        split_ifs at h with heq
        have hcd : c = d := by
          simp only [exact, decide_eq_true_eq, or_self] at heq
          exact Prod.ext heq.1 heq.2
        intro k hk
        rcases Nat.eq_zero_or_pos k with h0 | h0
        · subst h0
          exact ⟨c, by simpa using hc, by rw [hcd]; simpa using hd⟩
        · have := (ih (i + 1)).mp h (k - 1) (by omega)
          have e : i + 1 + (k - 1) = i + k := by omega
          rw [e] at this
          exact this
      · exact absurd h (by simp)
    · intro h
      obtain ⟨c, hc, hd⟩ := h 0 (by omega)
      rw [Nat.add_zero] at hc hd
      rw [hc, hd]
      simp only [exact, decide_true, or_self, and_self, if_true]
      refine (ih (i + 1)).mpr fun k hk => ?_
      have := h (k + 1) (by omega)
      have e : i + 1 + k = i + (k + 1) := by omega
      rw [e]
      exact this

/-- When the overlap ends with the second axis, it has all its cells from there on. -/
private theorem overlap_end (a b : Cells K) (va : Valid a) (ga : Gapless a) (vb : Valid b)
    (sa sb nr : Nat) (hnr : 0 < nr)
    (heq : ∀ i < nr, ∃ c, a[sa + i]? = some c ∧ b[sb + i]? = some c)
    (a1 b1 : K × K) (ha1 : a.getLast? = some a1) (hb1 : b.getLast? = some b1) (hle : b1.2 ≤ a1.2)
    (hfind : nr = (find exact a ((b1.1 + b1.2) / 2) true 0).1 - sa + 1) : sb + nr = b.length := by
  obtain ⟨hbl, hbi⟩ := last_index hb1
  obtain ⟨hw1, hw2⟩ := center_in (valid_width vb hbi)
  obtain ⟨c, hc1, hc2⟩ := heq 0 hnr
  rw [Nat.add_zero] at hc1 hc2
  have hsb := (List.getElem?_eq_some_iff.mp hc2).1
  have hcb : c.1 ≤ b1.1 := by
    rcases Nat.lt_or_ge sb (b.length - 1) with h | h
    · have := valid_lt vb h hc2 hbi
      have := valid_width vb hc2
      linarith
    · have : sb = b.length - 1 := by omega
      rw [this, hbi] at hc2
      rw [Option.some.inj hc2]
  obtain ⟨a0, ha0⟩ : ∃ a0, a.head? = some a0 := by
    cases a with
    | nil => simp at ha1
    | cons x _ => exact ⟨x, rfl⟩
  obtain ⟨-, ha0i⟩ := head_index ha0
  have hac : a0.1 ≤ c.1 := by
    rcases Nat.eq_zero_or_pos sa with h | h
    · rw [h, ha0i] at hc1
      rw [Option.some.inj hc1]
    · have := valid_lt va h ha0i hc1
      have := valid_width va ha0i
      linarith
  obtain ⟨j, d, hd, hd1, hd2⟩ := gapless_in a ga a0 a1 ha0 ha1 ((b1.1 + b1.2) / 2) (by linarith) (by linarith)
  rw [find_center va hd hd1 hd2] at hfind
  simp only at hfind
  have hj : sa ≤ j := by
    by_contra h
    have := valid_lt va (by omega : j < sa) hd hc1
    linarith
  obtain ⟨d', hd', hb'⟩ := heq (j - sa) (by omega)
  have : sa + (j - sa) = j := by omega
  rw [this, hd] at hd'
  rw [← Option.some.inj hd'] at hb'
  have := valid_unique vb hb' hbi hd1 hd2 hw1.le hw2
  omega

private theorem slice_of_eq (a b : Cells K) (s : Nat)
    (heq : ∀ i < b.length, ∃ c, a[s + i]? = some c ∧ b[i]? = some c) : (a.drop s).take b.length = b := by
  apply List.ext_getElem?
  intro i
  rw [List.getElem?_take]
  split_ifs with h
  · rw [List.getElem?_drop]
    obtain ⟨c, h1, h2⟩ := heq i h
    rw [h1, h2]
  · rw [List.getElem?_eq_none (by omega)]

/-- The first axis up to the second, and the second. -/
private theorem join_combines (a b : Cells K) (va : Valid a) (ga : Gapless a) (vb : Valid b) (gb : Gapless b)
    (s nr : Nat) (hnr : 0 < nr) (heq : ∀ i < nr, ∃ c, a[s + i]? = some c ∧ b[i]? = some c)
    (hend : s + nr = a.length) :
    ∃ ax, makeAxis exact (a.take s ++ b) = .ok ax ∧ ax.WF ∧ Gapless ax.cells ∧
      ax.cells = a.take s ++ b ∧ ax.cells.take a.length = a ∧
      (ax.cells.drop s).take b.length = b ∧ ax.cells.length = s + b.length := by
  have hlen : (a.take s).length = s := by rw [List.length_take]; omega
  have hvg : Valid (a.take s ++ b) ∧ Gapless (a.take s ++ b) := by
    rcases Nat.eq_zero_or_pos s with h | h
    · rw [h, List.take_zero, List.nil_append]; exact ⟨vb, gb⟩
    · obtain ⟨c, hc1, hc2⟩ := heq 0 hnr
      have hx : (a.take s)[s - 1]? = some (a[s - 1]'(by omega)) := by
        rw [List.getElem?_take, if_pos (by omega), List.getElem?_eq_getElem]
      have hx' : a[s - 1]? = some (a[s - 1]'(by omega)) := List.getElem?_eq_getElem _
      refine valid_append ?_ vb ?_ gb (a[s - 1]'(by omega)) c ?_ ?_ ?_
      · refine ⟨?_, fun d hd => va.2.1 d (List.mem_of_mem_take hd), va.2.2.sublist (List.take_sublist _ _)⟩
        intro e
        rw [e] at hlen
        simp at hlen
        omega
      · intro i c d hc hd
        rw [List.getElem?_take] at hc hd
        split_ifs at hc hd
        exact ga i c d hc hd
      · rw [List.getLast?_eq_getElem?, hlen]; exact hx
      · rw [List.head?_eq_getElem?]; exact hc2
      · refine ga (s - 1) _ c hx' ?_
        have : s - 1 + 1 = s + 0 := by omega
        rw [this]; exact hc1
  obtain ⟨ax, h1, h2, h3⟩ := makeAxis_cells _ hvg.1 hvg.2
  have hslice : b.take nr = a.drop s := by
    apply List.ext_getElem?
    intro i
    rw [List.getElem?_take, List.getElem?_drop]
    split_ifs with h
    · obtain ⟨c, e1, e2⟩ := heq i h
      rw [e1, e2]
    · rw [List.getElem?_eq_none (by omega)]
  refine ⟨ax, h1, h3, by rw [h2]; exact hvg.2, h2, ?_, ?_, ?_⟩
  · rw [h2, List.take_append, hlen, List.take_of_length_le (by omega)]
    have : a.length - s = nr := by omega
    rw [this, hslice, List.take_append_drop]
  · rw [h2, List.drop_append, hlen, List.drop_of_length_le (by omega), Nat.sub_self, List.drop_zero,
      List.nil_append, List.take_length]
  · rw [h2, List.length_append, hlen]

/-- C83 (an exception or a read outside of the cells can occur for axes that do not fit, see
`combine_overrun`): if axes without holes can be combined, the combined axis has no holes, both axes are
in it where the indices tell, and there is at most a cell for the hole between them besides. -/
theorem combine_spec_partial (a b : Axis K) (ha : a.WF) (hb : b.WF) (ga : Gapless a.cells)
    (gb : Gapless b.cells) (r : Combined K) (h : combine exact a b = .ok r) : Combines a.cells b.cells r := by
  obtain ⟨a0, ha0⟩ : ∃ x, a.cells.head? = some x := by
    cases e : a.cells with
    | nil => exact absurd e ha.1.1
    | cons x _ => exact ⟨x, rfl⟩
  obtain ⟨b0, hb0⟩ : ∃ x, b.cells.head? = some x := by
    cases e : b.cells with
    | nil => exact absurd e hb.1.1
    | cons x _ => exact ⟨x, rfl⟩
  obtain ⟨a1, ha1⟩ : ∃ x, a.cells.getLast? = some x := ⟨_, List.getLast?_eq_getLast_of_ne_nil ha.1.1⟩
  obtain ⟨b1, hb1⟩ : ∃ x, b.cells.getLast? = some x := ⟨_, List.getLast?_eq_getLast_of_ne_nil hb.1.1⟩
  simp only [combine] at h
  rw [ha0, ha1, hb0, hb1] at h
  simp only at h
  split_ifs at h with h1 h2
  · -- the first axis comes first
    have hle : a1.2 ≤ b0.1 := by
      rcases h1 with h1 | h1
      · exact h1
      · simp only [exact, decide_eq_true_eq] at h1; exact h1.le
    obtain ⟨ax, e1, e2, e3, e4, e5, e6, e7, e8⟩ := add_combines a.cells b.cells ha.1 hb.1 ga gb a1 b0 ha1 hb0 hle
    rw [e1] at h
    simp only [combinedOf, Except.ok.injEq] at h
    subst h
    rw [← e4]
    refine ⟨e2, e3, ⟨by simp, by simpa using e5⟩, ⟨?_, e6⟩, ?_⟩
    · simp only; omega
    · intro i c hc
      simp only at hc ⊢
      have hil := (List.getElem?_eq_some_iff.mp hc).1
      rcases e8 i c hc with h | h | h
      · left; omega
      · right; left; omega
      · right; right; left
        rw [ha1, hb0, h]; exact ⟨rfl, rfl⟩
  · -- the second axis comes first
    have hle : b1.2 ≤ a0.1 := by
      rcases h2 with h2 | h2
      · exact h2
      · simp only [exact, decide_eq_true_eq] at h2; exact h2.le
    obtain ⟨ax, e1, e2, e3, e4, e5, e6, e7, e8⟩ := add_combines b.cells a.cells hb.1 ha.1 gb ga b1 a0 hb1 ha0 hle
    rw [e1] at h
    simp only [combinedOf, Except.ok.injEq] at h
    subst h
    rw [← e4]
    refine ⟨e2, e3, ⟨?_, e6⟩, ⟨by simp, by simpa using e5⟩, ?_⟩
    · simp only; omega
    · intro i c hc
      simp only at hc ⊢
      have hil := (List.getElem?_eq_some_iff.mp hc).1
      rcases e8 i c hc with h | h | h
      · right; left; omega
      · left; omega
      · right; right; right
        rw [hb1, ha0, h]; exact ⟨rfl, rfl⟩
  · -- overlap
    split at h
    · exact absurd h (by simp)
    · rename_i hok
      rw [overlapOk_iff] at hok
      simp only [Nat.zero_add] at hok
      have hs12 : (overlapStart exact a.cells b.cells a0 a1 b0 b1).1 = 0 ∨
          (overlapStart exact a.cells b.cells a0 a1 b0 b1).2.1 = 0 := by
        simp only [overlapStart]
        by_cases hlt : a0.1 < b0.1
        · left; rw [if_pos hlt]
        · right; rw [if_neg hlt]
      have hnr : (overlapStart exact a.cells b.cells a0 a1 b0 b1).2.2 =
          if b1.2 < a1.2 then
            (find exact a.cells ((b1.1 + b1.2) / 2) true 0).1 -
              (overlapStart exact a.cells b.cells a0 a1 b0 b1).2.1 + 1
          else (find exact b.cells ((a1.1 + a1.2) / 2) true 0).1 -
              (overlapStart exact a.cells b.cells a0 a1 b0 b1).1 + 1 := by
        simp only [overlapStart]
        split_ifs <;> rfl
      generalize (overlapStart exact a.cells b.cells a0 a1 b0 b1).1 = s1 at *
      generalize (overlapStart exact a.cells b.cells a0 a1 b0 b1).2.1 = s2 at *
      generalize (overlapStart exact a.cells b.cells a0 a1 b0 b1).2.2 = nr at *
      have hpos : 0 < nr := by rw [hnr]; split_ifs <;> omega
      have hend : s1 + nr = b.cells.length ∨ s2 + nr = a.cells.length := by
        by_cases hlt : b1.2 < a1.2
        · left
          rw [if_pos hlt] at hnr
          exact overlap_end a.cells b.cells ha.1 ga hb.1 s2 s1 nr hpos hok a1 b1 ha1 hb1 hlt.le hnr
        · right
          rw [if_neg hlt] at hnr
          refine overlap_end b.cells a.cells hb.1 gb ha.1 s1 s2 nr hpos ?_ b1 a1 hb1 ha1 (not_lt.mp hlt) hnr
          intro i hi
          obtain ⟨c, x, y⟩ := hok i hi
          exact ⟨c, y, x⟩
      have hb2 : s1 + nr ≤ b.cells.length ∧ s2 + nr ≤ a.cells.length := by
        obtain ⟨c, x, y⟩ := hok (nr - 1) (by omega)
        have := (List.getElem?_eq_some_iff.mp x).1
        have := (List.getElem?_eq_some_iff.mp y).1
        omega
      simp only [overlapAxis] at h
      split_ifs at h with c1 c2 c3
      · obtain ⟨rfl, rfl⟩ := c1
        simp only [Except.ok.injEq] at h
        subst h
        refine ⟨ha, ga, ⟨by simp, by simp⟩, ⟨rfl, ?_⟩, ?_⟩
        · simp only
          refine slice_of_eq _ _ _ fun i hi => ?_
          have := hok i hi
          rwa [Nat.zero_add] at this
        · intro i c hc
          have hil := (List.getElem?_eq_some_iff.mp hc).1
          simp only at hil ⊢
          left; omega
      · obtain ⟨rfl, rfl⟩ := c2
        simp only [Except.ok.injEq] at h
        subst h
        refine ⟨hb, gb, ⟨rfl, ?_⟩, ⟨by simp, by simp⟩, ?_⟩
        · simp only
          refine slice_of_eq _ _ _ fun i hi => ?_
          obtain ⟨c, x, y⟩ := hok i hi
          rw [Nat.zero_add] at x
          exact ⟨c, y, x⟩
        · intro i c hc
          have hil := (List.getElem?_eq_some_iff.mp hc).1
          simp only at hil ⊢
          right; left; omega
      · subst c3
        have hend : s2 + nr = a.cells.length := by
          rcases hend with h | h
          · exact absurd ⟨rfl, by omega⟩ c1
          · exact h
        obtain ⟨ax, e1, e2, e3, e4, e5, e6, e7⟩ := join_combines a.cells b.cells ha.1 ga hb.1 gb s2 nr hpos
          (fun i hi => by have := hok i hi; rwa [Nat.zero_add] at this) hend
        rw [e1] at h
        simp only [combinedOf, Except.ok.injEq] at h
        subst h
        refine ⟨e2, e3, ⟨by simp, by simpa using e5⟩, ⟨rfl, e6⟩, ?_⟩
        intro i c hc
        have hil := (List.getElem?_eq_some_iff.mp hc).1
        simp only at hil ⊢
        omega
      · have hs2 : s2 = 0 := by omega
        subst hs2
        have hend : s1 + nr = b.cells.length := by
          rcases hend with h | h
          · exact h
          · exact absurd ⟨rfl, by omega⟩ c2
        obtain ⟨ax, e1, e2, e3, e4, e5, e6, e7⟩ := join_combines b.cells a.cells hb.1 gb ha.1 ga s1 nr hpos
          (fun i hi => by obtain ⟨c, x, y⟩ := hok i hi; rw [Nat.zero_add] at x; exact ⟨c, y, x⟩) hend
        rw [e1] at h
        simp only [combinedOf, Except.ok.injEq] at h
        subst h
        refine ⟨e2, e3, ⟨rfl, e6⟩, ⟨by simp, by simpa using e5⟩, ?_⟩
        intro i c hc
        have hil := (List.getElem?_eq_some_iff.mp hc).1
        simp only at hil ⊢
        omega

/-- C83: axes that overlap by less than half of a cell make `combine` read behind the cells of an axis
instead of raising its exception. -/
theorem combine_overrun :
    combine exact (regularAxis (0 : ℚ) 4 1) (regularAxis 3 4 1) = .error .ub := by decide +kernel

/-! ## Axes that fit -/

private theorem makeAxis_ok (cells : Cells K) (h : cells ≠ []) : ∃ ax, makeAxis exact cells = .ok ax := by
  cases cells with
  | nil => exact absurd rfl h
  | cons c r =>
    simp only [makeAxis]
    split_ifs
    · exact ⟨_, rfl⟩
    · exact ⟨_, rfl⟩

private theorem slice_index {c a : Cells K} {p : Nat} (h : Holds c p (p + a.length) a) {i : Nat}
    (hi : i < a.length) : c[p + i]? = a[i]? := by
  have := congrArg (fun l => l[i]?) h.2
  simp only [List.getElem?_take, if_pos hi, List.getElem?_drop] at this
  exact this

/-- C83: axes that are both parts of an axis without holes can be combined. -/
theorem combine_fits (c : Cells K) (hc : Valid c) (a b : Axis K) (ha : a.WF) (hb : b.WF)
    (p q : Nat) (hp : Holds c p (p + a.cells.length) a.cells) (hq : Holds c q (q + b.cells.length) b.cells) :
    ∃ r, combine exact a b = .ok r := by
  obtain ⟨a0, ha0⟩ : ∃ x, a.cells.head? = some x := by
    cases e : a.cells with
    | nil => exact absurd e ha.1.1
    | cons x _ => exact ⟨x, rfl⟩
  obtain ⟨b0, hb0⟩ : ∃ x, b.cells.head? = some x := by
    cases e : b.cells with
    | nil => exact absurd e hb.1.1
    | cons x _ => exact ⟨x, rfl⟩
  obtain ⟨a1, ha1⟩ : ∃ x, a.cells.getLast? = some x := ⟨_, List.getLast?_eq_getLast_of_ne_nil ha.1.1⟩
  obtain ⟨b1, hb1⟩ : ∃ x, b.cells.getLast? = some x := ⟨_, List.getLast?_eq_getLast_of_ne_nil hb.1.1⟩
  obtain ⟨hna, ia0⟩ := head_index ha0
  obtain ⟨hnb, ib0⟩ := head_index hb0
  obtain ⟨-, ia1⟩ := last_index ha1
  obtain ⟨-, ib1⟩ := last_index hb1
  have ca0 : c[p]? = some a0 := by rw [← ia0, ← slice_index hp hna, Nat.add_zero]
  have cb0 : c[q]? = some b0 := by rw [← ib0, ← slice_index hq hnb, Nat.add_zero]
  have ca1 : c[p + (a.cells.length - 1)]? = some a1 := by rw [← ia1, slice_index hp (by omega)]
  have cb1 : c[q + (b.cells.length - 1)]? = some b1 := by rw [← ib1, slice_index hq (by omega)]
  have ca : ∀ i, p ≤ i → i < p + a.cells.length → a.cells[i - p]? = c[i]? := by
    intro i h1 h2
    rw [← slice_index hp (by omega : i - p < _)]; congr 1; omega
  have cb : ∀ i, q ≤ i → i < q + b.cells.length → b.cells[i - q]? = c[i]? := by
    intro i h1 h2
    rw [← slice_index hq (by omega : i - q < _)]; congr 1; omega
  have finda : ∀ i d, p ≤ i → i < p + a.cells.length → c[i]? = some d →
      find exact a.cells ((d.1 + d.2) / 2) true 0 = (i - p, true) := by
    intro i d h1 h2 hd
    obtain ⟨w1, w2⟩ := center_in (valid_width hc hd)
    exact find_center ha.1 ((ca i h1 h2).trans hd) w1.le w2
  have findb : ∀ i d, q ≤ i → i < q + b.cells.length → c[i]? = some d →
      find exact b.cells ((d.1 + d.2) / 2) true 0 = (i - q, true) := by
    intro i d h1 h2 hd
    obtain ⟨w1, w2⟩ := center_in (valid_width hc hd)
    exact find_center hb.1 ((cb i h1 h2).trans hd) w1.le w2
  simp only [combine]
  rw [ha0, ha1, hb0, hb1]
  simp only
  split_ifs with h1 h2
  · obtain ⟨ax, e⟩ := makeAxis_ok (addCells exact a.cells b.cells a1.2 b0.1) (by
      simp only [addCells]; split_ifs <;> simp [ha.1.1])
    rw [e]; exact ⟨_, rfl⟩
  · obtain ⟨ax, e⟩ := makeAxis_ok (addCells exact b.cells a.cells b1.2 a0.1) (by
      simp only [addCells]; split_ifs <;> simp [hb.1.1])
    rw [e]; exact ⟨_, rfl⟩
  · have hqp : q < p + a.cells.length := by
      by_contra hge
      exact h1 (.inl (valid_lt hc (by omega) ca1 cb0))
    have hpq : p < q + b.cells.length := by
      by_contra hge
      exact h2 (.inl (valid_lt hc (by omega) cb1 ca0))
    have hlt : a0.1 < b0.1 ↔ p < q := by
      constructor
      · intro h
        by_contra hge
        rcases Nat.eq_or_lt_of_le (not_lt.mp hge) with h' | h'
        · rw [h', ca0] at cb0
          rw [Option.some.inj cb0] at h
          exact lt_irrefl _ h
        · have := valid_lt hc h' cb0 ca0
          have := valid_width hc cb0
          linarith
      · intro h
        have := valid_lt hc h ca0 cb0
        have := valid_width hc ca0
        linarith
    have hgt : b1.2 < a1.2 ↔ q + b.cells.length < p + a.cells.length := by
      constructor
      · intro h
        by_contra hge
        rcases Nat.eq_or_lt_of_le (not_lt.mp hge) with h' | h'
        · have : q + (b.cells.length - 1) = p + (a.cells.length - 1) := by omega
          rw [this, ca1] at cb1
          rw [Option.some.inj cb1] at h
          exact lt_irrefl _ h
        · have := valid_lt hc (by omega) ca1 cb1
          have := valid_width hc cb1
          linarith
      · intro h
        have := valid_lt hc (by omega) cb1 ca1
        have := valid_width hc ca1
        linarith
    have hs1 : (overlapStart exact a.cells b.cells a0 a1 b0 b1).1 = p - q := by
      simp only [overlapStart]
      split_ifs with h
      · have := hlt.mp h; omega
      · have hle : q ≤ p := by
          by_contra h'
          exact h (hlt.mpr (by omega))
        rw [findb p a0 hle hpq ca0]
    have hs2 : (overlapStart exact a.cells b.cells a0 a1 b0 b1).2.1 = q - p := by
      simp only [overlapStart]
      split_ifs with h
      · have := hlt.mp h
        rw [finda q b0 this.le hqp cb0]
      · have hle : q ≤ p := by
          by_contra h'
          exact h (hlt.mpr (by omega))
        omega
    have hnr : (overlapStart exact a.cells b.cells a0 a1 b0 b1).2.2 =
        (if b1.2 < a1.2 then
            (find exact a.cells ((b1.1 + b1.2) / 2) true 0).1 -
              (overlapStart exact a.cells b.cells a0 a1 b0 b1).2.1
          else (find exact b.cells ((a1.1 + a1.2) / 2) true 0).1 -
              (overlapStart exact a.cells b.cells a0 a1 b0 b1).1) + 1 := by
        simp only [overlapStart]
    rw [hs1, hs2] at hnr
    rw [hs1, hs2]
    generalize (overlapStart exact a.cells b.cells a0 a1 b0 b1).2.2 = nr at *
    have hbound : q - p + nr ≤ a.cells.length ∧ p - q + nr ≤ b.cells.length := by
      by_cases h : b1.2 < a1.2
      · have h' := hgt.mp h
        rw [if_pos h, finda _ b1 (by omega) (by omega) cb1] at hnr
        simp only at hnr
        omega
      · have h' : ¬ q + b.cells.length < p + a.cells.length := fun h' => h (hgt.mpr h')
        rw [if_neg h, findb _ a1 (by omega) (by omega) ca1] at hnr
        simp only at hnr
        omega
    have hok : overlapOk exact a.cells b.cells (p - q) (q - p) 0 nr = .ok () := by
      rw [overlapOk_iff]
      intro k hk
      rw [Nat.zero_add]
      have e1 : a.cells[q - p + k]? = c[p + (q - p + k)]? := (slice_index hp (by omega)).symm
      have e2 : b.cells[p - q + k]? = c[q + (p - q + k)]? := (slice_index hq (by omega)).symm
      have e3 : q + (p - q + k) = p + (q - p + k) := by omega
      rw [e3] at e2
      have hl : q - p + k < a.cells.length := by omega
      refine ⟨a.cells[q - p + k], List.getElem?_eq_getElem hl, ?_⟩
      rw [e2, ← e1]
      exact List.getElem?_eq_getElem hl
    rw [hok]
    simp only [overlapAxis]
    split_ifs
    · exact ⟨_, rfl⟩
    · exact ⟨_, rfl⟩
    · obtain ⟨ax, e⟩ := makeAxis_ok (a.cells.take (q - p) ++ b.cells) (by simp [hb.1.1])
      rw [e]; exact ⟨_, rfl⟩
    · obtain ⟨ax, e⟩ := makeAxis_ok (b.cells.take (p - q) ++ a.cells) (by simp [ha.1.1])
      rw [e]; exact ⟨_, rfl⟩

/-! ## Comparing axes -/

/-- A range does not end in a hole of cells without holes. -/
theorem gapless_no_hole (cells : Cells K) (hv : Valid cells) (hg : Gapless cells) (x : K) :
    NotInHole cells x := by
  induction cells with
  | nil => exact absurd rfl hv.1
  | cons c l ih =>
    by_cases h1 : x ≤ c.1
    · right; left
      intro d hd
      rcases List.mem_cons.mp hd with rfl | hd
      · exact h1
      · have := (List.pairwise_cons.mp hv.2.2).1 d hd
        have := hv.2.1 c (by simp)
        linarith
    · by_cases h2 : x ≤ c.2
      · exact .inl ⟨c, by simp, not_le.mp h1, h2⟩
      · cases l with
        | nil =>
          right; right
          intro d hd
          rw [List.mem_singleton.mp hd]
          exact (not_le.mp h2).le
        | cons d l =>
          have hcd : c.2 = d.1 := hg 0 c d rfl rfl
          have vl : Valid (d :: l) :=
            ⟨by simp, fun e he => hv.2.1 e (List.mem_cons_of_mem _ he), (List.pairwise_cons.mp hv.2.2).2⟩
          rcases ih vl (gapless_tail hg) with ⟨e, he, h⟩ | h | h
          · exact .inl ⟨e, List.mem_cons_of_mem _ he, h⟩
          · exact absurd (h d (by simp)) (by rw [← hcd]; exact h2)
          · right; right
            intro e he
            rcases List.mem_cons.mp he with rfl | he
            · exact (not_le.mp h2).le
            · exact h e he

private theorem sameIntervals_iff (a b : Cells K) : sameIntervals exact a b = true ↔ a = b := by
  induction a generalizing b with
  | nil => cases b <;> simp [sameIntervals]
  | cons c l ih =>
    cases b with
    | nil => simp [sameIntervals]
    | cons d m =>
      have := ih m
      simp only [sameIntervals, exact, List.length_cons, List.zip_cons_cons, List.all_cons, Bool.and_eq_true,
        beq_iff_eq, Nat.add_right_cancel_iff, decide_eq_true_eq] at this ⊢
      rw [List.cons.injEq, ← this, Prod.ext_iff]
      tauto

/-- The cells of an axis in a range. -/
def inRange (cells : Cells K) (start stop : K) : Cells K :=
  cells.filter fun c => decide (start < c.2) && decide (c.1 < stop)

private theorem inRange_none (cells : Cells K) (start stop : K) :
    (¬ ∃ c ∈ cells, start < c.2 ∧ c.1 < stop) ↔ inRange cells start stop = [] := by
  rw [inRange, List.filter_eq_nil_iff]
  push Not
  refine forall₂_congr fun c _ => ?_
  simp

/-- Two axes without holes overlap in both directions or not at all. -/
private theorem overlap_symm (a b : Cells K) (va : Valid a) (vb : Valid b) (ga : Gapless a)
    (a0 a1 b0 b1 : K × K) (ha0 : a.head? = some a0) (ha1 : a.getLast? = some a1) (hb0 : b.head? = some b0)
    (hb1 : b.getLast? = some b1)
    (h : ∃ c ∈ b, a0.1 < c.2 ∧ c.1 < a1.2) : ∃ c ∈ a, b0.1 < c.2 ∧ c.1 < b1.2 := by
  obtain ⟨c, hc, h1, h2⟩ := h
  obtain ⟨hlb, ib1⟩ := last_index hb1
  obtain ⟨-, ib0⟩ := head_index hb0
  obtain ⟨k, hk⟩ := List.mem_iff_getElem?.mp hc
  have hkl := (List.getElem?_eq_some_iff.mp hk).1
  have wc := valid_width vb hk
  have hcb : c.2 ≤ b1.2 := by
    rcases Nat.lt_or_ge k (b.length - 1) with h | h
    · have := valid_lt vb h hk ib1
      have := valid_width vb ib1
      linarith
    · have : k = b.length - 1 := by omega
      rw [this, ib1] at hk
      rw [Option.some.inj hk]
  have hbc : b0.1 ≤ c.1 := by
    rcases Nat.eq_zero_or_pos k with h | h
    · rw [h, ib0] at hk
      rw [Option.some.inj hk]
    · have := valid_lt vb h ib0 hk
      have := valid_width vb ib0
      linarith
  obtain ⟨-, ia0⟩ := head_index ha0
  by_cases hm : a0.1 ≤ c.1
  · obtain ⟨i, d, hd, e1, e2⟩ := gapless_in a ga a0 a1 ha0 ha1 c.1 hm h2
    exact ⟨d, List.mem_of_getElem? hd, by linarith, by linarith⟩
  · refine ⟨a0, List.mem_of_getElem? ia0, ?_, ?_⟩
    · have := valid_width va ia0
      linarith [not_le.mp hm]
    · linarith

/-- C83: axes without holes agree if and only if their cells in the range of the other are the same. -/
theorem checkIntervals_iff (a b : Axis K) (ha : a.WF) (hb : b.WF) (ga : Gapless a.cells)
    (gb : Gapless b.cells) (a0 a1 b0 b1 : K × K) (ha0 : a.cells.head? = some a0)
    (ha1 : a.cells.getLast? = some a1) (hb0 : b.cells.head? = some b0) (hb1 : b.cells.getLast? = some b1) :
    ∃ r, checkIntervals exact a b = .ok r ∧
      (r = true ↔ inRange a.cells b0.1 b1.2 = inRange b.cells a0.1 a1.2) := by
  obtain ⟨n1, i1, e1, h1⟩ := subset_cells_partial a ha b0.1 b1.2 (gapless_no_hole _ ha.1 ga _)
  obtain ⟨n2, i2, e2, h2⟩ := subset_cells_partial b hb a0.1 a1.2 (gapless_no_hole _ hb.1 gb _)
  simp only [checkIntervals]
  rw [ha0, ha1, hb0, hb1]
  simp only
  rw [e1, e2]
  refine ⟨_, rfl, ?_⟩
  rw [sameIntervals_iff]
  by_cases hov : ∃ c ∈ a.cells, b0.1 < c.2 ∧ c.1 < b1.2
  · have hov' := overlap_symm b.cells a.cells hb.1 ha.1 gb b0 b1 a0 a1 hb0 hb1 ha0 ha1 hov
    rw [if_pos hov] at h1
    rw [if_pos hov'] at h2
    rw [h1.2.1, h2.2.1]
    rfl
  · have hov' : ¬ ∃ c ∈ b.cells, a0.1 < c.2 ∧ c.1 < a1.2 := fun h =>
      hov (overlap_symm a.cells b.cells ha.1 hb.1 ga a0 a1 b0 b1 ha0 ha1 hb0 hb1 h)
    rw [if_neg hov] at h1
    rw [if_neg hov'] at h2
    rw [h1, h2, (inRange_none _ _ _).mp hov, (inRange_none _ _ _).mp hov']
    simp

/-! ## Examples -/

example : Gapless sampleAxis.cells := by
  intro i c d hc hd
  have hi : i < 4 := (List.getElem?_eq_some_iff.mp hc).1
  interval_cases i <;> simp_all [sampleAxis] <;> simp [← hc, ← hd]

example : Gapless (regularCells (0 : ℚ) 2 5) := regular_gapless _ _ _

example : (combine exact (regularAxis (0 : ℚ) 2 3) (regularAxis 10 2 2)).toOption.map
      (fun r => (r.axis.cells, r.s1, r.e1, r.s2, r.e2)) =
    some ([(0, 2), (2, 4), (4, 6), (6, 10), (10, 12), (12, 14)], 0, 3, 4, 6) := by decide +kernel

example : (combine exact (regularAxis (4 : ℚ) 2 3) (regularAxis 0 2 4)).toOption.map
      (fun r => (r.axis.cells, r.s1, r.e1, r.s2, r.e2)) =
    some ([(0, 2), (2, 4), (4, 6), (6, 8), (8, 10)], 2, 5, 0, 4) := by decide +kernel

example : Holds (regularCells (0 : ℚ) 2 5) 2 5 (regularAxis (4 : ℚ) 2 3).cells :=
  ⟨by decide, by decide +kernel⟩
example : Holds (regularCells (0 : ℚ) 2 5) 0 4 (regularAxis (0 : ℚ) 2 4).cells :=
  ⟨by decide, by decide +kernel⟩

example : checkIntervals exact (regularAxis (4 : ℚ) 2 3) (regularAxis 0 2 4) = .ok true := by decide +kernel
example : checkIntervals exact (regularAxis (4 : ℚ) 2 3) (regularAxis 0 3 4) = .ok false := by decide +kernel

end DP3.ParmGrid
