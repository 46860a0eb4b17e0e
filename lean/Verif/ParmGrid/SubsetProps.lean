import Verif.ParmGrid.AxisProps

/-!
# C82: parts of an axis and compressed axes
-/

namespace DP3.ParmGrid

open DP3.StringTools

set_option linter.unusedSectionVars false

variable {K : Type} [Field K] [LinearOrder K] [IsStrictOrderedRing K]

/-- An axis as its constructors make it: the cells of a regular axis are those of its start and width, the
cells of an ordered axis are in order. -/
def Axis.WF (ax : Axis K) : Prop :=
  Valid ax.cells ∧ ∀ s w n, ax.reg = some (s, w, n) → ax.cells = regularCells s w n ∧ 0 < w

/-- Two numbers are the edges of the i-th cell. -/
def CellAt (cells : Cells K) (i : Nat) (lower upper : K) : Prop := cells[i]? = some (lower, upper)

/-! ## Regular axes -/

theorem regularAxis_wf (s w : K) (n : Nat) (hw : 0 < w) (hn : 0 < n) : (regularAxis s w n).WF := by
  refine ⟨regular_valid s w n hw hn, ?_⟩
  intro s' w' n' h
  simp only [regularAxis, Option.some.injEq, Prod.mk.injEq] at h
  obtain ⟨rfl, rfl, rfl⟩ := h
  exact ⟨rfl, hw⟩

private theorem regular_drop (s w : K) (n k : Nat) :
    (regularCells s w n).drop k = regularCells (s + k * w) w (n - k) := by
  induction k generalizing s n with
  | zero => simp
  | succ k ih =>
    cases n with
    | zero => simp [regularCells]
    | succ n =>
      rw [regularCells, List.drop_succ_cons, ih]
      congr 1
      · push_cast; ring
      · omega

private theorem regular_take (s w : K) (n k : Nat) (hk : k ≤ n) :
    (regularCells s w n).take k = regularCells s w k := by
  induction k generalizing s n with
  | zero => simp [regularCells]
  | succ k ih =>
    cases n with
    | zero => omega
    | succ n => rw [regularCells, regularCells, List.take_succ_cons, ih _ _ (by omega)]

private theorem centered_eq (c : K × K) : centered ((c.1 + c.2) / 2) (c.2 - c.1) = c := by
  unfold centered
  ext
  · show (c.1 + c.2) / 2 - (c.2 - c.1) / 2 = c.1; ring
  · show (c.1 + c.2) / 2 - (c.2 - c.1) / 2 + (c.2 - c.1) = c.2; ring

private theorem valid_sublist {a b : Cells K} (h : a.Sublist b) (hb : Valid b) (hne : a ≠ []) : Valid a :=
  ⟨hne, fun c hc => hb.2.1 c (h.subset hc), hb.2.2.sublist h⟩

/-- C82: the part of an axis between two indices has exactly those cells. -/
theorem doSubset_cells (ax : Axis K) (h : ax.WF) (start stop : Nat) (h1 : start ≤ stop)
    (h2 : start < ax.cells.length) :
    (doSubset ax start stop).cells = (ax.cells.take (stop + 1)).drop start ∧ (doSubset ax start stop).WF := by
  obtain ⟨hv, hr⟩ := h
  have htake : ax.cells.take (stop + 1) =
      ax.cells.take ((if ax.cells.length ≤ stop then ax.cells.length - 1 else stop) + 1) := by
    by_cases hs : ax.cells.length ≤ stop
    · rw [if_pos hs, List.take_of_length_le (by omega), List.take_of_length_le (by omega)]
    · rw [if_neg hs]
  have hne : (ax.cells.take (stop + 1)).drop start ≠ [] := by
    intro e
    have := congrArg List.length e
    simp only [List.length_drop, List.length_take, List.length_nil] at this
    omega
  have hval : Valid ((ax.cells.take (stop + 1)).drop start) :=
    valid_sublist ((List.drop_sublist _ _).trans (List.take_sublist _ _)) hv hne
  simp only [doSubset]
  rw [htake] at hval ⊢
  generalize hst : (if ax.cells.length ≤ stop then ax.cells.length - 1 else stop) = st at *
  have hst1 : start ≤ st := by rw [← hst]; split_ifs <;> omega
  have hst2 : st < ax.cells.length := by rw [← hst]; split_ifs <;> omega
  rw [if_neg (by omega)]
  cases hreg : ax.reg with
  | some p =>
    obtain ⟨s, w, n⟩ := p
    obtain ⟨hc, hw⟩ := hr s w n hreg
    simp only
    have hlen := regular_length s w n
    rw [← hc] at hlen
    refine ⟨?_, regularAxis_wf _ _ _ hw (by omega)⟩
    show regularCells _ _ _ = _
    rw [hc, regular_take _ _ _ _ (by omega), regular_drop]
    congr 1; omega
  | none =>
    simp only [centeredAxis, List.map_map]
    have : (ax.cells.take (st + 1)).drop start =
        List.map ((fun c => centered c.1 c.2) ∘ fun c => ((c.1 + c.2) / 2, c.2 - c.1))
          ((ax.cells.take (st + 1)).drop start) := by
      conv_lhs => rw [← List.map_id ((ax.cells.take (st + 1)).drop start)]
      refine List.map_congr_left fun c _ => ?_
      exact (centered_eq c).symm
    rw [← this]
    exact ⟨rfl, hval, by simp⟩

/-! ## Parts between two values -/

private theorem filter_prefix {α : Type} (p : α → Bool) (l : List α)
    (h : l.Pairwise fun a b => p b = true → p a = true) :
    l.filter p = l.take (l.countP p) ∧ l.filter (fun a => !p a) = l.drop (l.countP p) := by
  induction l with
  | nil => simp
  | cons a l ih =>
    obtain ⟨h1, h2⟩ := List.pairwise_cons.mp h
    obtain ⟨i1, i2⟩ := ih h2
    by_cases ha : p a = true
    · rw [List.filter_cons_of_pos ha, List.countP_cons_of_pos ha, List.take_succ_cons, List.drop_succ_cons, i1,
        List.filter_cons_of_neg (by simp [ha]), i2]
      exact ⟨rfl, rfl⟩
    · have hz : ∀ b ∈ l, ¬ p b = true := fun b hb hp => ha (h1 b hb hp)
      have hc : l.countP p = 0 := List.countP_eq_zero.mpr hz
      rw [List.filter_cons_of_neg ha, List.countP_cons_of_neg ha, hc, List.take_zero, List.drop_zero,
        List.filter_cons_of_pos (by simp [ha])]
      refine ⟨List.filter_eq_nil_iff.mpr hz, ?_⟩
      congr 1
      exact List.filter_eq_self.mpr fun b hb => by simpa using hz b hb

/-- The number of cells before a value is an index of an ordered axis, so the cells that overlap with an
interval are consecutive. -/
private theorem overlap_slice (cells : Cells K) (hv : Valid cells) (start stop : K) :
    cells.filter (fun c => decide (start < c.2) && decide (c.1 < stop)) =
      (cells.take (cells.countP fun c => decide (c.1 < stop))).drop
        (cells.countP fun c => decide (c.2 ≤ start)) := by
  obtain ⟨-, hw, hs⟩ := hv
  have hmono : cells.Pairwise fun a b => a.1 ≤ b.1 ∧ a.2 ≤ b.2 := by
    refine (List.Pairwise.and_mem.mp hs).imp ?_
    rintro a b ⟨ha, hb, h⟩
    have := hw a ha; have := hw b hb
    constructor <;> linarith
  have f1 := (filter_prefix (fun c : K × K => decide (c.1 < stop)) cells (hmono.imp (by
    intro a b h; simp only [decide_eq_true_eq]; exact fun hb => lt_of_le_of_lt h.1 hb))).1
  set n := cells.countP fun c => decide (c.1 < stop) with hn
  have f2 := (filter_prefix (fun c : K × K => decide (c.2 ≤ start)) (cells.take n)
    ((hmono.sublist (List.take_sublist _ _)).imp (by
      intro a b h; simp only [decide_eq_true_eq]; exact fun hb => le_trans h.2 hb))).2
  have f3 := filter_prefix (fun c : K × K => decide (c.2 ≤ start)) cells (hmono.imp (by
      intro a b h; simp only [decide_eq_true_eq]; exact fun hb => le_trans h.2 hb))
  set m := cells.countP fun c => decide (c.2 ≤ start) with hm
  have hcount : (cells.take n).countP (fun c => decide (c.2 ≤ start)) = min n m := by
    by_cases hnm : n ≤ m
    · rw [min_eq_left hnm, List.countP_eq_length.mpr ?_]
      · rw [List.length_take]
        have : n ≤ cells.length := List.countP_le_length
        omega
      · intro c hc
        have : c ∈ cells.take m := (List.take_subset_take_left _ hnm) hc
        rw [← f3.1] at this
        exact (List.mem_filter.mp this).2
    · have hnm : m ≤ n := by omega
      rw [min_eq_right hnm]
      have hmn : n = m + (n - m) := by omega
      rw [hmn, List.take_add, List.countP_append]
      have e1 : (cells.take m).countP (fun c => decide (c.2 ≤ start)) = m := by
        rw [List.countP_eq_length.mpr ?_]
        · rw [List.length_take]
          have : m ≤ cells.length := List.countP_le_length
          omega
        · intro c hc
          rw [← f3.1] at hc
          exact (List.mem_filter.mp hc).2
      have e2 : ((cells.drop m).take (n - m)).countP (fun c => decide (c.2 ≤ start)) = 0 := by
        rw [List.countP_eq_zero]
        intro c hc
        have : c ∈ cells.drop m := List.mem_of_mem_take hc
        rw [← f3.2] at this
        simpa using (List.mem_filter.mp this).2
      rw [e1, e2]
      rfl
  have : cells.filter (fun c => decide (start < c.2) && decide (c.1 < stop)) =
      (cells.filter fun c => decide (c.1 < stop)).filter fun c => !decide (c.2 ≤ start) := by
    rw [List.filter_filter]
    refine List.filter_congr fun c _ => ?_
    simp only [← not_le, decide_not]
  rw [this, f1, f2, hcount]
  by_cases hnm : n ≤ m
  · rw [min_eq_left hnm, List.drop_of_length_le (by rw [List.length_take]; omega),
      List.drop_of_length_le (by rw [List.length_take]; omega)]
  · rw [min_eq_right (by omega)]

/-- The stop value is not in a hole between two cells. -/
def NotInHole (cells : Cells K) (stop : K) : Prop :=
  (∃ c ∈ cells, c.1 < stop ∧ stop ≤ c.2) ∨ (∀ c ∈ cells, stop ≤ c.1) ∨ (∀ c ∈ cells, c.2 ≤ stop)

/-- C82 (the end value may not lie in a hole between cells, see `subset_hole`): the part of an axis between
two values has exactly the cells that overlap with the interval; the index is that of the first of them.
Without such cells it is the default axis. -/
theorem subset_cells_partial (ax : Axis K) (h : ax.WF) (start stop : K)
    (hole : NotInHole ax.cells stop) :
    ∃ new idx, subset exact ax start stop = .ok (new, idx) ∧
      (if ∃ c ∈ ax.cells, start < c.2 ∧ c.1 < stop then
        new.WF ∧ new.cells = ax.cells.filter (fun c => decide (start < c.2) && decide (c.1 < stop)) ∧
        (ax.cells.take idx).filter (fun c => decide (start < c.2)) = [] ∧
        ∃ c, ax.cells[idx]? = some c ∧ start < c.2
      else new = defaultAxis) := by
  have hv := h.1
  have hv' := hv
  obtain ⟨hne, hw, hs⟩ := hv'
  obtain ⟨a, l, hcons⟩ := List.exists_cons_of_ne_nil hne
  have ha : ax.cells.head? = some a := by rw [hcons]; rfl
  obtain ⟨b, hb⟩ : ∃ b, ax.cells.getLast? = some b := ⟨_, List.getLast?_eq_getLast_of_ne_nil hne⟩
  have hbm : b ∈ ax.cells := List.mem_of_getLast? hb
  have ham : a ∈ ax.cells := by rw [hcons]; simp
  have hfirst : ∀ c ∈ ax.cells, a.1 ≤ c.1 := by
    intro c hc
    rw [hcons] at hc hs
    rcases List.mem_cons.mp hc with rfl | hc
    · exact le_refl _
    · have := (List.pairwise_cons.mp hs).1 c hc
      have := hw a ham; linarith
  have hlastc : ∀ c ∈ ax.cells, c.2 ≤ b.2 ∧ c.1 ≤ b.1 := by
    intro c hc
    obtain ⟨ini, hini⟩ := List.getLast?_eq_some_iff.mp hb
    have hs := hs
    rw [hini] at hc hs
    rcases List.mem_append.mp hc with hc | hc
    · have h1 := (List.pairwise_append.mp hs).2.2 c hc b (by simp)
      have := hw b hbm
      have := hw c (by rw [hini]; exact List.mem_append_left _ hc)
      constructor <;> linarith
    · simp at hc; subst hc; exact ⟨le_refl _, le_refl _⟩
  have hfilter := overlap_slice ax.cells hv start stop
  have hlen : 0 < ax.cells.length := List.length_pos_iff.mpr hne
  simp only [subset]
  rw [ha, hb]
  simp only
  -- the start index
  have hsinx : (if a.1 < start then (find exact ax.cells start true 0).1 else 0) =
      ax.cells.countP (fun c => decide (c.2 ≤ start)) := by
    by_cases has : a.1 < start
    · rw [if_pos has]
      by_cases hin : ∃ c ∈ ax.cells, In true start c
      · obtain ⟨c, hc, hin⟩ := hin
        obtain ⟨i, hi⟩ := List.mem_iff_getElem?.mp hc
        rw [find_inside _ hv _ _ _ i c hi hin]
        obtain ⟨hlt, hce⟩ := List.getElem?_eq_some_iff.mp hi
        have hsplit : ax.cells = ax.cells.take i ++ c :: ax.cells.drop (i + 1) := by
          rw [← hce, ← List.drop_eq_getElem_cons hlt, List.take_append_drop]
        simp only [In, if_true] at hin
        have hs' := hs
        rw [hsplit] at hs'
        obtain ⟨-, h2, h3⟩ := List.pairwise_append.mp hs'
        rw [List.pairwise_cons] at h2
        rw [hsplit, List.countP_append, List.countP_cons]
        have e1 : (ax.cells.take i).countP (fun c => decide (c.2 ≤ start)) = i := by
          rw [List.countP_eq_length.mpr ?_, List.length_take, min_eq_left hlt.le]
          intro d hd
          have := h3 d hd c (by simp)
          simp only [decide_eq_true_eq]; linarith [hin.1]
        have e2 : (ax.cells.drop (i + 1)).countP (fun c => decide (c.2 ≤ start)) = 0 := by
          rw [List.countP_eq_zero]
          intro d hd
          have := h2.1 d hd
          have := hw d (List.mem_of_mem_drop hd)
          simp only [decide_eq_true_eq]; intro; linarith [hin.2]
        rw [e1, e2, if_neg (by simpa using hin.2)]
        rfl
      · push Not at hin
        obtain ⟨i, he, hi, hj⟩ := find_outside ax.cells hv start true 0 hin
        rw [he]
        have hsplit : ax.cells = ax.cells.take i ++ ax.cells.drop i := (List.take_append_drop _ _).symm
        rw [hsplit, List.countP_append]
        have e1 : (ax.cells.take i).countP (fun c => decide (c.2 ≤ start)) = i := by
          rw [List.countP_eq_length.mpr ?_, List.length_take, min_eq_left hi]
          intro d hd
          obtain ⟨j, hjd⟩ := List.mem_iff_getElem?.mp hd
          rw [List.getElem?_take] at hjd
          split_ifs at hjd with hji
          have := hj j d hjd
          rw [if_pos hji] at this
          simpa using this
        have e2 : (ax.cells.drop i).countP (fun c => decide (c.2 ≤ start)) = 0 := by
          rw [List.countP_eq_zero]
          intro d hd
          obtain ⟨j, hjd⟩ := List.mem_iff_getElem?.mp hd
          rw [List.getElem?_drop] at hjd
          have := hj _ d hjd
          rw [if_neg (by omega)] at this
          have := hw d (List.mem_of_mem_drop hd)
          simp only [decide_eq_true_eq]; intro; linarith
        rw [e1, e2]
        rfl
    · rw [if_neg has]
      symm
      rw [List.countP_eq_zero]
      intro c hc
      have := hfirst c hc
      have := hw c hc
      simp only [decide_eq_true_eq]; intro; linarith
  rw [hsinx]
  generalize hm : ax.cells.countP (fun c => decide (c.2 ≤ start)) = m at *
  -- what follows when the indices are right
  have final : ∀ e, ax.cells.countP (fun c => decide (c.1 < stop)) = e + 1 → e < ax.cells.length →
      ∃ new idx, (Except.ok (doSubset ax m e, m) : Except Err (Axis K × Nat)) = .ok (new, idx) ∧
      (if ∃ c ∈ ax.cells, start < c.2 ∧ c.1 < stop then
        new.WF ∧ new.cells = ax.cells.filter (fun c => decide (start < c.2) && decide (c.1 < stop)) ∧
        (ax.cells.take idx).filter (fun c => decide (start < c.2)) = [] ∧
        ∃ c, ax.cells[idx]? = some c ∧ start < c.2
      else new = defaultAxis) := by
    intro e he hel
    refine ⟨_, _, rfl, ?_⟩
    rw [he] at hfilter
    by_cases hme : m ≤ e
    · have hne' : ax.cells.filter (fun c => decide (start < c.2) && decide (c.1 < stop)) ≠ [] := by
        rw [hfilter]
        intro e0
        have := congrArg List.length e0
        simp only [List.length_drop, List.length_take, List.length_nil] at this
        omega
      rw [if_pos]
      · obtain ⟨d1, d2⟩ := doSubset_cells ax h m e hme (by omega)
        have hpre := filter_prefix (fun c : K × K => decide (c.2 ≤ start)) ax.cells (by
          refine (List.Pairwise.and_mem.mp hs).imp ?_
          rintro x y ⟨hx, hy, hxy⟩ hp
          simp only [decide_eq_true_eq] at *
          have := hw y hy
          linarith)
        rw [hm] at hpre
        refine ⟨d2, by rw [d1, hfilter], ?_, ?_⟩
        · rw [← hpre.1, List.filter_filter, List.filter_eq_nil_iff]
          intro c _ hc
          simp only [Bool.and_eq_true, decide_eq_true_eq] at hc
          linarith [hc.1, hc.2]
        · have hml : m < ax.cells.length := by omega
          refine ⟨ax.cells[m], List.getElem?_eq_getElem hml, ?_⟩
          have : ax.cells[m] ∈ ax.cells.drop m := by
            rw [List.mem_iff_getElem?]
            exact ⟨0, by rw [List.getElem?_drop, Nat.add_zero, List.getElem?_eq_getElem hml]⟩
          rw [← hpre.2] at this
          simpa using (List.mem_filter.mp this).2
      · obtain ⟨c, hc⟩ := List.exists_mem_of_ne_nil _ hne'
        obtain ⟨hc1, hc2⟩ := List.mem_filter.mp hc
        exact ⟨c, hc1, by simpa using hc2⟩
    · rw [if_neg]
      · simp only [doSubset]
        rw [if_pos]
        split_ifs <;> omega
      · rintro ⟨c, hc, h1⟩
        have : c ∈ ax.cells.filter (fun c => decide (start < c.2) && decide (c.1 < stop)) :=
          List.mem_filter.mpr ⟨hc, by simpa using h1⟩
        rw [hfilter, List.drop_of_length_le (by rw [List.length_take]; omega)] at this
        simp at this
  by_cases hstop : stop < b.2
  · rw [if_pos hstop]
    rcases hole with ⟨c, hc, hin⟩ | hole | hole
    · obtain ⟨i, hi⟩ := List.mem_iff_getElem?.mp hc
      have hlt : i < ax.cells.length := (List.getElem?_eq_some_iff.mp hi).1
      have hf := find_inside _ hv stop false 0 i c hi (by simpa [In] using hin)
      rw [hf]
      simp only [Bool.true_eq_false, and_false, if_false]
      refine final i ?_ hlt
      have hce := (List.getElem?_eq_some_iff.mp hi).2
      have hsplit : ax.cells = ax.cells.take i ++ c :: ax.cells.drop (i + 1) := by
        rw [← hce, ← List.drop_eq_getElem_cons hlt, List.take_append_drop]
      have hs' := hs
      rw [hsplit] at hs'
      obtain ⟨-, h2, h3⟩ := List.pairwise_append.mp hs'
      rw [List.pairwise_cons] at h2
      rw [hsplit, List.countP_append, List.countP_cons]
      have e1 : (ax.cells.take i).countP (fun c => decide (c.1 < stop)) = i := by
        rw [List.countP_eq_length.mpr ?_, List.length_take, min_eq_left hlt.le]
        intro d hd
        have := h3 d hd c (by simp)
        have := hw d (List.mem_of_mem_take hd)
        simp only [decide_eq_true_eq]; linarith [hin.1]
      have e2 : (ax.cells.drop (i + 1)).countP (fun c => decide (c.1 < stop)) = 0 := by
        rw [List.countP_eq_zero]
        intro d hd
        have := h2.1 d hd
        simp only [decide_eq_true_eq]; intro; linarith [hin.2]
      rw [e1, e2, if_pos (by simpa using hin.1)]
    · have hno : ∀ c ∈ ax.cells, ¬ In false stop c := by
        intro c hc hin
        simp only [In, Bool.false_eq_true, if_false] at hin
        exact absurd hin.1 (not_lt.mpr (hole c hc))
      obtain ⟨i, he, hi, hj⟩ := find_outside ax.cells hv stop false 0 hno
      have hi0 : i = 0 := by
        by_contra h0
        have := hj 0 a (by rw [hcons]; rfl)
        rw [if_pos (by omega)] at this
        have := hole a ham
        have := hw a ham
        linarith
      rw [he, hi0]
      simp only [hstop, and_self, if_true]
      refine ⟨_, _, rfl, ?_⟩
      rw [if_neg]
      · simp only [doSubset]
        exact if_pos (by split_ifs <;> omega)
      · rintro ⟨c, hc, -, h1⟩
        exact absurd h1 (not_lt.mpr (hole c hc))
    · exact absurd (hole b hbm) (not_le.mpr hstop)
  · rw [if_neg hstop, if_neg (by simp [hstop])]
    refine final _ ?_ (by omega)
    have : ax.cells.countP (fun c => decide (c.1 < stop)) = ax.cells.length := by
      rw [List.countP_eq_length]
      intro c hc
      have := hw c hc
      have := (hlastc c hc).1
      simp only [decide_eq_true_eq]; linarith [not_lt.mp hstop]
    omega

/-- C82: when the end value lies in a hole, the cell behind the hole is taken too, although it lies outside
of the interval. -/
theorem subset_hole :
    (subset exact (⟨none, [(0, 1), (2, 3)]⟩ : Axis ℚ) 0 (3 / 2)).toOption.map (fun r => r.1.cells) =
      some [(0, 1), (2, 3)] := by decide +kernel

/-! ## Compression -/

private theorem group_cell (factor : Nat) (hf : 0 < factor) (n : Nat) (cells : Cells K)
    (hn : n = (cells.length + factor - 1) / factor) :
    (groupCells factor n cells).length = n ∧
    ∀ i a b, cells[i * factor]? = some a → cells[min ((i + 1) * factor) cells.length - 1]? = some b →
      (groupCells factor n cells)[i]? = some (a.1, b.2) := by
  induction n generalizing cells with
  | zero =>
    refine ⟨rfl, ?_⟩
    intro i a b ha
    have : cells.length = 0 := by
      have : cells.length + factor - 1 < factor := by
        by_contra hc
        have := Nat.div_pos (by omega : factor ≤ cells.length + factor - 1) hf
        omega
      omega
    rw [List.length_eq_zero_iff] at this
    simp [this] at ha
  | succ n ih =>
    have hlen : 0 < cells.length := by
      by_contra h0
      have h0 : cells.length = 0 := by omega
      rw [h0, Nat.zero_add, Nat.div_eq_of_lt (by omega)] at hn
      omega
    have hdrop : n = ((cells.drop factor).length + factor - 1) / factor := by
      rw [List.length_drop]
      by_cases hle : factor ≤ cells.length
      · have : cells.length + factor - 1 = (cells.length - factor + factor - 1) + factor := by omega
        rw [this, Nat.add_div_right _ hf] at hn
        omega
      · have h1 : cells.length - factor = 0 := by omega
        have : cells.length + factor - 1 = (cells.length - 1) + factor := by omega
        rw [this, Nat.add_div_right _ hf, Nat.div_eq_of_lt (by omega)] at hn
        rw [h1, Nat.zero_add, Nat.div_eq_of_lt (by omega)]
        omega
    obtain ⟨i1, i2⟩ := ih (cells.drop factor) hdrop
    have htl : (cells.take factor).length = min factor cells.length := List.length_take
    have hne : cells.take factor ≠ [] := by
      intro e; rw [e] at htl; simp at htl; omega
    obtain ⟨x, hx⟩ : ∃ x, (cells.take factor).head? = some x := by
      cases h : cells.take factor with
      | nil => exact absurd h hne
      | cons x _ => exact ⟨x, rfl⟩
    obtain ⟨y, hy⟩ : ∃ y, (cells.take factor).getLast? = some y :=
      ⟨_, List.getLast?_eq_getLast_of_ne_nil hne⟩
    rw [groupCells, hx, hy]
    refine ⟨by rw [List.length_cons, i1], ?_⟩
    intro i a b ha hb
    cases i with
    | zero =>
      rw [List.getElem?_cons_zero]
      have h1 : x = a := by
        rw [List.head?_eq_getElem?, List.getElem?_take, if_pos hf] at hx
        rw [Nat.zero_mul] at ha
        exact Option.some.inj (hx.symm.trans ha)
      have h2 : y = b := by
        rw [List.getLast?_eq_getElem?, htl, List.getElem?_take, if_pos (by omega)] at hy
        rw [Nat.zero_add, Nat.one_mul] at hb
        exact Option.some.inj (hy.symm.trans hb)
      rw [h1, h2]
    | succ i =>
      rw [List.getElem?_cons_succ]
      have hl : (i + 1) * factor < cells.length := (List.getElem?_eq_some_iff.mp ha).1
      have e1 : (i + 1) * factor = i * factor + factor := by rw [Nat.add_mul, Nat.one_mul]
      have e2 : (i + 1 + 1) * factor = (i + 1) * factor + factor := by rw [Nat.add_mul, Nat.one_mul]
      refine i2 i a b ?_ ?_
      · rw [List.getElem?_drop, ← ha]; congr 1; omega
      · rw [List.getElem?_drop, ← hb, List.length_drop]; congr 1; omega

private theorem map_centered (l : Cells K) :
    (l.map fun c => (1 / 2 * (c.2 + c.1), c.2 - c.1)).map (fun c => centered c.1 c.2) = l := by
  rw [List.map_map]
  conv_rhs => rw [← List.map_id l]
  refine List.map_congr_left fun c _ => ?_
  have := centered_eq c
  simp only [Function.comp]
  rw [show (1 : K) / 2 * (c.2 + c.1) = (c.1 + c.2) / 2 by ring, this, id]

/-- C82: a compressed axis has a cell for each group of `factor` cells (the last may be smaller), from
the lower edge of the first to the upper edge of the last cell of the group. -/
theorem compress_cells (ax : Axis K) (h : ax.WF) (factor : Nat) (hf : 0 < factor) :
    ∃ new, compress ax factor = .ok new ∧
      new.cells.length = (ax.cells.length + factor - 1) / factor ∧
      ∀ i a b, ax.cells[i * factor]? = some a →
        ax.cells[min ((i + 1) * factor) ax.cells.length - 1]? = some b →
        new.cells[i]? = some (a.1, b.2) := by
  unfold compress
  rw [if_neg (by omega)]
  cases hreg : ax.reg with
  | none =>
    obtain ⟨h1, h2⟩ := group_cell factor hf _ ax.cells rfl
    refine ⟨_, rfl, ?_, ?_⟩
    · simp only [centeredAxis, map_centered]; exact h1
    · simp only [centeredAxis, map_centered]; exact h2
  | some p =>
    obtain ⟨s, w, n⟩ := p
    obtain ⟨hc, hw⟩ := h.2 s w n hreg
    have hlen : ax.cells.length = n := by rw [hc]; exact regular_length s w n
    have hdm := Nat.div_add_mod n factor
    have hmul : ∀ i, i * factor < n → i < n / factor ∨ (i = n / factor ∧ n % factor ≠ 0) := by
      intro i hi
      by_cases h1 : i < n / factor
      · exact .inl h1
      · right
        have h2 : n / factor ≤ i := by omega
        have h3 : i ≤ n / factor := by
          rw [Nat.le_div_iff_mul_le hf]; omega
        have h4 : i = n / factor := by omega
        refine ⟨h4, ?_⟩
        intro h5
        rw [h4] at hi
        have : n / factor * factor = factor * (n / factor) := Nat.mul_comm _ _
        omega
    simp only
    by_cases hd : n % factor = 0
    · rw [if_pos hd]
      refine ⟨_, rfl, ?_, ?_⟩
      · show (regularCells _ _ _).length = _
        rw [regular_length, hlen]
        have : n + factor - 1 = (factor - 1) + factor * (n / factor) := by omega
        have hz : (factor - 1) / factor = 0 := Nat.div_eq_of_lt (by omega)
        rw [this, Nat.add_mul_div_left _ _ hf, hz, Nat.zero_add]
      · intro i a b ha hb
        show (regularCells _ _ _)[i]? = _
        have hi : i * factor < n := by rw [← hlen]; exact (List.getElem?_eq_some_iff.mp ha).1
        have hi' : i < n / factor := by
          rcases hmul i hi with h | ⟨_, h⟩
          · exact h
          · exact absurd hd h
        have hle : (i + 1) * factor ≤ n := (Nat.le_div_iff_mul_le hf).mp hi'
        have hpos : 0 < (i + 1) * factor := Nat.mul_pos (by omega) hf
        rw [hlen, min_eq_left hle] at hb
        rw [hc, regular_cell s w n _ hi] at ha
        rw [hc, regular_cell s w n _ (by omega)] at hb
        rw [regular_cell _ _ _ _ hi']
        simp only [Option.some.injEq] at ha hb ⊢
        rw [← ha, ← hb]
        have e : (((i + 1) * factor - 1 : Nat) : K) + 1 = ((i : K) + 1) * factor := by
          rw [Nat.cast_sub (by omega)]; push_cast; ring
        ext
        · push_cast; ring
        · show s + ((i : K) + 1) * (w * factor) = s + ((((i + 1) * factor - 1 : Nat) : K) + 1) * w
          rw [e]; ring
    · rw [if_neg hd]
      have hpos : 0 < n % factor := Nat.pos_of_ne_zero hd
      have hmodlt := Nat.mod_lt n hf
      have hsub : n - n % factor = n / factor * factor := by
        have : n / factor * factor = factor * (n / factor) := Nat.mul_comm _ _
        omega
      have hlast : n - n % factor < n := by
        have : 0 < n := by
          rcases Nat.eq_zero_or_pos n with h0 | h0
          · rw [h0] at hpos; simp at hpos
          · exact h0
        omega
      rw [hc, regular_cell s w n _ hlast]
      refine ⟨_, rfl, ?_, ?_⟩
      · simp only [centeredAxis, List.length_map, List.length_append, List.length_range, List.length_cons,
          List.length_nil, regular_length]
        have : n + factor - 1 = (n % factor - 1) + factor * (n / factor + 1) := by
          have : factor * (n / factor + 1) = factor * (n / factor) + factor := by ring
          omega
        have hz : (n % factor - 1) / factor = 0 := Nat.div_eq_of_lt (by omega)
        rw [this, Nat.add_mul_div_left _ _ hf, hz]
        omega
      · intro i a b ha hb
        rw [regular_length] at hb
        have hi : i * factor < n := by
          have := (List.getElem?_eq_some_iff.mp ha).1
          rwa [regular_length] at this
        rw [regular_cell s w n _ hi] at ha
        simp only [Option.some.injEq] at ha
        simp only [centeredAxis, List.map_append, List.map_map, List.map_cons, List.map_nil]
        rcases hmul i hi with hi' | ⟨hi', -⟩
        · have hle : (i + 1) * factor ≤ n := (Nat.le_div_iff_mul_le hf).mp hi'
          have hp : 0 < (i + 1) * factor := Nat.mul_pos (by omega) hf
          rw [min_eq_left hle, regular_cell s w n _ (by omega)] at hb
          simp only [Option.some.injEq] at hb
          rw [List.getElem?_append_left (by simpa using hi'), List.getElem?_map, List.getElem?_range hi',
            ← ha, ← hb]
          have e : (((i + 1) * factor - 1 : Nat) : K) + 1 = ((i : K) + 1) * factor := by
            rw [Nat.cast_sub (by omega)]; push_cast; ring
          rw [e]
          simp only [Option.map_some, Function.comp, centered, Option.some.injEq]
          ext
          · push_cast; ring
          · simp only; ring
        · subst hi'
          have hmin : min ((n / factor + 1) * factor) n = n := by
            apply min_eq_right
            have : (n / factor + 1) * factor = factor * (n / factor) + factor := by ring
            omega
          rw [hmin, regular_cell s w n _ (by omega)] at hb
          simp only [Option.some.injEq] at hb
          rw [List.getElem?_append_right (by simp), ← ha, ← hb]
          have e1 : ((n - 1 : Nat) : K) + 1 = (n : K) := by
            rw [Nat.cast_sub (by omega)]; push_cast; ring
          have e2 : (n : K) = (((n / factor * factor : Nat) : K)) + ((n % factor : Nat) : K) := by
            rw [← Nat.cast_add]; congr 1; omega
          rw [e1, hsub]
          simp only [List.length_map, List.length_range, Nat.sub_self, List.getElem?_cons_zero, centered,
            Option.some.injEq]
          ext
          · simp only; ring
          · simp only; rw [e2]; ring

/-! ## Examples -/

/-- An axis with cells of different widths. -/
def sampleAxis : Axis ℚ := ⟨none, [(0, 1), (1, 3), (3, 4), (4, 10)]⟩

example : sampleAxis.WF := ⟨⟨by decide, by decide +kernel, by decide +kernel⟩, by simp [sampleAxis]⟩
example : (regularAxis (0 : ℚ) 2 5).WF := regularAxis_wf _ _ _ (by norm_num) (by norm_num)
example : NotInHole sampleAxis.cells (7 / 2) :=
  .inl ⟨(3, 4), by decide +kernel, by decide +kernel, by decide +kernel⟩
example : (subset exact sampleAxis (1 / 2) (7 / 2)).toOption.map (fun r => (r.1.cells, r.2)) =
    some ([(0, 1), (1, 3), (3, 4)], 0) := by decide +kernel
example : (subset exact (regularAxis (0 : ℚ) 2 5) 2 6).toOption.map (fun r => (r.1.cells, r.2)) =
    some ([(2, 4), (4, 6)], 1) := by decide +kernel
example : (compress sampleAxis 3).toOption.map Axis.cells = some [(0, 4), (4, 10)] := by decide +kernel
example : (compress (regularAxis (0 : ℚ) 2 5) 2).toOption.map Axis.cells =
    some [(0, 4), (4, 8), (8, 10)] := by decide +kernel

end DP3.ParmGrid
