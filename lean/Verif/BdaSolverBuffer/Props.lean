import Verif.BdaSolverBuffer.Model
import Mathlib.Algebra.Order.Field.Basic
import Mathlib.Algebra.Field.Rat
import Mathlib.Algebra.Order.Ring.Rat
import Mathlib.Data.Rat.Floor
import Mathlib.Data.List.Induction
import Mathlib.Tactic.Linarith

/-!
# Properties of the BdaSolverBuffer (C35, C36, C37)
-/

namespace DP3.BdaSolverBuffer

set_option linter.unusedSectionVars false
set_option linter.unusedSimpArgs false
set_option linter.unusedVariables false

variable {F : Type} [Field F] [LinearOrder F] [IsStrictOrderedRing F] [FloorRing F]

/-! ## The specification -/

/-- The number of the solution interval that contains a time, counted from the start. -/
def slot (c : Config F) (time : F) : Int := ⌊(time - c.start) / c.interval⌋

/-- The start time of a row. -/
def Row.startTime (r : Row F) : F := r.time - r.interval / 2

/-- The buffers given to the solver buffer. -/
def given : List (Op F) → List (List (Row F))
  | [] => []
  | .append b :: ops => b :: given ops
  | .advance :: ops => given ops
  | .getDone :: ops => given ops

/-- All rows given to the solver buffer, in order. -/
def rowsOf (ops : List (Op F)) : List (Row F) := (given ops).flatten

/-- The number of calls of `AdvanceInterval`. -/
def advances : List (Op F) → Nat
  | [] => 0
  | .append _ :: ops => advances ops
  | .advance :: ops => advances ops + 1
  | .getDone :: ops => advances ops

theorem given_append (a b : List (Op F)) : given (a ++ b) = given a ++ given b := by
  induction a with
  | nil => rfl
  | cons o a ih => cases o <;> simp [given, ih]

theorem advances_append (a b : List (Op F)) : advances (a ++ b) = advances a + advances b := by
  induction a with
  | nil => simp [advances]
  | cons o a ih =>
    cases o <;> simp only [List.cons_append, advances, ih]
    omega

/-! ## Storing one row -/

/-- The rows are stored per interval. -/
def Stored (c : Config F) (s : State F) (rows : List (Row F)) : Prop :=
  s.dataRows ≠ [] ∧
    ∀ i : Nat, s.dataRows.getD i [] = rows.filter fun r => decide (slot c r.time = s.current + i)

/-- The administration of the last complete intervals. -/
def Tracked (c : Config F) (s : State F) (rows : List (Row F)) : Prop :=
  ∀ b v, s.lastComplete[b]? = some v →
    (∃ r ∈ rows, r.bl = b ∧ slot c r.startTime = v + 1 + s.current) ∨ v + 1 + s.current ≤ 0

private theorem getD_pad {α : Type} (l : List (List α)) (n i : Nat) :
    (l ++ List.replicate n []).getD i [] = l.getD i [] := by
  simp only [List.getD_eq_getElem?_getD, List.getElem?_append]
  split_ifs with h
  · rfl
  · rw [List.getElem?_eq_none (by omega : l.length ≤ i)]
    simp only [List.getElem?_replicate]
    split_ifs <;> rfl

private theorem getD_modify {α : Type} (l : List (List α)) (q i : Nat) (r : α) (h : q < l.length) :
    (l.modify q (· ++ [r])).getD i [] = l.getD i [] ++ (if i = q then [r] else []) := by
  simp only [List.getD_eq_getElem?_getD, List.getElem?_modify]
  by_cases hi : i = q
  · subst hi
    simp [List.getElem?_eq_getElem h]
  · rw [if_neg hi]
    have : ¬ q = i := fun e => hi e.symm
    simp [this]

/-- What an accepted row tells and changes. -/
theorem appendRow_spec {c : Config F} {s s' : State F} {r : Row F}
    (h : appendRow c s r = .ok s') :
    s'.current = s.current ∧ s'.data = s.data ∧ s'.done = s.done ∧
      s.current ≤ slot c r.time ∧
      (∃ last, s.lastComplete[r.bl]? = some last ∧ last ≤ slot c r.startTime - s.current) ∧
      s'.lastComplete = s.lastComplete.set r.bl (slot c r.startTime - s.current - 1) := by
  unfold appendRow at h
  simp only at h
  split_ifs at h with hq
  cases hl : s.lastComplete[r.bl]? with
  | none => rw [hl] at h; simp at h
  | some last =>
    rw [hl] at h
    simp only at h
    split_ifs at h with hd
    cases h
    refine ⟨rfl, rfl, rfl, ?_, ⟨last, rfl, ?_⟩, rfl⟩
    · unfold relativeIndex at hq
      unfold slot
      omega
    · unfold relativeIndex at hd
      unfold slot Row.startTime
      omega

theorem appendRow_stored {c : Config F} {s s' : State F} {r : Row F}
    {rows : List (Row F)} (h : appendRow c s r = .ok s') (hs : Stored c s rows) :
    Stored c s' (rows ++ [r]) := by
  obtain ⟨hcur, -, -, hge, -, -⟩ := appendRow_spec h
  unfold appendRow at h
  simp only at h
  split_ifs at h with hq
  cases hl : s.lastComplete[r.bl]? with
  | none => rw [hl] at h; simp at h
  | some last =>
    rw [hl] at h
    simp only at h
    split_ifs at h with hd
    cases h
    have hlen : (relativeIndex c s r.time).toNat <
        (s.dataRows ++ List.replicate ((relativeIndex c s r.time).toNat + 1 - s.dataRows.length)
          []).length := by
      simp only [List.length_append, List.length_replicate]
      omega
    refine ⟨?_, ?_⟩
    · intro he
      have := congrArg List.length he
      simp only [List.length_modify, List.length_nil] at this
      omega
    · intro i
      simp only
      rw [getD_modify _ _ _ _ hlen, getD_pad, hs.2 i, List.filter_append]
      congr 1
      simp only [List.filter_cons, List.filter_nil]
      have : i = (relativeIndex c s r.time).toNat ↔ slot c r.time = s.current + i := by
        unfold relativeIndex at hq ⊢
        unfold slot
        omega
      by_cases hi : i = (relativeIndex c s r.time).toNat
      · rw [if_pos hi, if_pos (by simpa using this.1 hi)]
      · rw [if_neg hi, if_neg (by simpa using fun e => hi (this.2 e))]

theorem appendRow_tracked {c : Config F} {s s' : State F} {r : Row F}
    {rows : List (Row F)} (h : appendRow c s r = .ok s') (hs : Tracked c s rows) :
    Tracked c s' (rows ++ [r]) := by
  obtain ⟨hcur, -, -, -, -, hlast⟩ := appendRow_spec h
  intro b v hv
  rw [hlast, List.getElem?_set] at hv
  rw [hcur]
  split_ifs at hv with h1 h2
  · cases hv
    refine .inl ⟨r, by simp, h1, ?_⟩
    omega
  · rcases hs b v hv with ⟨r', hr', hb, hsl⟩ | h0
    · exact .inl ⟨r', by simp [hr'], hb, hsl⟩
    · exact .inr h0

/-- The rows of a buffer one after the other. -/
theorem foldlM_rows {c : Config F} {b : List (Row F)} {s s' : State F}
    {rows : List (Row F)} (h : b.foldlM (appendRow c) s = .ok s') :
    s'.current = s.current ∧ s'.data = s.data ∧ s'.done = s.done ∧
      (∀ r ∈ b, s.current ≤ slot c r.time) ∧
      (Stored c s rows → Stored c s' (rows ++ b)) ∧
      (Tracked c s rows → Tracked c s' (rows ++ b)) := by
  induction b generalizing s rows with
  | nil =>
    cases h
    simp
  | cons r b ih =>
    rw [List.foldlM_cons] at h
    cases h1 : appendRow c s r with
    | error e => rw [h1] at h; cases h
    | ok s1 =>
      rw [h1] at h
      obtain ⟨a1, a2, a3, a4, -, -⟩ := appendRow_spec h1
      obtain ⟨b1, b2, b3, b4, b5, b6⟩ := ih (rows := rows ++ [r]) h
      refine ⟨b1.trans a1, b2.trans a2, b3.trans a3, ?_, ?_, ?_⟩
      · intro x hx
        rcases List.mem_cons.1 hx with rfl | hx
        · exact a4
        · rw [← a1]; exact b4 x hx
      · intro hs
        have := b5 (appendRow_stored h1 hs)
        simpa using this
      · intro hs
        have := b6 (appendRow_tracked h1 hs)
        simpa using this

theorem append_ok {c : Config F} {b : List (Row F)} {s s' : State F}
    (h : append c s b = .ok s') :
    ∃ s1, b.foldlM (appendRow c) s = .ok s1 ∧ s' = { s1 with data := s1.data ++ [b] } := by
  unfold append at h
  cases h1 : b.foldlM (appendRow c) s with
  | error e => rw [h1] at h; cases h
  | ok s1 =>
    rw [h1] at h
    cases h
    exact ⟨s1, rfl, rfl⟩

/-! ## Removing old buffers -/

theorem removeOld_spec (c : Config F) (s : State F) (data done : List (List (Row F))) :
    ∃ old, (removeOld c s data done).2 = done ++ old ∧
      data = old ++ (removeOld c s data done).1 ∧
      (∀ b ∈ old, ∀ r ∈ b, slot c r.time < s.current) ∧
      (∀ b, (removeOld c s data done).1.head? = some b → ∃ r ∈ b, s.current ≤ slot c r.time) := by
  induction data generalizing done with
  | nil => exact ⟨[], by simp [removeOld]⟩
  | cons b data ih =>
    unfold removeOld
    split_ifs with h
    · obtain ⟨old, h1, h2, h3, h4⟩ := ih (done ++ [b])
      refine ⟨b :: old, by simp [h1], by simpa using h2, ?_, h4⟩
      intro x hx r hr
      rcases List.mem_cons.1 hx with rfl | hx
      · have := List.all_eq_true.1 h r hr
        simp only [decide_eq_true_eq] at this
        unfold relativeIndex at this
        unfold slot
        omega
      · exact h3 x hx r hr
    · refine ⟨[], by simp, by simp, by simp, ?_⟩
      intro x hx
      simp only [List.head?_cons, Option.some.injEq] at hx
      subst hx
      simp only [List.all_eq_true, decide_eq_true_eq, not_forall] at h
      obtain ⟨r, hr, hlt⟩ := h
      refine ⟨r, hr, ?_⟩
      unfold relativeIndex at hlt
      unfold slot
      omega

/-! ## The invariant -/

/-- The invariant of a sequence of calls. -/
structure Inv (c : Config F) (ops : List (Op F)) (x : State F × Seen F) : Prop where
  current : x.1.current = advances ops
  stored : Stored c x.1 (rowsOf ops)
  tracked : Tracked c x.1 (rowsOf ops)
  intervals : x.2.intervals.length = advances ops ∧
    ∀ j : Nat, j < advances ops →
      x.2.intervals[j]? = some ((rowsOf ops).filter fun r => decide (slot c r.time = j))
  buffers : x.2.returned ++ x.1.done ++ x.1.data = given ops
  old : ∀ b ∈ x.2.returned ++ x.1.done, ∀ r ∈ b, slot c r.time < x.1.current

theorem inv_step {c : Config F} {ops : List (Op F)} {x y : State F × Seen F} {o : Op F}
    (h : Inv c ops x) (hs : step c x o = .ok y) : Inv c (ops ++ [o]) y := by
  obtain ⟨s, seen⟩ := x
  cases o with
  | append b =>
    unfold step at hs
    simp only at hs
    cases ha : append c s b with
    | error e => rw [ha] at hs; cases hs
    | ok s' =>
      rw [ha] at hs
      cases hs
      obtain ⟨s1, hf, rfl⟩ := append_ok ha
      obtain ⟨a1, a2, a3, a4, a5, a6⟩ := foldlM_rows (rows := rowsOf ops) hf
      have hrows : rowsOf (ops ++ [Op.append b]) = rowsOf ops ++ b := by
        simp [rowsOf, given_append, given]
      have hadv : advances (ops ++ [Op.append b]) = advances ops := by
        simp [advances_append, advances]
      have hc := h.current
      simp only at hc
      refine ⟨?_, ?_, ?_, ?_, ?_, ?_⟩
      · simp only [hadv, a1, hc]
      · rw [hrows]; exact a5 h.stored
      · rw [hrows]; exact a6 h.tracked
      · rw [hadv, hrows]
        refine ⟨h.intervals.1, ?_⟩
        intro j hj
        rw [h.intervals.2 j hj, List.filter_append]
        have : (b.filter fun r => decide (slot c r.time = (j : Int))) = [] := by
          rw [List.filter_eq_nil_iff]
          intro r hr
          have := a4 r hr
          simp only [decide_eq_true_eq]
          omega
        rw [this, List.append_nil]
      · have := h.buffers
        simp only at this ⊢
        rw [a2, a3, given_append, ← this]
        simp [given]
      · have := h.old
        simp only at this ⊢
        rw [a1, a3]
        exact this
  | advance =>
    unfold step at hs
    cases hs
    have hrows : rowsOf (ops ++ [Op.advance]) = rowsOf ops := by
      simp [rowsOf, given_append, given]
    have hadv : advances (ops ++ [Op.advance]) = advances ops + 1 := by
      simp [advances_append, advances]
    have hc := h.current
    simp only at hc
    have hst := h.stored
    simp only at hst
    refine ⟨?_, ?_, ?_, ?_, ?_, ?_⟩
    · simp only [advanceInterval, hadv, hc]
      push_cast
      ring
    · rw [hrows]
      refine ⟨?_, ?_⟩
      · simp only [advanceInterval]
        split_ifs with he
        · simp
        · intro e; rw [e] at he; simp at he
      · intro i
        have hi := hst.2 (i + 1)
        have : (advanceInterval c s).dataRows.getD i [] = s.dataRows.getD (i + 1) [] := by
          simp only [advanceInterval]
          split_ifs with he
          · have hl : s.dataRows.length ≤ 1 := by
              simp only [List.isEmpty_iff, List.drop_eq_nil_iff] at he
              exact he
            simp only [List.getD_eq_getElem?_getD]
            rw [List.getElem?_eq_none (by omega : s.dataRows.length ≤ i + 1)]
            cases i with
            | zero => rfl
            | succ i => simp
          · simp only [List.getD_eq_getElem?_getD, List.getElem?_drop]
            rw [Nat.add_comm]
        simp only
        rw [this, hi]
        congr 1
        funext r
        have : (advanceInterval c s).current = s.current + 1 := rfl
        rw [this]
        congr 1
        push_cast
        rw [eq_iff_iff]
        omega
    · rw [hrows]
      intro b v hv
      have hl : (advanceInterval c s).lastComplete = s.lastComplete.map (· - 1) := rfl
      have hcu : (advanceInterval c s).current = s.current + 1 := rfl
      simp only at hv ⊢
      rw [hl, List.getElem?_map] at hv
      rw [hcu]
      cases hv' : s.lastComplete[b]? with
      | none => rw [hv'] at hv; cases hv
      | some w =>
        rw [hv'] at hv
        simp only [Option.map_some, Option.some.injEq] at hv
        rcases h.tracked b w hv' with ⟨r, hr, hb, e⟩ | e
        · refine .inl ⟨r, hr, hb, ?_⟩
          simp only at e
          omega
        · simp only at e
          exact .inr (by omega)
    · rw [hrows, hadv]
      have hint := h.intervals
      simp only at hint ⊢
      refine ⟨by simp [hint.1], ?_⟩
      intro j hj
      rw [List.getElem?_append]
      split_ifs with hlt
      · exact hint.2 j (by omega)
      · have hj' : j = advances ops := by omega
        subst hj'
        rw [hint.1, Nat.sub_self]
        simp only [List.getElem?_cons_zero, intervalRows]
        rw [hst.2 0, hc]
        simp
    · have hb := h.buffers
      simp only at hb ⊢
      obtain ⟨old, h1, h2, -, -⟩ := removeOld_spec c
        { data := s.data, done := s.done, current := s.current + 1,
          lastComplete := s.lastComplete.map (· - 1),
          dataRows := if (s.dataRows.drop 1).isEmpty then [[]] else s.dataRows.drop 1 } s.data s.done
      have e1 : (advanceInterval c s).done = s.done ++ old := h1
      have e2 : s.data = old ++ (advanceInterval c s).data := h2
      rw [e1, given_append, ← hb]
      conv_rhs => rw [e2]
      simp [given]
    · have hb := h.old
      simp only at hb ⊢
      obtain ⟨old, h1, h2, h3, -⟩ := removeOld_spec c
        { data := s.data, done := s.done, current := s.current + 1,
          lastComplete := s.lastComplete.map (· - 1),
          dataRows := if (s.dataRows.drop 1).isEmpty then [[]] else s.dataRows.drop 1 } s.data s.done
      have e1 : (advanceInterval c s).done = s.done ++ old := h1
      have hcu : (advanceInterval c s).current = s.current + 1 := rfl
      rw [e1, hcu]
      intro b hbm r hr
      rw [← List.append_assoc] at hbm
      rcases List.mem_append.1 hbm with hbm | hbm
      · have := hb b hbm r hr
        omega
      · exact h3 b hbm r hr
  | getDone =>
    unfold step at hs
    cases hs
    have hrows : rowsOf (ops ++ [Op.getDone]) = rowsOf ops := by
      simp [rowsOf, given_append, given]
    have hadv : advances (ops ++ [Op.getDone]) = advances ops := by
      simp [advances_append, advances]
    refine ⟨?_, ?_, ?_, ?_, ?_, ?_⟩
    · rw [hadv]; exact h.current
    · rw [hrows]; exact h.stored
    · rw [hrows]; exact h.tracked
    · rw [hrows, hadv]; exact h.intervals
    · have hb := h.buffers
      simp only [getDone, given_append, given] at hb ⊢
      rw [← hb]
      simp
    · have hb := h.old
      simp only [getDone] at hb ⊢
      simpa using hb

theorem inv_init (c : Config F) (n : Nat) :
    Inv c [] ((init n : State F), { intervals := [], returned := [] }) := by
  refine ⟨rfl, ⟨by simp [init], ?_⟩, ?_, by simp [advances], rfl, by simp [init]⟩
  · intro i
    cases i <;> simp [init, rowsOf, given]
  · intro b v hv
    simp only [init, List.getElem?_replicate] at hv
    split_ifs at hv
    cases hv
    right
    simp [init]

theorem inv_run {c : Config F} {n : Nat} {ops : List (Op F)} {x : State F × Seen F}
    (h : run c n ops = .ok x) : Inv c ops x := by
  induction ops using List.reverseRecOn generalizing x with
  | nil =>
    cases h
    exact inv_init c n
  | append_singleton ops o ih =>
    unfold run at h ih
    rw [List.foldlM_append] at h
    cases h1 : List.foldlM (step c) (init n, { intervals := [], returned := [] }) ops with
    | error e => rw [h1] at h; cases h
    | ok y =>
      rw [h1] at h
      have hs : step c y o = .ok x := by
        have h2 : (step c y o >>= fun s' => pure s') = Except.ok x := h
        cases hy : step c y o with
        | error e => rw [hy] at h2; cases h2
        | ok z => rw [hy] at h2; cases h2; rfl
      exact inv_step (ih h1) hs

/-! ## C35 -/

/-- C35: whatever calls were made, `GetIntervalRows` gives exactly the rows given so far whose
central time is in the current solution interval, in the order in which they were given; and what it
gave just before each `AdvanceInterval` is exactly the rows, of those given before or after, of that
solution interval. -/
theorem interval_rows {c : Config F} {n : Nat} {ops : List (Op F)} {x : State F × Seen F}
    (h : run c n ops = .ok x) :
    intervalRows x.1 = (rowsOf ops).filter (fun r => decide (slot c r.time = advances ops)) ∧
      x.2.intervals = (List.range (advances ops)).map fun j : Nat =>
        (rowsOf ops).filter fun r => decide (slot c r.time = (j : Int)) := by
  have hi := inv_run h
  refine ⟨?_, ?_⟩
  · unfold intervalRows
    rw [hi.stored.2 0, hi.current]
    simp
  · apply List.ext_getElem?
    intro j
    by_cases hj : j < advances ops
    · rw [hi.intervals.2 j hj]
      simp [hj]
    · rw [List.getElem?_eq_none (by rw [hi.intervals.1]; omega),
        List.getElem?_eq_none (by simp; omega)]

/-- C35: with rows from the start on, every row given was handed out in one of the past intervals,
the current one, or is of a later one and still to come: none is lost and none is in two. -/
theorem every_row {c : Config F} {n : Nat} {ops : List (Op F)} {x : State F × Seen F}
    (h : run c n ops = .ok x) {r : Row F} (hr : r ∈ rowsOf ops) (h0 : 0 ≤ slot c r.time) (j : Nat) :
    (∃ l, (x.2.intervals ++ x.1.dataRows)[j]? = some l ∧ r ∈ l) ↔ slot c r.time = j := by
  have hi := inv_run h
  have hcur := hi.current
  have hD : ∀ l, (x.1.dataRows)[j - advances ops]? = some l →
      l = x.1.dataRows.getD (j - advances ops) [] := by
    intro l hl
    simp [List.getD_eq_getElem?_getD, hl]
  rw [List.getElem?_append, hi.intervals.1]
  split_ifs with hj
  · rw [hi.intervals.2 j hj]
    simp [hr]
  · constructor
    · rintro ⟨l, hl, hrl⟩
      rw [hD l hl, hi.stored.2, List.mem_filter] at hrl
      simp only [decide_eq_true_eq] at hrl
      omega
    · intro hs
      have hm : r ∈ x.1.dataRows.getD (j - advances ops) [] := by
        rw [hi.stored.2, List.mem_filter]
        refine ⟨hr, ?_⟩
        simp only [decide_eq_true_eq]
        omega
      rw [List.getD_eq_getElem?_getD] at hm
      cases he : x.1.dataRows[j - advances ops]? with
      | none => rw [he] at hm; simp at hm
      | some l => rw [he] at hm; exact ⟨l, rfl, hm⟩

/-- Two baselines, intervals of 10 seconds; the second buffer has rows of the first and of the third
interval. -/
def exConfig : Config ℚ := { start := 100, interval := 10 }

def exOps : List (Op ℚ) :=
  [.append [⟨0, 102, 4, 0⟩, ⟨1, 105, 10, 1⟩], .append [⟨2, 106, 4, 0⟩, ⟨3, 125, 10, 1⟩],
    .append [⟨4, 112, 4, 0⟩], .advance, .getDone]

example : ((run exConfig 2 exOps).toOption.map fun x => x.2.intervals.map fun l => l.map (·.id)) =
    some [[0, 1, 2]] := by decide +kernel
example : ((run exConfig 2 exOps).toOption.map fun x => (intervalRows x.1).map (·.id)) =
    some [4] := by decide +kernel
example : ((run exConfig 2 exOps).toOption.map fun x => x.1.dataRows.map fun l => l.map (·.id)) =
    some [[4], [3]] := by decide +kernel

/-! ## C36 -/

/-- C36: the buffers returned by `GetDone` are, in order, the first of those given; together with the
ones still inside they are all of them, each once; and all rows of a returned buffer are of solution
intervals before the current one. -/
theorem done_prefix {c : Config F} {n : Nat} {ops : List (Op F)} {x : State F × Seen F}
    (h : run c n ops = .ok x) :
    x.2.returned ++ x.1.done ++ x.1.data = given ops ∧
      ∀ b ∈ x.2.returned, ∀ r ∈ b, slot c r.time < advances ops := by
  have hi := inv_run h
  refine ⟨hi.buffers, ?_⟩
  intro b hb r hr
  have := hi.old b (by simp [hb]) r hr
  rw [hi.current] at this
  exact this

/-- C36: after `AdvanceInterval` no buffer is kept longer than needed: the first buffer inside has a
row that is not old. -/
theorem done_prompt (c : Config F) (s : State F) (b : List (Row F))
    (h : (advanceInterval c s).data.head? = some b) :
    ∃ r ∈ b, s.current + 1 ≤ slot c r.time := by
  obtain ⟨old, h1, h2, h3, h4⟩ := removeOld_spec c
    { data := s.data, done := s.done, current := s.current + 1,
      lastComplete := s.lastComplete.map (· - 1),
      dataRows := if (s.dataRows.drop 1).isEmpty then [[]] else s.dataRows.drop 1 } s.data s.done
  exact h4 b h

example : ((run exConfig 2 exOps).toOption.map fun x => x.2.returned.map fun l => l.map (·.id)) =
    some [[0, 1]] := by decide +kernel
example : ((run exConfig 2 exOps).toOption.map fun x => x.1.data.map fun l => l.map (·.id)) =
    some [[2, 3], [4]] := by decide +kernel

/-! ## C37 -/

theorem slot_mono {c : Config F} (hc : 0 < c.interval) {a b : F} (h : a ≤ b) :
    slot c a ≤ slot c b := by
  unfold slot
  apply Int.floor_le_floor
  exact div_le_div_of_nonneg_right (by linarith) hc.le

/-- C37, for ordered input: when `IntervalIsComplete` says so and the start times of the rows of each
baseline never decrease, then no buffer that is accepted later adds a row to the current interval. -/
theorem complete_partial {c : Config F} (hc : 0 < c.interval) {n : Nat} {ops : List (Op F)}
    {x : State F × Seen F} (h : run c n ops = .ok x) (hcomp : isComplete x.1 = some true)
    {b : List (Row F)} {s' : State F} (hb : append c x.1 b = .ok s')
    (hint : ∀ r ∈ b, 0 ≤ r.interval)
    (hord : (rowsOf ops ++ b).Pairwise fun r r' => r.bl = r'.bl → r.startTime ≤ r'.startTime) :
    intervalRows s' = intervalRows x.1 := by
  have hi := inv_run h
  obtain ⟨s1, hf, rfl⟩ := append_ok hb
  obtain ⟨a1, a2, a3, a4, a5, a6⟩ := foldlM_rows (rows := rowsOf ops) hf
  have hst := a5 hi.stored
  have e1 : intervalRows { s1 with data := s1.data ++ [b] } = s1.dataRows.getD 0 [] := rfl
  rw [e1, intervalRows, hst.2 0, hi.stored.2 0, a1, List.filter_append]
  have : (b.filter fun r => decide (slot c r.time = x.1.current + ((0 : Nat) : Int))) = [] := by
    rw [List.filter_eq_nil_iff]
    intro r hr
    simp only [decide_eq_true_eq]
    -- the baseline of the row is known
    have hlt : ∃ v, x.1.lastComplete[r.bl]? = some v := by
      by_contra hnone
      have hn : x.1.lastComplete[r.bl]? = none := by
        cases hv : x.1.lastComplete[r.bl]? with
        | none => rfl
        | some v => exact absurd ⟨v, hv⟩ hnone
      have : ∀ (b : List (Row F)) (s s' : State F), s.lastComplete[r.bl]? = none →
          b.foldlM (appendRow c) s = .ok s' → r ∉ b := by
        intro b
        induction b with
        | nil => simp
        | cons y b ih =>
          intro s s' hs hfold
          rw [List.foldlM_cons] at hfold
          cases h1 : appendRow c s y with
          | error e => rw [h1] at hfold; cases hfold
          | ok s1 =>
            rw [h1] at hfold
            obtain ⟨-, -, -, -, ⟨last, hl, -⟩, hset⟩ := appendRow_spec h1
            intro hm
            rcases List.mem_cons.1 hm with rfl | hm
            · rw [hs] at hl; cases hl
            · refine ih s1 s' ?_ hfold hm
              rw [hset, List.getElem?_eq_none]
              rw [List.length_set]
              exact List.getElem?_eq_none_iff.1 hs
      exact this b x.1 s1 hn hf hr
    obtain ⟨v, hv⟩ := hlt
    have hv0 : 0 ≤ v := by
      unfold isComplete at hcomp
      split_ifs at hcomp
      simp only [Option.some.injEq, List.all_eq_true, decide_eq_true_eq] at hcomp
      exact hcomp v (List.mem_of_getElem? hv)
    have hcn : 0 ≤ x.1.current := by rw [hi.current]; omega
    rcases hi.tracked r.bl v hv with ⟨r0, hr0, hbl, hs⟩ | h0
    · have hle := (List.pairwise_append.1 hord).2.2 r0 hr0 r hr hbl
      have h1 := slot_mono hc hle
      have h2 : slot c r.startTime ≤ slot c r.time := by
        apply slot_mono hc
        unfold Row.startTime
        have := hint r hr
        linarith
      intro e
      push_cast at e
      omega
    · omega
  rw [this, List.append_nil]

/-- C37 does not hold without that: the check of the order compares with the interval before the one
of the previous row, so a row that goes back by one solution interval is accepted, also after
`IntervalIsComplete` has said that no more rows would come. -/
theorem complete_not_final :
    ∃ (ops : List (Op ℚ)) (b : List (Row ℚ)),
      ((run exConfig 1 ops).toOption.bind fun x => isComplete x.1) = some true ∧
        ((run exConfig 1 ops).toOption.map fun x => (intervalRows x.1).map (·.id)) = some [0] ∧
        ((run exConfig 1 ops).toOption.bind fun x =>
          (append exConfig x.1 b).toOption.map fun s => (intervalRows s).map (·.id)) =
            some [0, 2] :=
  ⟨[.append [⟨0, 102, 4, 0⟩, ⟨1, 112, 4, 0⟩]], [⟨2, 106, 4, 0⟩], by decide +kernel,
    by decide +kernel, by decide +kernel⟩

/-- What the check does guarantee: the rows of a baseline go back by at most one solution interval
from each row to the next. -/
theorem accepted_order {c : Config F} {s s1 s2 : State F} {r1 r2 : Row F}
    (h1 : appendRow c s r1 = .ok s1) (h2 : appendRow c s1 r2 = .ok s2) (hb : r1.bl = r2.bl) :
    slot c r1.startTime - 1 ≤ slot c r2.startTime := by
  obtain ⟨a1, -, -, -, ⟨l1, hl1, -⟩, a6⟩ := appendRow_spec h1
  obtain ⟨-, -, -, -, ⟨l2, hl2, hle⟩, -⟩ := appendRow_spec h2
  rw [a6, hb, List.getElem?_set] at hl2
  split_ifs at hl2
  · cases hl2
    omega
  · rename_i hne
    exact absurd rfl hne

/-- And rows that go back further are refused. -/
theorem disorder_refused {c : Config F} {s s1 : State F} {r1 r2 : Row F}
    (h1 : appendRow c s r1 = .ok s1) (hb : r1.bl = r2.bl)
    (hcur : s.current ≤ slot c r2.time)
    (hback : slot c r2.startTime < slot c r1.startTime - 1) :
    appendRow c s1 r2 = .error .disorder := by
  obtain ⟨a1, -, -, -, ⟨l1, hl1, -⟩, a6⟩ := appendRow_spec h1
  have hlast : s1.lastComplete[r2.bl]? = some (slot c r1.startTime - s.current - 1) := by
    rw [a6, hb, List.getElem?_set]
    have : r2.bl < s.lastComplete.length := by
      rw [← hb]
      exact (List.getElem?_eq_some_iff.1 hl1).1
    simp [this]
  unfold appendRow
  have e1 : relativeIndex c s1 r2.time = slot c r2.time - s.current := by
    unfold relativeIndex slot; rw [a1]
  have e2 : relativeIndex c s1 (r2.time - r2.interval / 2) = slot c r2.startTime - s.current := by
    unfold relativeIndex slot Row.startTime; rw [a1]
  simp only [e1, e2, hlast]
  rw [if_neg (by omega), if_pos (by omega)]

example : ((run exConfig 1 [.append [⟨0, 125, 4, 0⟩, ⟨1, 105, 4, 0⟩]]).toOption).isNone := by
  decide +kernel
/-- Ordered rows, complete after the row of the second interval. -/
example : ((run exConfig 1 [.append [⟨0, 102, 4, 0⟩, ⟨1, 112, 4, 0⟩]]).toOption.bind
    fun x => (append exConfig x.1 [⟨2, 116, 4, 0⟩]).toOption.map
      fun s => (intervalRows s).map (·.id)) = some [0] := by decide +kernel

end DP3.BdaSolverBuffer
