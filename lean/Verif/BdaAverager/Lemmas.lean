import Verif.BdaAverager.Model
import Mathlib.Tactic.Linarith
import Mathlib.Tactic.Ring
import Mathlib.Tactic.FieldSimp
import Mathlib.Tactic.Push
import Mathlib.Data.List.Induction

/-! Invariants of the model of the BDA averager. -/

namespace DP3.BdaAverager

variable {F D : Type} [Field F] [LinearOrder F] [IsStrictOrderedRing F] [AddCommGroup D] [Module F D]

/-- The `i`-th chunk of `n` consecutive elements. -/
def chunk {α : Type} (n i : Nat) (l : List α) : List α := (l.drop (i * n)).take n

/-- Accumulated slots. -/
def bbOf (c : Config F) (b : Nat) (bl : Baseline) (l : List (Slot F D)) : BaselineBuffer F D :=
  l.foldl (accumulate c b bl) .clear

/-- The slots after the last complete chunk. -/
def pending {α : Type} (T : Nat) (l : List α) : List α := l.drop (l.length / T * T)

/-! ### Chunks -/

section
variable {α : Type}

theorem pending_length {T : Nat} (l : List α) : (pending T l).length = l.length % T := by
  unfold pending
  rw [List.length_drop, Nat.mod_eq_sub_div_mul]

theorem chunk_append {T i : Nat} (l : List α) (s : α) (h : i < l.length / T) :
    chunk T i (l ++ [s]) = chunk T i l := by
  unfold chunk
  have h1 : (i + 1) * T ≤ l.length :=
    Nat.le_trans (Nat.mul_le_mul_right T h) (Nat.div_mul_le_self _ _)
  rw [Nat.add_mul] at h1
  rw [List.drop_append_of_le_length (by omega), List.take_append_of_le_length]
  rw [List.length_drop]; omega

theorem div_append_full {T : Nat} (hT : 0 < T) (l : List α) (s : α) (h : l.length % T + 1 = T) :
    (l ++ [s]).length / T = l.length / T + 1 := by
  have h1 := Nat.div_add_mod l.length T
  have : (l ++ [s]).length = T * (l.length / T + 1) := by
    simp only [List.length_append, List.length_singleton, Nat.mul_add]; omega
  rw [this, Nat.mul_div_cancel_left _ hT]

theorem div_append_notFull {T : Nat} (hT : 0 < T) (l : List α) (s : α) (h : l.length % T + 1 ≠ T) :
    (l ++ [s]).length / T = l.length / T := by
  have h1 := Nat.div_add_mod l.length T
  have h2 := Nat.mod_lt l.length hT
  simp only [List.length_append, List.length_singleton]
  apply Nat.div_eq_of_lt_le
  · rw [Nat.mul_comm]; omega
  · rw [Nat.add_mul, Nat.mul_comm]; omega

theorem pending_append_full {T : Nat} (l : List α) (s : α)
    (h : l.length % T + 1 = T) : pending T (l ++ [s]) = [] := by
  apply List.eq_nil_of_length_eq_zero
  rw [pending_length]
  have h1 := Nat.div_add_mod l.length T
  have : (l ++ [s]).length = T * (l.length / T + 1) := by
    simp only [List.length_append, List.length_singleton, Nat.mul_add]; omega
  rw [this, Nat.mul_mod_right]

theorem pending_append_notFull {T : Nat} (hT : 0 < T) (l : List α) (s : α)
    (h : l.length % T + 1 ≠ T) : pending T (l ++ [s]) = pending T l ++ [s] := by
  unfold pending
  rw [div_append_notFull hT l s h, List.drop_append_of_le_length (Nat.div_mul_le_self _ _)]

theorem chunk_append_full {T : Nat} (l : List α) (s : α)
    (h : l.length % T + 1 = T) : chunk T (l.length / T) (l ++ [s]) = pending T l ++ [s] := by
  unfold chunk pending
  rw [List.drop_append_of_le_length (Nat.div_mul_le_self _ _)]
  apply List.take_of_length_le
  have := pending_length (T := T) l
  unfold pending at this
  simp only [List.length_append, List.length_singleton, this]
  omega

theorem chunk_pending {T : Nat} (hT : 0 < T) (l : List α) :
    chunk T (l.length / T) l = pending T l := by
  unfold chunk pending
  apply List.take_of_length_le
  have := pending_length (T := T) l
  unfold pending at this
  rw [this]
  exact Nat.le_of_lt (Nat.mod_lt _ hT)

end

/-! ### Output buffers -/

/-- All rows emitted so far, in order. -/
def allRows (st : State F D) : List (Row F D) := (st.sent ++ st.current.toList).flatMap (·.rows)

/-- Invariant of the output side; `B` bounds the start times of the rows in the
current buffer. -/
structure OutInv (c : Config F) (B : F) (st : State F D) : Prop where
  capacity : ∀ o, st.current = some o →
    o.capacity = o.remaining + (o.rows.map fun r => r.nChan * c.nCorr).sum
  requests : ∀ n ∈ st.requests, ∀ bl ∈ c.baselines, bl.nChan * c.nCorr ≤ n
  starts : ∀ o, st.current = some o → ∀ r ∈ o.rows, r.time - r.interval / 2 ≤ B
  rowNrs : (allRows st).map Row.rowNr = List.range st.rowCounter
  chans : ∀ r ∈ allRows st, ∃ bl ∈ c.baselines, r.nChan = bl.nChan

private theorem le_foldl_max (l : List Nat) (a : Nat) : a ≤ l.foldl max a ∧ ∀ x ∈ l, x ≤ l.foldl max a := by
  induction l generalizing a with
  | nil => simp
  | cons y ys ih =>
    have h := ih (max a y)
    simp only [List.foldl_cons, List.mem_cons]
    refine ⟨by omega, ?_⟩
    rintro x (rfl | hx)
    · omega
    · exact h.2 x hx

omit [Field F] [LinearOrder F] [IsStrictOrderedRing F] in
theorem row_le_poolSize (c : Config F) {bl : Baseline} (h : bl ∈ c.baselines) :
    bl.nChan * c.nCorr ≤ c.poolSize := by
  unfold Config.poolSize
  rw [Nat.mul_comm]
  apply Nat.mul_le_mul_left
  have := (le_foldl_max (c.baselines.map Baseline.nChan) 0).2 bl.nChan
    (List.mem_map.2 ⟨bl, h, rfl⟩)
  omega

omit [IsStrictOrderedRing F] [AddCommGroup D] [Module F D] in
theorem initialize_ok (c : Config F) {B : F} {st : State F D} (h : OutInv c B st)
    (hn : st.current = none) :
    OutInv c B (initializeBuffer c st) ∧ allRows (initializeBuffer c st) = allRows st ∧
      (initializeBuffer c st).buffers = st.buffers ∧
      (initializeBuffer c st).rowCounter = st.rowCounter ∧
      ∃ o, (initializeBuffer c st).current = some o ∧ o.rows = [] ∧
        ∀ bl ∈ c.baselines, bl.nChan * c.nCorr ≤ o.remaining := by
  have hrows : allRows (initializeBuffer c st) = allRows st := by
    unfold initializeBuffer allRows
    cases hr : st.requests <;> simp [hn]
  have hcnt : (initializeBuffer c st).rowCounter = st.rowCounter := by
    unfold initializeBuffer; cases st.requests <;> rfl
  have hex : ∃ o, (initializeBuffer c st).current = some o ∧ o.rows = [] ∧
      o.capacity = o.remaining ∧ ∀ bl ∈ c.baselines, bl.nChan * c.nCorr ≤ o.remaining := by
    unfold initializeBuffer
    cases hr : st.requests with
    | nil => exact ⟨_, rfl, rfl, rfl, fun bl hbl => row_le_poolSize c hbl⟩
    | cons n rest =>
      exact ⟨_, rfl, rfl, rfl, fun bl hbl => h.requests n (by simp [hr]) bl hbl⟩
  obtain ⟨o, ho, horows, hocap, horem⟩ := hex
  refine ⟨⟨?_, ?_, ?_, ?_, ?_⟩, hrows, ?_, hcnt, o, ho, horows, horem⟩
  · intro o' ho'
    rw [ho] at ho'
    cases ho'
    simp [horows, hocap]
  · intro n hnm
    apply h.requests n
    unfold initializeBuffer at hnm
    cases hr : st.requests with
    | nil => rw [hr] at hnm; simp at hnm
    | cons m rest => rw [hr] at hnm; simp at hnm; simp [hnm]
  · intro o' ho' r hr
    rw [ho] at ho'
    cases ho'
    simp [horows] at hr
  · rw [hrows, hcnt]; exact h.rowNrs
  · rw [hrows]; exact h.chans
  · unfold initializeBuffer; cases st.requests <;> rfl

omit [IsStrictOrderedRing F] [AddCommGroup D] [Module F D] in
theorem send_ok (c : Config F) {B : F} {st : State F D} (h : OutInv c B st) :
    OutInv c B (send st) ∧ allRows (send st) = allRows st := by
  have hrows : allRows (send st) = allRows st := by
    unfold send allRows
    simp
  refine ⟨⟨?_, ?_, ?_, ?_, ?_⟩, hrows⟩
  · intro o ho; simp [send] at ho
  · exact h.requests
  · intro o ho; simp [send] at ho
  · rw [hrows]; exact h.rowNrs
  · rw [hrows]; exact h.chans

theorem addBaseline_ok (c : Config F) {B : F} {st : State F D} (h : OutInv c B st)
    {b : Nat} {bl : Baseline} (hbl : bl ∈ c.baselines) (hcur : st.current.isSome)
    (hstart : (st.buffers b).start ≤ B)
    (hend : B + c.tolerance ≤ (st.buffers b).start + (st.buffers b).interval) :
    ∃ st', addBaseline c b bl st = some st' ∧
      allRows st' = allRows st ++ [makeRow c b bl st.rowCounter (st.buffers b)] ∧
      OutInv c B st' ∧ st'.current.isSome ∧
      st'.buffers = (fun b' => if b' = b then .clear else st.buffers b') := by
  obtain ⟨o, ho⟩ := Option.isSome_iff_exists.1 hcur
  -- the buffer the row is added to
  have key : ∃ st1 o1, (if o.remaining < bl.nChan * c.nCorr then initializeBuffer c (send st) else st) = st1 ∧
      st1.current = some o1 ∧ OutInv c B st1 ∧ allRows st1 = allRows st ∧
      st1.buffers = st.buffers ∧ st1.rowCounter = st.rowCounter ∧
      bl.nChan * c.nCorr ≤ o1.remaining := by
    by_cases hlt : o.remaining < bl.nChan * c.nCorr
    · have hs := send_ok c h
      have hi := initialize_ok c hs.1 (st := send st) rfl
      obtain ⟨hi1, hi2, hi3, hi4, o1, ho1, -, hrem⟩ := hi
      refine ⟨_, o1, if_pos hlt, ho1, hi1, by rw [hi2, hs.2], by rw [hi3]; rfl,
        by rw [hi4]; rfl, hrem bl hbl⟩
    · exact ⟨st, o, if_neg hlt, ho, h, rfl, rfl, rfl, by omega⟩
  obtain ⟨st1, o1, heq, ho1, hinv1, hrows1, hbuf1, hcnt1, hfit⟩ := key
  have hmis : addRow c o1 (makeRow c b bl st1.rowCounter (st1.buffers b)) =
      some { o1 with remaining := o1.remaining - bl.nChan * c.nCorr,
                     rows := o1.rows ++ [makeRow c b bl st1.rowCounter (st1.buffers b)] } := by
    unfold addRow
    have hm : misordered c o1 (makeRow c b bl st1.rowCounter (st1.buffers b)) = false := by
      unfold misordered
      cases hl : o1.rows.getLast? with
      | none => rfl
      | some last =>
        have hmem : last ∈ o1.rows := List.mem_of_getLast? hl
        have := hinv1.starts o1 ho1 last hmem
        simp only [makeRow, hbuf1, decide_eq_false_iff_not, not_lt]
        linarith
    have hm2 : ¬ o1.remaining < (makeRow c b bl st1.rowCounter (st1.buffers b)).nChan * c.nCorr := by
      simp only [makeRow]; omega
    rw [hm, if_neg hm2]; rfl
  refine ⟨{ st1 with
      current := some { o1 with remaining := o1.remaining - bl.nChan * c.nCorr,
                                rows := o1.rows ++ [makeRow c b bl st1.rowCounter (st1.buffers b)] }
      rowCounter := st1.rowCounter + 1
      buffers := (st1.setBuffer b .clear).buffers }, ?_, ?_, ?_, rfl, ?_⟩
  · unfold addBaseline
    rw [ho]
    simp only [heq, ho1, hmis]
  · rw [← hrows1]
    simp only [allRows, ho1, hbuf1, hcnt1]
    simp
  · have hall : allRows { st1 with
        current := some { o1 with remaining := o1.remaining - bl.nChan * c.nCorr,
                                  rows := o1.rows ++ [makeRow c b bl st1.rowCounter (st1.buffers b)] }
        rowCounter := st1.rowCounter + 1
        buffers := (st1.setBuffer b .clear).buffers } =
        allRows st1 ++ [makeRow c b bl st1.rowCounter (st1.buffers b)] := by
      simp only [allRows, ho1]
      simp
    refine ⟨?_, hinv1.requests, ?_, ?_, ?_⟩
    · intro o' ho'
      cases ho'
      have := hinv1.capacity o1 ho1
      simp only [List.map_append, List.sum_append, List.map_cons, List.map_nil, List.sum_singleton,
        makeRow]
      omega
    · intro o' ho' r hr
      cases ho'
      simp only [List.mem_append, List.mem_singleton] at hr
      rcases hr with hr | rfl
      · exact hinv1.starts o1 ho1 r hr
      · simp only [makeRow, hbuf1]; linarith
    · rw [hall, List.map_append, hinv1.rowNrs, List.range_succ]
      rfl
    · intro r hr
      rw [hall] at hr
      simp only [List.mem_append, List.mem_singleton] at hr
      rcases hr with hr | rfl
      · exact hinv1.chans r hr
      · exact ⟨bl, hbl, rfl⟩
  · simp only [State.setBuffer, hbuf1]

/-! ### Accumulated values -/

omit [LinearOrder F] [IsStrictOrderedRing F] in
theorem bbOf_append (c : Config F) (b : Nat) (bl : Baseline) (l : List (Slot F D)) (s : Slot F D) :
    bbOf c b bl (l ++ [s]) = accumulate c b bl (bbOf c b bl l) s := by
  simp [bbOf]

omit [LinearOrder F] [IsStrictOrderedRing F] in
theorem bbOf_times (c : Config F) (b : Nat) (bl : Baseline) (l : List (Slot F D)) :
    (bbOf c b bl l).timesAdded = l.length ∧
      (bbOf c b bl l).interval = (l.length : F) * c.timeInterval ∧
      (bbOf c b bl l).exposure = (l.map Slot.exposure).sum ∧
      (∀ s rest, l = s :: rest → (bbOf c b bl l).start = s.time - c.timeInterval / 2) ∧
      ∀ i, (bbOf c b bl l).uvw i = (l.map fun s => s.uvw b i).sum := by
  induction l using List.reverseRecOn with
  | nil => simp [bbOf, BaselineBuffer.clear]
  | append_singleton l s ih =>
    obtain ⟨h1, h2, h3, h4, h5⟩ := ih
    rw [bbOf_append]
    refine ⟨by simp [accumulate, h1], ?_, by simp [accumulate, h3], ?_, by simp [accumulate, h5]⟩
    · simp only [accumulate, h2, List.length_append, List.length_singleton]
      push_cast; ring
    · intro s' rest hl
      simp only [accumulate, h1]
      cases l with
      | nil => simp at hl; simp [hl.1]
      | cons x xs =>
        simp only [List.cons_append, List.cons.injEq] at hl
        have : (x :: xs).length + 1 ≠ 1 := by simp
        rw [if_neg this, h4 x xs rfl, hl.1]

/-! ### Per-baseline invariant -/

/-- The rows emitted for baseline `b` are those of the first `m` chunks of `l`. -/
def RowsAre (c : Config F) (b : Nat) (bl : Baseline) (rows : List (Row F D)) (l : List (Slot F D))
    (m : Nat) : Prop :=
  (rows.filter (fun r => r.baseline == b)).length = m ∧
    ∀ i r, (rows.filter (fun r => r.baseline == b))[i]? = some r →
      ∃ nr, r = makeRow c b bl nr (bbOf c b bl (chunk bl.timeFactor i l))

omit [IsStrictOrderedRing F] in
theorem rowsAre_other {c : Config F} {b b' : Nat} {bl : Baseline} {rows : List (Row F D)}
    {l : List (Slot F D)} {m : Nat} (h : RowsAre c b bl rows l m) {r : Row F D}
    (hr : r.baseline = b') (hb : b ≠ b') : RowsAre c b bl (rows ++ [r]) l m := by
  have : (rows ++ [r]).filter (fun r => r.baseline == b) = rows.filter (fun r => r.baseline == b) := by
    rw [List.filter_append]
    have : (r.baseline == b) = false := by simp [hr]; exact fun h => hb h.symm
    simp [this]
  unfold RowsAre
  rw [this]
  exact h

omit [IsStrictOrderedRing F] in
theorem rowsAre_add {c : Config F} {b : Nat} {bl : Baseline} {rows : List (Row F D)}
    {l l' : List (Slot F D)} {m : Nat} (h : RowsAre c b bl rows l m) (nr : Nat)
    (hch : ∀ i < m, chunk bl.timeFactor i l' = chunk bl.timeFactor i l) :
    RowsAre c b bl (rows ++ [makeRow c b bl nr (bbOf c b bl (chunk bl.timeFactor m l'))]) l' (m + 1) := by
  have hf : (rows ++ [makeRow c b bl nr (bbOf c b bl (chunk bl.timeFactor m l'))]).filter
      (fun r => r.baseline == b) = rows.filter (fun r => r.baseline == b) ++
        [makeRow c b bl nr (bbOf c b bl (chunk bl.timeFactor m l'))] := by
    rw [List.filter_append]
    simp [makeRow]
  unfold RowsAre
  rw [hf]
  refine ⟨by simp [h.1], ?_⟩
  intro i r hr
  by_cases hi : i < m
  · rw [List.getElem?_append_left (by rw [h.1]; exact hi)] at hr
    obtain ⟨n', hn'⟩ := h.2 i r hr
    exact ⟨n', by rw [hn', hch i hi]⟩
  · have hi2 : i < m + 1 := by
      have := (List.getElem?_eq_some_iff.1 hr).1
      simp only [List.length_append, List.length_singleton, h.1] at this
      exact this
    have him : i = m := by omega
    subst him
    rw [List.getElem?_append_right (by rw [h.1]), h.1] at hr
    simp at hr
    exact ⟨nr, hr.symm⟩

/-- Invariant of the whole state; `h b` are the slots baseline `b` has seen. -/
structure Inv (c : Config F) (B : F) (h : Nat → List (Slot F D)) (st : State F D) : Prop where
  out : OutInv c B st
  buf : ∀ b bl, c.baselines[b]? = some bl →
    st.buffers b = bbOf c b bl (pending bl.timeFactor (h b))
  rows : ∀ b bl, c.baselines[b]? = some bl →
    RowsAre c b bl (allRows st) (h b) ((h b).length / bl.timeFactor)

/-- The slots have times `t0`, `t0 + ti`, ... -/
def Regular (t0 ti : F) (l : List (Slot F D)) : Prop :=
  ∀ (i : Nat) (s : Slot F D), l[i]? = some s → s.time = t0 + (i : F) * ti

omit [LinearOrder F] [IsStrictOrderedRing F] [AddCommGroup D] [Module F D] in
theorem Regular.prefix {t0 ti : F} {l m : List (Slot F D)} (h : Regular t0 ti (l ++ m)) :
    Regular t0 ti l := by
  intro i s hs
  apply h i s
  have := (List.getElem?_eq_some_iff.1 hs).1
  rw [List.getElem?_append_left this]
  exact hs

omit [LinearOrder F] [IsStrictOrderedRing F] in
theorem start_of_drop (c : Config F) (b : Nat) (bl : Baseline) {t0 : F} {l : List (Slot F D)}
    (hreg : Regular t0 c.timeInterval l) {n : Nat} (hn : n < l.length) :
    (bbOf c b bl (l.drop n)).start = t0 + (n : F) * c.timeInterval - c.timeInterval / 2 := by
  have h1 : l.drop n = l[n] :: l.drop (n + 1) := List.drop_eq_getElem_cons hn
  rw [(bbOf_times c b bl (l.drop n)).2.2.2.1 _ _ h1]
  rw [hreg n l[n] (List.getElem?_eq_getElem hn)]

/-- Start and end of the accumulated chunk `l.drop n`. -/
theorem start_end_bounds (c : Config F) (b : Nat) (bl : Baseline) {t0 : F} {l : List (Slot F D)}
    (hti : c.tolerance ≤ c.timeInterval) (htol : 0 ≤ c.tolerance)
    (hreg : Regular t0 c.timeInterval l) {n K : Nat} (hn : n < l.length) (hK : l.length = K + 1) :
    (bbOf c b bl (l.drop n)).start ≤ t0 + (K : F) * c.timeInterval - c.timeInterval / 2 ∧
      t0 + (K : F) * c.timeInterval - c.timeInterval / 2 + c.tolerance ≤
        (bbOf c b bl (l.drop n)).start + (bbOf c b bl (l.drop n)).interval := by
  rw [start_of_drop c b bl hreg hn, (bbOf_times c b bl (l.drop n)).2.1, List.length_drop]
  have hnK : n ≤ K := by omega
  have hnK' : (n : F) ≤ (K : F) := by exact_mod_cast hnK
  have hsub : ((l.length - n : Nat) : F) = (K : F) + 1 - (n : F) := by
    rw [Nat.cast_sub (by omega), hK]; push_cast; ring
  rw [hsub]
  have hti0 : 0 ≤ c.timeInterval := le_trans htol hti
  constructor
  · have := mul_le_mul_of_nonneg_right hnK' hti0
    linarith
  · have : ((K : F) + 1 - n) * c.timeInterval = (K : F) * c.timeInterval + c.timeInterval - n * c.timeInterval := by
      ring
    rw [this]
    linarith

/-- One baseline of `process`. -/
theorem processBaseline_ok (c : Config F) (hti : c.tolerance ≤ c.timeInterval) (htol : 0 ≤ c.tolerance)
    (hT : ∀ bl ∈ c.baselines, 0 < bl.timeFactor)
    {t0 : F} {K : Nat} {h : Nat → List (Slot F D)} {st : State F D} {s : Slot F D} {b : Nat}
    (hinv : Inv c (t0 + (K : F) * c.timeInterval - c.timeInterval / 2) h st)
    (hcur : st.current.isSome) (hK : (h b).length = K)
    (hreg : Regular t0 c.timeInterval (h b ++ [s])) :
    ∃ st', processBaseline c s st b = some st' ∧ st'.current.isSome ∧
      Inv c (t0 + (K : F) * c.timeInterval - c.timeInterval / 2)
        (fun b' => if b' = b then h b ++ [s] else h b') st' := by
  unfold processBaseline
  cases hbl : c.baselines[b]? with
  | none =>
    refine ⟨st, rfl, hcur, hinv.out, ?_, ?_⟩
    · intro b' bl' hb'
      have hne : b' ≠ b := by rintro rfl; rw [hbl] at hb'; cases hb'
      simp only [hne, if_false]; exact hinv.buf b' bl' hb'
    · intro b' bl' hb'
      have hne : b' ≠ b := by rintro rfl; rw [hbl] at hb'; cases hb'
      simp only [hne, if_false]; exact hinv.rows b' bl' hb'
  | some bl =>
    have hmem : bl ∈ c.baselines := List.mem_of_getElem? hbl
    have hT' := hT bl hmem
    simp only
    have hbb : accumulate c b bl (st.buffers b) s =
        bbOf c b bl (pending bl.timeFactor (h b) ++ [s]) := by
      rw [bbOf_append, hinv.buf b bl hbl]
    rw [hbb]
    have hta : (bbOf c b bl (pending bl.timeFactor (h b) ++ [s])).timesAdded =
        (h b).length % bl.timeFactor + 1 := by
      rw [(bbOf_times c b bl _).1]
      simp [pending_length]
    rw [hta]
    have hrows1 : allRows (st.setBuffer b (bbOf c b bl (pending bl.timeFactor (h b) ++ [s]))) =
        allRows st := rfl
    have hout1 : OutInv c (t0 + (K : F) * c.timeInterval - c.timeInterval / 2)
        (st.setBuffer b (bbOf c b bl (pending bl.timeFactor (h b) ++ [s]))) :=
      ⟨hinv.out.capacity, hinv.out.requests, hinv.out.starts, hinv.out.rowNrs, hinv.out.chans⟩
    by_cases hfull : (h b).length % bl.timeFactor + 1 = bl.timeFactor
    · rw [if_pos hfull]
      have hpd : pending bl.timeFactor (h b) ++ [s] =
          (h b ++ [s]).drop ((h b).length / bl.timeFactor * bl.timeFactor) := by
        unfold pending
        rw [List.drop_append_of_le_length (Nat.div_mul_le_self _ _)]
      have hlen : (h b ++ [s]).length = K + 1 := by simp [hK]
      have hn : (h b).length / bl.timeFactor * bl.timeFactor < (h b ++ [s]).length := by
        have := Nat.div_mul_le_self (h b).length bl.timeFactor
        simp only [List.length_append, List.length_singleton]; omega
      have hbounds := start_end_bounds c b bl hti htol hreg hn hlen
      rw [← hpd] at hbounds
      obtain ⟨st', h1, h2, h3, h4, h5⟩ := addBaseline_ok c hout1 (b := b) (bl := bl) hmem hcur
        (by simpa [State.setBuffer] using hbounds.1) (by simpa [State.setBuffer] using hbounds.2)
      refine ⟨st', h1, h4, h3, ?_, ?_⟩
      · intro b' bl' hb'
        rw [h5]
        by_cases hne : b' = b
        · subst hne
          rw [hbl] at hb'; cases hb'
          simp only [if_true]
          rw [pending_append_full _ _ hfull]
          rfl
        · simp only [State.setBuffer, hne, if_false]
          exact hinv.buf b' bl' hb'
      · intro b' bl' hb'
        rw [h2]
        by_cases hne : b' = b
        · subst hne
          rw [hbl] at hb'; cases hb'
          simp only [if_true]
          rw [div_append_full hT' _ _ hfull, ← chunk_append_full _ _ hfull]
          have hb'' : ∀ bb : BaselineBuffer F D, (st.setBuffer b' bb).buffers b' = bb := by
            intro bb; simp [State.setBuffer]
          rw [hb'']
          exact rowsAre_add (hinv.rows b' bl hbl) _ (fun i hi => chunk_append _ _ hi)
        · simp only [hne, if_false]
          exact rowsAre_other (hinv.rows b' bl' hb') rfl hne
    · rw [if_neg hfull]
      refine ⟨_, rfl, hcur, hout1, ?_, ?_⟩
      · intro b' bl' hb'
        by_cases hne : b' = b
        · subst hne
          rw [hbl] at hb'; cases hb'
          simp only [if_true]
          rw [pending_append_notFull hT' _ _ hfull]
          simp [State.setBuffer]
        · simp only [State.setBuffer, hne, if_false]
          exact hinv.buf b' bl' hb'
      · intro b' bl' hb'
        rw [hrows1]
        by_cases hne : b' = b
        · subst hne
          rw [hbl] at hb'; cases hb'
          simp only [if_true]
          have := hinv.rows b' bl hbl
          rw [div_append_notFull hT' _ _ hfull]
          refine ⟨this.1, ?_⟩
          intro i r hr
          have hi : i < (h b').length / bl.timeFactor := by
            rw [← this.1]; exact (List.getElem?_eq_some_iff.1 hr).1
          rw [chunk_append _ _ hi]
          exact this.2 i r hr
        · simp only [hne, if_false]
          exact hinv.rows b' bl' hb'

omit [IsStrictOrderedRing F] in
theorem Inv.congr {c : Config F} {B : F} {h h' : Nat → List (Slot F D)} {st : State F D}
    (hi : Inv c B h st) (he : ∀ b < c.baselines.length, h' b = h b) : Inv c B h' st := by
  have hlt : ∀ b bl, c.baselines[b]? = some bl → b < c.baselines.length :=
    fun b bl hb => (List.getElem?_eq_some_iff.1 hb).1
  refine ⟨hi.out, ?_, ?_⟩
  · intro b bl hb; rw [he b (hlt b bl hb)]; exact hi.buf b bl hb
  · intro b bl hb; rw [he b (hlt b bl hb)]; exact hi.rows b bl hb

/-- All baselines of `process`. -/
theorem processLoop_ok (c : Config F) (hti : c.tolerance ≤ c.timeInterval) (htol : 0 ≤ c.tolerance)
    (hT : ∀ bl ∈ c.baselines, 0 < bl.timeFactor)
    {t0 : F} {l : List (Slot F D)} {st : State F D} {s : Slot F D}
    (hinv : Inv c (t0 + (l.length : F) * c.timeInterval - c.timeInterval / 2) (fun _ => l) st)
    (hcur : st.current.isSome) (hreg : Regular t0 c.timeInterval (l ++ [s])) (n : Nat) :
    ∃ st', (List.range n).foldlM (processBaseline c s) st = some st' ∧ st'.current.isSome ∧
      Inv c (t0 + (l.length : F) * c.timeInterval - c.timeInterval / 2)
        (fun b => if b < n then l ++ [s] else l) st' := by
  induction n with
  | zero => exact ⟨st, rfl, hcur, by simpa using hinv⟩
  | succ n ih =>
    obtain ⟨st1, h1, h2, h3⟩ := ih
    obtain ⟨st2, h4, h5, h6⟩ := processBaseline_ok c hti htol hT (b := n) (s := s) h3 h2 (by simp)
      (by simpa using hreg)
    refine ⟨st2, ?_, h5, ?_⟩
    · rw [List.range_succ, List.foldlM_append, h1]
      simp [h4]
    · convert h6 using 2 with b
      by_cases hb : b = n
      · subst hb; simp
      · have : b < n + 1 ↔ b < n := by omega
        simp [hb, this]

omit [IsStrictOrderedRing F] [AddCommGroup D] [Module F D] in
theorem OutInv.mono {c : Config F} {B B' : F} (hB : B ≤ B') {st : State F D} (h : OutInv c B st) :
    OutInv c B' st :=
  ⟨h.capacity, h.requests, fun o ho r hr => le_trans (h.starts o ho r hr) hB, h.rowNrs, h.chans⟩

omit [IsStrictOrderedRing F] in
theorem Inv.mono {c : Config F} {B B' : F} (hB : B ≤ B') {h : Nat → List (Slot F D)} {st : State F D}
    (hi : Inv c B h st) : Inv c B' h st := ⟨hi.out.mono hB, hi.buf, hi.rows⟩

/-- `process`. -/
theorem process_ok (c : Config F) (hti : c.tolerance ≤ c.timeInterval) (htol : 0 ≤ c.tolerance)
    (hT : ∀ bl ∈ c.baselines, 0 < bl.timeFactor)
    {t0 : F} {l : List (Slot F D)} {st : State F D} {s : Slot F D}
    (hinv : Inv c (t0 + (l.length : F) * c.timeInterval - c.timeInterval / 2) (fun _ => l) st)
    (hreg : Regular t0 c.timeInterval (l ++ [s])) :
    ∃ st', process c st s = some st' ∧
      Inv c (t0 + (l.length : F) * c.timeInterval - c.timeInterval / 2) (fun _ => l ++ [s]) st' := by
  have hst1 : ∃ st1, (if st.current.isNone then initializeBuffer c st else st) = st1 ∧
      Inv c (t0 + (l.length : F) * c.timeInterval - c.timeInterval / 2) (fun _ => l) st1 ∧
      st1.current.isSome := by
    by_cases hn : st.current.isNone
    · have := initialize_ok c hinv.out (by simpa using hn)
      obtain ⟨i1, i2, i3, i4, o, i5, -⟩ := this
      refine ⟨_, if_pos hn, ⟨i1, ?_, ?_⟩, by simp [i5]⟩
      · rw [i3]; exact hinv.buf
      · rw [i2]; exact hinv.rows
    · exact ⟨st, if_neg hn, hinv, by cases h : st.current <;> simp_all⟩
  obtain ⟨st1, he, hinv1, hcur1⟩ := hst1
  obtain ⟨st2, h1, h2, h3⟩ := processLoop_ok c hti htol hT hinv1 hcur1 hreg c.baselines.length
  have h3' : Inv c (t0 + (l.length : F) * c.timeInterval - c.timeInterval / 2)
      (fun _ => l ++ [s]) st2 := h3.congr (fun b hb => by simp [hb])
  obtain ⟨o, ho⟩ := Option.isSome_iff_exists.1 h2
  unfold process
  simp only [he, h1, Option.bind_eq_bind, Option.bind_some, ho]
  refine ⟨_, rfl, ?_⟩
  split
  · have hs := send_ok c h3'.out
    refine ⟨hs.1, h3'.buf, ?_⟩
    intro b bl hb
    rw [hs.2]; exact h3'.rows b bl hb
  · exact h3'

/-- One baseline of `finish`. -/
theorem finishLoop_ok (c : Config F) (hti : c.tolerance ≤ c.timeInterval) (htol : 0 ≤ c.tolerance)
    (hT : ∀ bl ∈ c.baselines, 0 < bl.timeFactor)
    {t0 : F} {K : Nat} {l : List (Slot F D)} {st : State F D}
    (hinv : Inv c (t0 + (K : F) * c.timeInterval - c.timeInterval / 2) (fun _ => l) st)
    (hK : l ≠ [] → l.length = K + 1)
    (hreg : Regular t0 c.timeInterval l) (n : Nat) :
    ∃ st', (List.range n).foldlM (finishBaseline c) st = some st' ∧
      OutInv c (t0 + (K : F) * c.timeInterval - c.timeInterval / 2) st' ∧
      (∀ b bl, c.baselines[b]? = some bl → n ≤ b →
        st'.buffers b = bbOf c b bl (pending bl.timeFactor l) ∧
        RowsAre c b bl (allRows st') l (l.length / bl.timeFactor)) ∧
      (∀ b bl, c.baselines[b]? = some bl → b < n →
        RowsAre c b bl (allRows st') l ((l.length + bl.timeFactor - 1) / bl.timeFactor)) := by
  induction n with
  | zero =>
    refine ⟨st, rfl, hinv.out, ?_, ?_⟩
    · intro b bl hb _; exact ⟨hinv.buf b bl hb, hinv.rows b bl hb⟩
    · intro b bl _ h; omega
  | succ n ih =>
    obtain ⟨st1, h1, hout, hrest, hdone⟩ := ih
    have hfold : (List.range (n + 1)).foldlM (finishBaseline c) st = finishBaseline c st1 n := by
      rw [List.range_succ, List.foldlM_append, h1]
      simp
    rw [hfold]
    unfold finishBaseline
    cases hbl : c.baselines[n]? with
    | none =>
      refine ⟨st1, rfl, hout, fun b bl hb h => hrest b bl hb (by omega), ?_⟩
      intro b bl hb h
      have : b ≠ n := by rintro rfl; rw [hbl] at hb; cases hb
      exact hdone b bl hb (by omega)
    | some bl =>
      have hmem : bl ∈ c.baselines := List.mem_of_getElem? hbl
      have hT' := hT bl hmem
      obtain ⟨hbuf, hrows⟩ := hrest n bl hbl (Nat.le_refl _)
      have hta : (st1.buffers n).timesAdded = l.length % bl.timeFactor := by
        rw [hbuf, (bbOf_times c n bl _).1, pending_length]
      simp only
      rw [hta]
      by_cases hpos : l.length % bl.timeFactor > 0
      · rw [if_pos hpos]
        have hst2 : ∃ st2, (if st1.current.isNone then initializeBuffer c st1 else st1) = st2 ∧
            OutInv c (t0 + (K : F) * c.timeInterval - c.timeInterval / 2) st2 ∧
            allRows st2 = allRows st1 ∧ st2.buffers = st1.buffers ∧ st2.current.isSome := by
          by_cases hn : st1.current.isNone
          · obtain ⟨i1, i2, i3, i4, o, i5, -⟩ := initialize_ok c hout (by simpa using hn)
            exact ⟨_, if_pos hn, i1, i2, i3, by simp [i5]⟩
          · exact ⟨st1, if_neg hn, hout, rfl, rfl, by cases h : st1.current <;> simp_all⟩
        obtain ⟨st2, he, hout2, hrows2, hbuf2, hcur2⟩ := hst2
        rw [he]
        have hne : l ≠ [] := by rintro rfl; simp at hpos
        have hlen := hK hne
        have hdiv : l.length / bl.timeFactor * bl.timeFactor < l.length := by
          have := Nat.div_add_mod l.length bl.timeFactor
          rw [Nat.mul_comm] at this; omega
        have hb := start_end_bounds c n bl hti htol hreg hdiv hlen
        have hb' : (st2.buffers n) = bbOf c n bl (l.drop (l.length / bl.timeFactor * bl.timeFactor)) := by
          rw [hbuf2, hbuf]; rfl
        obtain ⟨st', g1, g2, g3, g4, g5⟩ := addBaseline_ok c hout2 (b := n) (bl := bl) hmem hcur2
          (by rw [hb']; exact hb.1) (by rw [hb']; exact hb.2)
        have hceil : (l.length + bl.timeFactor - 1) / bl.timeFactor = l.length / bl.timeFactor + 1 := by
          have h0 := Nat.div_add_mod l.length bl.timeFactor
          have hlt := Nat.mod_lt l.length hT'
          apply Nat.div_eq_of_lt_le
          · rw [Nat.add_mul, Nat.mul_comm]; omega
          · rw [Nat.add_mul, Nat.add_mul, Nat.mul_comm]; omega
        refine ⟨st', g1, g3, ?_, ?_⟩
        · intro b bl' hb1 hb2
          have hbn : b ≠ n := by omega
          have := hrest b bl' hb1 (by omega)
          rw [g5, g2, hrows2]
          refine ⟨?_, rowsAre_other this.2 rfl hbn⟩
          simp only [hbn, if_false, hbuf2]
          exact this.1
        · intro b bl' hb1 hb2
          rw [g2, hrows2]
          by_cases hbn : b = n
          · subst hbn
            rw [hbl] at hb1; cases hb1
            rw [hceil, hb']
            have := rowsAre_add (l' := l) hrows st2.rowCounter (fun i _ => rfl)
            rw [chunk_pending hT'] at this
            exact this
          · exact rowsAre_other (hdone b bl' hb1 (by omega)) rfl hbn
      · rw [if_neg hpos]
        refine ⟨st1, rfl, hout, fun b bl hb h => hrest b bl hb (by omega), ?_⟩
        intro b bl' hb1 hb2
        by_cases hbn : b = n
        · subst hbn
          rw [hbl] at hb1; cases hb1
          have hceil : (l.length + bl.timeFactor - 1) / bl.timeFactor = l.length / bl.timeFactor := by
            have h0 := Nat.div_add_mod l.length bl.timeFactor
            apply Nat.div_eq_of_lt_le
            · rw [Nat.mul_comm]; omega
            · rw [Nat.add_mul, Nat.mul_comm]; omega
          rw [hceil]
          exact hrows
        · exact hdone b bl' hb1 (by omega)

end DP3.BdaAverager
