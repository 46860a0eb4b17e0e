import Verif.BdaDdeCal.Core

/-!
# Runs of BdaDdeCal: the invariant of `process` and `finish`, and that they succeed
-/

namespace DP3.BdaDdeCal

set_option linter.unusedSimpArgs false
set_option linter.unusedSectionVars false

open DP3.BdaSolverBuffer (Row Config State Inv Op Seen slot given rowsOf advances)
open DP3.DdeCal (Sols)

variable {F K : Type} [Field K] [Field F] [LinearOrder F] [IsStrictOrderedRing F] [FloorRing F]

/-! ## Output -/

theorem staged_has {e : Env F K} (sols : List (Sols K)) {b : Buf F K}
    (hk : keepUnweighted e = true) (h : ∀ name ∈ e.names, hasData b name = true) :
    ∀ name ∈ e.names, hasData (staged e sols b) name = true := by
  intro name hname
  have := h name hname
  unfold hasData at this ⊢
  unfold staged withExtra
  simp only [hname, hk, if_true]
  cases hb : b.extra name with
  | none => rw [hb] at this; cases this
  | some v => rfl

theorem finalBuf_staged {e : Env F K} (sols : List (Sols K)) {b : Buf F K}
    (h : ∀ name ∈ e.names, hasData b name = true) :
    finalBuf e (staged e sols b) = .ok (final e sols b) := by
  have hx : ∀ b1 : Buf F K, (b1.rows = b.rows ∧ b1.flags = b.flags ∧ b1.weights = b.weights ∧
      b1.data = (final e sols b).data ∧ b1.extra = (staged e sols b).extra) →
      (if e.keepModel then b1 else e.names.foldl (fun b name => removeExtra name b) b1) =
        final e sols b := by
    rintro ⟨r1, d1, f1, w1, x1⟩ ⟨h1, h2, h3, h4, h5⟩
    simp only at h1 h2 h3 h4 h5
    subst h1 h2 h3 h4 h5
    unfold final
    by_cases hk : e.keepModel
    · simp only [hk, if_true]
      congr 1
      funext name
      split_ifs with hn
      · rfl
      · unfold staged withExtra
        simp [hn]
    · simp only [hk, if_false, Bool.false_eq_true]
      rw [foldl_remove]
      unfold withExtra
      simp only
      congr 1
      funext name
      split_ifs with hn
      · rfl
      · unfold staged withExtra
        simp [hn]
  unfold finalBuf
  by_cases hs : e.subtract
  · rw [if_pos hs, subtractModels_total (staged_has sols (by simp [keepUnweighted, hs]) h)]
    simp only
    rw [hx]
    refine ⟨rfl, rfl, rfl, ?_, rfl⟩
    simp only [final, hs, if_true]
    rfl
  · rw [if_neg hs]
    simp only
    rw [hx]
    refine ⟨rfl, rfl, rfl, ?_, rfl⟩
    simp only [final, hs, if_false]
    rfl

theorem mapM_except {A B : Type} {f : A → Except Err B} {g : A → B} {l : List A}
    (h : ∀ a ∈ l, f a = .ok (g a)) : l.mapM f = .ok (l.map g) := by
  induction l with
  | nil => rfl
  | cons a l ih =>
    rw [List.mapM_cons, h a (by simp), ih fun x hx => h x (by simp [hx])]
    rfl

variable [LinearOrder K]

theorem sinv_done {e : Env F K} {l : List (Buf F K)} {st : St F K} (h : SInv e l st) :
    ∃ st', processDone e st = .ok st' ∧ SInv e l st' ∧ st'.sent = st.sent ∧ st'.queue = st.queue ∧
      st'.done = [] ∧ st'.sols = st.sols ∧ st'.core.lastComplete = st.core.lastComplete ∧
      st'.core.data = st.core.data ∧ st'.bufs = st.bufs := by
  obtain ⟨ops, seen, hi, hg, hadv, hcalls, hret⟩ := h.core
  have hle : st.out.length ≤ l.length := by
    have := congrArg List.length h.out
    simp only [List.length_map, List.length_take] at this
    omega
  have hd : st.done = ((l.drop st.out.length).take st.done.length).map (staged e st.sols) := by
    rw [List.map_take, ← h.bufs]; simp
  have hb : st.bufs = ((l.drop st.out.length).drop st.done.length).map (staged e st.sols) := by
    rw [List.map_drop, ← h.bufs]; simp
  have hm : st.done.mapM (finalBuf e) =
      .ok (((l.drop st.out.length).take st.done.length).map (final e st.sols)) := by
    conv_lhs => rw [hd]
    have : ∀ (g : List (Buf F K)), (∀ b ∈ g, b ∈ l) →
        (g.map (staged e st.sols)).mapM (finalBuf e) = .ok (g.map (final e st.sols)) := by
      intro g hgl
      induction g with
      | nil => rfl
      | cons b g ih =>
        rw [List.map_cons, List.mapM_cons,
          finalBuf_staged st.sols (h.models b (hgl b (by simp))),
          ih fun x hx => hgl x (by simp [hx])]
        rfl
    apply this
    intro b hb'
    exact List.mem_of_mem_drop (List.mem_of_mem_take hb')
  have hlen : ((l.drop st.out.length).take st.done.length).length = st.done.length := by
    have := congrArg List.length hd
    rw [List.length_map] at this
    exact this.symm
  have hout : st.out ++ ((l.drop st.out.length).take st.done.length).map (final e st.sols) =
      (l.take (st.out.length + st.done.length)).map (final e st.sols) := by
    rw [List.take_add, List.map_append, ← h.out]
  refine ⟨{ (getDone st).1 with out := st.out ++
      ((l.drop st.out.length).take st.done.length).map (final e st.sols) }, ?_, ?_, rfl, rfl, rfl,
      rfl, rfl, rfl, rfl⟩
  · unfold processDone getDone
    simp only
    rw [hm]
  · refine ⟨⟨ops ++ [.getDone], ⟨seen.intervals, seen.returned ++ st.core.done⟩, ?_, ?_, ?_, hcalls, ?_⟩, h.data, rfl, h.mem,
      h.models, ?_, ?_, h.nCalls, h.sols, h.iters, h.cons, h.calls,
      h.slots, h.live, h.needed⟩
    · exact BdaSolverBuffer.inv_step (o := .getDone) hi rfl
    · rw [BdaSolverBuffer.given_append, hg]
      simp [given]
    · rw [BdaSolverBuffer.advances_append, hadv]
      simp [advances, getDone]
    · simp only [List.map_append, List.map_map]
      rw [hret, h.done]
      conv_lhs => rw [hd]
      rw [List.map_map]
      rfl
    · simp only [getDone, List.nil_append, List.length_append, List.length_map, hlen]
      rw [hb, List.drop_drop]
    · simp only [List.length_append, List.length_map, hlen]
      exact hout

theorem sinv_appendAll {e : Env F K} {chunk l : List (Buf F K)} {st st' : St F K}
    (h : SInv e l st) (hids : IdsNodup (l ++ chunk)) (ha : appendAll e chunk st = .ok st') :
    SInv e (l ++ chunk) st' ∧ st'.sent = st.sent ∧ st'.queue = st.queue := by
  induction chunk generalizing l st with
  | nil => cases ha; simpa using h
  | cons b chunk ih =>
    unfold appendAll at ha
    cases h1 : appendAndWeight e st b with
    | error x => rw [h1] at ha; cases ha
    | ok st1 =>
      rw [h1] at ha
      have hids' : IdsNodup ((l ++ [b]) ++ chunk) := by simpa using hids
      have hids1 : IdsNodup (l ++ [b]) := by
        unfold IdsNodup at hids' ⊢
        rw [List.flatMap_append, List.map_append] at hids'
        exact (List.nodup_append.1 hids').1
      obtain ⟨h2, h3, h4, -, -, -⟩ := sinv_append h hids1 h1
      obtain ⟨h5, h6, h7⟩ := ih h2 hids' ha
      exact ⟨by simpa using h5, h6.trans h3, h7.trans h4⟩

theorem sinv_tracked {e : Env F K} {l : List (Buf F K)} {st : St F K} (h : SInv e l st) :
    BdaSolverBuffer.Tracked e.config st.core (l.flatMap (·.rows)) := by
  obtain ⟨ops, seen, hi, hg, -, -, -⟩ := h.core
  have := hi.tracked
  unfold rowsOf at this
  rw [hg] at this
  rw [List.flatMap_def]
  exact this

/-- A complete interval has later rows. -/
theorem need_complete {e : Env F K} {l : List (Buf F K)} {st : St F K} (h : SInv e l st)
    (hc : BdaSolverBuffer.isComplete st.core = some true) (ht : Tidy e l) :
    ∃ b ∈ l, ∃ r ∈ b.rows, (st.sols.length : Int) ≤ slot e.config r.time := by
  unfold BdaSolverBuffer.isComplete at hc
  split_ifs at hc with hempty
  simp only [Option.some.injEq, List.all_eq_true, decide_eq_true_eq] at hc
  have hne : st.core.lastComplete ≠ [] := fun h0 => hempty (by rw [h0]; rfl)
  have hlt : 0 < st.core.lastComplete.length := List.length_pos_iff.2 hne
  have hv := hc _ (List.getElem_mem hlt)
  obtain ⟨ops, seen, hi, hg, hadv, -⟩ := h.core
  have hcur : st.core.current = (st.sols.length : Int) := by rw [hi.current, hadv]
  rcases sinv_tracked h 0 _ (List.getElem?_eq_getElem hlt) with ⟨r, hr, -, hs⟩ | h0
  · obtain ⟨b, hb, hrb⟩ := List.mem_flatMap.1 hr
    have hle : r.startTime ≤ r.time := by
      have := (ht.2 b hb).2 r hrb
      unfold BdaSolverBuffer.Row.startTime
      linarith
    have := BdaSolverBuffer.slot_mono ht.1 hle
    exact ⟨b, hb, r, hrb, by omega⟩
  · omega

/-- Buffers that are left have rows that are not old. -/
theorem need_rest {e : Env F K} {l : List (Buf F K)} {st : St F K} (h : SInv e l st)
    (hd : ¬ st.core.data.isEmpty = true) (ht : Tidy e l) :
    ∃ b ∈ l, ∃ r ∈ b.rows, (st.sols.length : Int) ≤ slot e.config r.time := by
  obtain ⟨ops, seen, hi, hg, hadv, -⟩ := h.core
  have hcur : st.core.current = (st.sols.length : Int) := by rw [hi.current, hadv]
  cases hdd : st.core.data with
  | nil => rw [hdd] at hd; simp at hd
  | cons rows t =>
    have hmem : rows ∈ l.map (·.rows) := by
      have := hi.buffers
      rw [← hg, ← this]
      simp only
      rw [hdd]
      simp
    obtain ⟨b, hb, rfl⟩ := List.mem_map.1 hmem
    obtain ⟨r, hr, hle⟩ := h.live b.rows (by rw [hdd]; rfl) (ht.2 b hb).1
    exact ⟨b, hb, r, hr, by omega⟩

theorem sinv_solveComplete {e : Env F K} (hnd : e.names.Nodup) {l : List (Buf F K)} {fuel : Nat}
    {st st' : St F K} (hids : IdsNodup l) (h : SInv e l st)
    (hs : solveComplete e fuel st = .ok st') :
    SInv e l st' ∧ st'.sent = st.sent ∧ st'.queue = st.queue := by
  induction fuel generalizing st with
  | zero => cases hs; exact ⟨h, rfl, rfl⟩
  | succ fuel ih =>
    unfold solveComplete at hs
    cases hc : BdaSolverBuffer.isComplete st.core with
    | none => rw [hc] at hs; cases hs
    | some t =>
      rw [hc] at hs
      cases t with
      | false => cases hs; exact ⟨h, rfl, rfl⟩
      | true =>
        simp only at hs
        cases h1 : solveCurrent e st with
        | error x => rw [h1] at hs; cases hs
        | ok st1 =>
          rw [h1] at hs
          obtain ⟨h2, h3, h4, -, -, -⟩ := sinv_solve hnd hids h (need_complete h hc) h1
          obtain ⟨h5, h6, h7⟩ := ih h2 hs
          exact ⟨h5, h6.trans h3, h7.trans h4⟩

theorem sinv_solveRest {e : Env F K} (hnd : e.names.Nodup) {l : List (Buf F K)} {fuel : Nat}
    {st st' : St F K} (hids : IdsNodup l) (h : SInv e l st)
    (hs : solveRest e fuel st = .ok st') :
    SInv e l st' ∧ st'.sent = st.sent ∧ st'.queue = st.queue := by
  induction fuel generalizing st with
  | zero => cases hs; exact ⟨h, rfl, rfl⟩
  | succ fuel ih =>
    unfold solveRest at hs
    split_ifs at hs with hd
    · cases hs; exact ⟨h, rfl, rfl⟩
    · cases h1 : solveCurrent e st with
      | error x => rw [h1] at hs; cases hs
      | ok st1 =>
        rw [h1] at hs
        obtain ⟨h2, h3, h4, -, -, -⟩ := sinv_solve hnd hids h (need_rest h hd) h1
        obtain ⟨h5, h6, h7⟩ := ih h2 hs
        exact ⟨h5, h6.trans h3, h7.trans h4⟩

/-! ## The bounds of the loops are enough -/

theorem lastComplete_advance (c : Config F) (s : State F) :
    (BdaSolverBuffer.advanceInterval c s).lastComplete = s.lastComplete.map (· - 1) := rfl

/-- The loop over the complete intervals ends because there are no more. -/
theorem solveComplete_end {e : Env F K} (hnd : e.names.Nodup) {l : List (Buf F K)} {fuel : Nat}
    {st st' : St F K} (hids : IdsNodup l) (h : SInv e l st)
    (hf : (st.core.lastComplete.getD 0 (-1) + 2).toNat ≤ fuel)
    (hs : solveComplete e fuel st = .ok st') (hne : st.core.lastComplete ≠ []) :
    BdaSolverBuffer.isComplete st'.core = some false := by
  have hcase : ∀ s : State F, s.lastComplete ≠ [] → s.lastComplete.getD 0 (-1) < 0 →
      BdaSolverBuffer.isComplete s = some false := by
    intro s hs1 hs2
    unfold BdaSolverBuffer.isComplete
    cases hl : s.lastComplete with
    | nil => exact absurd hl hs1
    | cons v t =>
      rw [hl] at hs2
      simp only [List.getD_cons_zero] at hs2
      have : ¬ (0 ≤ v) := by omega
      simp [this]
  induction fuel generalizing st with
  | zero =>
    cases hs
    exact hcase _ hne (by omega)
  | succ fuel ih =>
    unfold solveComplete at hs
    cases hc : BdaSolverBuffer.isComplete st.core with
    | none => rw [hc] at hs; cases hs
    | some t =>
      rw [hc] at hs
      cases t with
      | false => cases hs; exact hc
      | true =>
        simp only at hs
        cases h1 : solveCurrent e st with
        | error x => rw [h1] at hs; cases hs
        | ok st1 =>
          rw [h1] at hs
          obtain ⟨h2, h3, h4, -, h5, -⟩ := sinv_solve hnd hids h (need_complete h hc) h1
          have hlc : (advance e st1).core.lastComplete = st.core.lastComplete.map (· - 1) := by
            rw [h5, lastComplete_advance]
          refine ih h2 ?_ hs ?_
          · rw [hlc]
            cases hl : st.core.lastComplete with
            | nil => exact absurd hl hne
            | cons v t =>
              rw [hl] at hf
              simp only [List.getD_cons_zero, List.map_cons] at hf ⊢
              omega
          · rw [hlc]
            simpa using hne

theorem foldl_max_le (l : List Nat) (a : Nat) :
    a ≤ l.foldl max a ∧ ∀ x ∈ l, x ≤ l.foldl max a := by
  induction l generalizing a with
  | nil => simp
  | cons y l ih =>
    obtain ⟨h1, h2⟩ := ih (max a y)
    refine ⟨le_trans (le_max_left a y) h1, ?_⟩
    intro x hx
    rcases List.mem_cons.1 hx with rfl | hx
    · exact le_trans (le_max_right a x) h1
    · exact h2 x hx

/-- The loop in `finish` ends because no buffers are left. -/
theorem solveRest_end {e : Env F K} (hnd : e.names.Nodup) {l : List (Buf F K)} {fuel : Nat}
    {st st' : St F K} (hids : IdsNodup l) (h : SInv e l st) (hf0 : st.core.data ≠ [] → 1 ≤ fuel)
    (hf : ∀ b ∈ st.core.data, ∀ r ∈ b, slot e.config r.time < st.core.current + fuel)
    (hs : solveRest e fuel st = .ok st') : st'.core.data = [] := by
  induction fuel generalizing st with
  | zero =>
    cases hs
    by_contra hne
    have := hf0 hne
    omega
  | succ fuel ih =>
    unfold solveRest at hs
    split_ifs at hs with hd
    · cases hs
      exact List.isEmpty_iff.1 hd
    · cases h1 : solveCurrent e st with
      | error x => rw [h1] at hs; cases hs
      | ok st1 =>
        rw [h1] at hs
        obtain ⟨h2, h3, h4, -, h5, -⟩ := sinv_solve hnd hids h (need_rest h hd) h1
        obtain ⟨old, o1, o2, o3, o4⟩ := BdaSolverBuffer.removeOld_spec e.config
          { data := st.core.data, done := st.core.done, current := st.core.current + 1,
            lastComplete := st.core.lastComplete.map (· - 1),
            dataRows := if (st.core.dataRows.drop 1).isEmpty then [[]] else
              st.core.dataRows.drop 1 }
          st.core.data st.core.done
        have hdat : st.core.data = old ++ (advance e st1).core.data := by rw [h5]; exact o2
        have hcur : (advance e st1).core.current = st.core.current + 1 := by rw [h5]; rfl
        have hsub : ∀ b ∈ (advance e st1).core.data, b ∈ st.core.data := by
          intro b hb
          rw [hdat]
          simp [hb]
        refine ih h2 ?_ ?_ hs
        · intro hne
          cases hdd : (advance e st1).core.data with
          | nil => exact absurd hdd hne
          | cons b t =>
            have hb : b ∈ (advance e st1).core.data := by rw [hdd]; simp
            have hhead : (advance e st1).core.data.head? = some b := by rw [hdd]; rfl
            rw [h5] at hhead
            obtain ⟨r, hr, hlt⟩ := o4 b hhead
            have := hf b (hsub b hb) r hr
            simp only at hlt
            omega
        · intro b hb r hr
          have := hf b (hsub b hb) r hr
          rw [hcur]
          push_cast at this ⊢
          omega

theorem restFuel_enough (e : Env F K) (st : St F K) :
    1 ≤ restFuel e st ∧ ∀ b ∈ st.core.data, ∀ r ∈ b,
      slot e.config r.time < st.core.current + (restFuel e st : Nat) := by
  unfold restFuel
  obtain ⟨h1, h2⟩ := foldl_max_le (st.core.data.flatten.map fun r =>
    (BdaSolverBuffer.relativeIndex e.config st.core r.time + 1).toNat) 1
  refine ⟨h1, ?_⟩
  intro b hb r hr
  have := h2 _ (List.mem_map_of_mem (List.mem_flatten.2 ⟨b, hb, hr⟩))
  unfold BdaSolverBuffer.relativeIndex at this
  unfold slot
  simp only [BdaSolverBuffer.relativeIndex] at this ⊢
  omega

/-! ## Success -/

/-- Rows as a correct BDA measurement set has them. -/
structure Orderly (e : Env F K) (rows : List (Row F)) : Prop where
  baseline : ∀ r ∈ rows, r.bl < e.nBl
  interval : ∀ r ∈ rows, 0 ≤ r.interval
  start : ∀ r ∈ rows, e.config.start ≤ r.startTime
  order : rows.Pairwise fun r r' => r.bl = r'.bl → r.startTime ≤ r'.startTime
  channels : ∀ r ∈ rows, e.ant1 r.bl ≠ e.ant2 r.bl → e.nBlocks ≤ e.nChan r.bl

/-- The current interval is not beyond the start of the last rows. -/
def Prompt (e : Env F K) (rows : List (Row F)) (s : State F) : Prop :=
  s.lastComplete.length = e.nBl ∧ 0 ≤ s.current ∧
    ∀ bl, bl < e.nBl → s.current ≤ 0 ∨
      ∃ r ∈ rows, r.bl = bl ∧ s.current ≤ slot e.config r.startTime

theorem slot_nonneg {c : Config F} (hc : 0 < c.interval) {t : F} (h : c.start ≤ t) : 0 ≤ slot c t := by
  unfold slot
  apply Int.floor_nonneg.2
  apply div_nonneg _ hc.le
  linarith

theorem appendRow_total {e : Env F K} (hc : 0 < e.config.interval) {rows : List (Row F)} {r : Row F}
    {s : State F} (ho : Orderly e (rows ++ [r])) (ht : BdaSolverBuffer.Tracked e.config s rows)
    (hp : Prompt e rows s) : ∃ s', BdaSolverBuffer.appendRow e.config s r = .ok s' ∧
      Prompt e (rows ++ [r]) s' := by
  have hbl := ho.baseline r (by simp)
  have hst := slot_nonneg hc (ho.start r (by simp))
  have hle : r.startTime ≤ r.time := by
    have := ho.interval r (by simp)
    unfold BdaSolverBuffer.Row.startTime
    linarith
  have hslot := BdaSolverBuffer.slot_mono hc hle
  have hord : ∀ r0 ∈ rows, r0.bl = r.bl → slot e.config r0.startTime ≤ slot e.config r.startTime :=
    fun r0 h0 hb => BdaSolverBuffer.slot_mono hc
      ((List.pairwise_append.1 ho.order).2.2 r0 h0 r (by simp) hb)
  have hcur : s.current ≤ slot e.config r.startTime := by
    rcases hp.2.2 r.bl hbl with h0 | ⟨r0, h0, hb, hs⟩
    · omega
    · have := hord r0 h0 hb
      omega
  have hlt : r.bl < s.lastComplete.length := by rw [hp.1]; exact hbl
  have hres : ∃ s', BdaSolverBuffer.appendRow e.config s r = .ok s' := by
    unfold BdaSolverBuffer.appendRow
    simp only
    rw [if_neg (by unfold BdaSolverBuffer.relativeIndex; unfold slot at hcur hslot; omega),
      List.getElem?_eq_getElem hlt]
    simp only
    rw [if_neg]
    · exact ⟨_, rfl⟩
    · have := ht r.bl _ (List.getElem?_eq_getElem hlt)
      have e1 : BdaSolverBuffer.relativeIndex e.config s (r.time - r.interval / 2) =
          slot e.config r.startTime - s.current := rfl
      rw [e1]
      rcases this with ⟨r0, h0, hb, hs⟩ | h0
      · have := hord r0 h0 hb
        omega
      · omega
  obtain ⟨s', hs'⟩ := hres
  refine ⟨s', hs', ?_⟩
  obtain ⟨a1, -, -, -, -, a6⟩ := BdaSolverBuffer.appendRow_spec hs'
  refine ⟨by rw [a6, List.length_set]; exact hp.1, by rw [a1]; exact hp.2.1, ?_⟩
  intro bl hb
  rw [a1]
  rcases hp.2.2 bl hb with h0 | ⟨r0, h0, hb0, hs0⟩
  · exact .inl h0
  · exact .inr ⟨r0, by simp [h0], hb0, hs0⟩

theorem orderly_prefix {e : Env F K} {a b : List (Row F)} (h : Orderly e (a ++ b)) : Orderly e a :=
  ⟨fun r hr => h.baseline r (by simp [hr]), fun r hr => h.interval r (by simp [hr]),
    fun r hr => h.start r (by simp [hr]), (List.pairwise_append.1 h.order).1,
    fun r hr => h.channels r (by simp [hr])⟩

theorem append_total {e : Env F K} (hc : 0 < e.config.interval) {rows b : List (Row F)}
    {s : State F} (ho : Orderly e (rows ++ b)) (ht : BdaSolverBuffer.Tracked e.config s rows)
    (hp : Prompt e rows s) : ∃ s', BdaSolverBuffer.append e.config s b = .ok s' ∧
      Prompt e (rows ++ b) s' := by
  have key : ∃ s', b.foldlM (BdaSolverBuffer.appendRow e.config) s = .ok s' ∧
      Prompt e (rows ++ b) s' := by
    induction b generalizing rows s with
    | nil => exact ⟨s, rfl, by simpa using hp⟩
    | cons r b ih =>
      have ho' : Orderly e ((rows ++ [r]) ++ b) := by simpa using ho
      obtain ⟨s1, h1, h2⟩ := appendRow_total hc (orderly_prefix ho') ht hp
      obtain ⟨s2, h3, h4⟩ := ih ho' (BdaSolverBuffer.appendRow_tracked h1 ht) h2
      refine ⟨s2, ?_, by simpa using h4⟩
      rw [List.foldlM_cons, h1]
      exact h3
  obtain ⟨s1, h1, h2⟩ := key
  refine ⟨{ s1 with data := s1.data ++ [b] }, ?_, h2⟩
  unfold BdaSolverBuffer.append
  rw [h1]
  rfl

theorem appendAll_total {e : Env F K} (hc : 0 < e.config.interval) {chunk l : List (Buf F K)}
    {st : St F K} (h : SInv e l st) (hids : IdsNodup (l ++ chunk))
    (hm : ∀ b ∈ chunk, ∀ name ∈ e.names, hasData b name = true)
    (ho : Orderly e ((l ++ chunk).flatMap (·.rows))) (hp : Prompt e (l.flatMap (·.rows)) st.core) :
    ∃ st', appendAll e chunk st = .ok st' ∧ Prompt e ((l ++ chunk).flatMap (·.rows)) st'.core := by
  induction chunk generalizing l st with
  | nil => exact ⟨st, rfl, by simpa using hp⟩
  | cons b chunk ih =>
    have e0 : l ++ b :: chunk = (l ++ [b]) ++ chunk := by simp
    rw [e0] at hids ho ⊢
    have hids1 : IdsNodup (l ++ [b]) := by
      unfold IdsNodup at hids ⊢
      rw [List.flatMap_append, List.map_append] at hids
      exact (List.nodup_append.1 hids).1
    have ho1 : Orderly e (l.flatMap (·.rows) ++ b.rows) := by
      rw [List.flatMap_append] at ho
      have := orderly_prefix ho
      simpa using this
    obtain ⟨core, h1, h2⟩ := append_total hc ho1 (sinv_tracked h) hp
    have ha : ∃ st1, appendAndWeight e st b = .ok st1 ∧ st1.core = core := by
      unfold appendAndWeight
      rw [modelsOf_total (hm b (by simp))]
      simp only
      rw [h1]
      exact ⟨_, rfl, rfl⟩
    obtain ⟨st1, ha1, ha2⟩ := ha
    obtain ⟨h3, -⟩ := sinv_append h hids1 ha1
    obtain ⟨st', h4, h5⟩ := ih h3 hids (fun b' hb' => hm b' (by simp [hb'])) ho
      (by rw [ha2]; simpa using h2)
    refine ⟨st', ?_, h5⟩
    unfold appendAll
    rw [ha1]
    exact h4

theorem solveCurrent_total {e : Env F K} {l : List (Buf F K)} {st : St F K} (h : SInv e l st)
    (ho : Orderly e (l.flatMap (·.rows))) : ∃ st', solveCurrent e st = .ok st' := by
  unfold solveCurrent
  simp only
  rw [if_neg]
  · exact ⟨_, rfl⟩
  · have : channelsOk e (callOf e st).rows = true := by
      unfold channelsOk callOf
      simp only
      rw [List.all_eq_true]
      intro p hp
      obtain ⟨r, hr, rfl⟩ := List.mem_map.1 hp
      rw [sinv_interval h, List.mem_filter] at hr
      by_cases hne : e.ant1 r.bl = e.ant2 r.bl
      · simp [hne]
      · simp [ho.channels r hr.1 hne]
    rw [this]
    simp

theorem solveComplete_total {e : Env F K} (hnd : e.names.Nodup) {l : List (Buf F K)} {fuel : Nat}
    {st : St F K} (hids : IdsNodup l) (h : SInv e l st) (hbl : 0 < e.nBl)
    (ho : Orderly e (l.flatMap (·.rows))) (hp : Prompt e (l.flatMap (·.rows)) st.core) :
    ∃ st', solveComplete e fuel st = .ok st' ∧ Prompt e (l.flatMap (·.rows)) st'.core := by
  induction fuel generalizing st with
  | zero => exact ⟨st, rfl, hp⟩
  | succ fuel ih =>
    unfold solveComplete
    cases hc : BdaSolverBuffer.isComplete st.core with
    | none =>
      exfalso
      unfold BdaSolverBuffer.isComplete at hc
      split_ifs at hc with hempty
      have := hp.1
      rw [List.isEmpty_iff.1 hempty] at this
      simp at this
      omega
    | some t =>
      cases t with
      | false => exact ⟨st, rfl, hp⟩
      | true =>
        obtain ⟨st1, h1⟩ := solveCurrent_total h ho
        simp only
        rw [h1]
        obtain ⟨h2, -, -, -, h5, -⟩ := sinv_solve hnd hids h (need_complete h hc) h1
        apply ih h2
        rw [h5]
        refine ⟨by rw [lastComplete_advance, List.length_map]; exact hp.1, ?_, ?_⟩
        · have : (BdaSolverBuffer.advanceInterval e.config st.core).current = st.core.current + 1 :=
            rfl
          have := hp.2.1
          omega
        · intro bl hb
          right
          have hlt : bl < st.core.lastComplete.length := by rw [hp.1]; exact hb
          have hv : 0 ≤ st.core.lastComplete[bl] := by
            unfold BdaSolverBuffer.isComplete at hc
            split_ifs at hc
            simp only [Option.some.injEq, List.all_eq_true, decide_eq_true_eq] at hc
            exact hc _ (List.getElem_mem hlt)
          have hcur : (BdaSolverBuffer.advanceInterval e.config st.core).current =
            st.core.current + 1 := rfl
          have := hp.2.1
          rcases sinv_tracked h bl _ (List.getElem?_eq_getElem hlt) with ⟨r, hr, hrb, hs⟩ | h0
          · exact ⟨r, hr, hrb, by omega⟩
          · omega

theorem solveRest_total {e : Env F K} (hnd : e.names.Nodup) {l : List (Buf F K)} {fuel : Nat}
    {st : St F K} (hids : IdsNodup l) (h : SInv e l st)
    (ho : Orderly e (l.flatMap (·.rows))) : ∃ st', solveRest e fuel st = .ok st' := by
  induction fuel generalizing st with
  | zero => exact ⟨st, rfl⟩
  | succ fuel ih =>
    unfold solveRest
    split_ifs with hd
    · exact ⟨st, rfl⟩
    · obtain ⟨st1, h1⟩ := solveCurrent_total h ho
      rw [h1]
      exact ih (sinv_solve hnd hids h (need_rest h hd) h1).1

/-! ## Without solving -/

/-- What leaves the step if only model data are predicted. -/
def predicted (e : Env F K) (b : Buf F K) : Buf F K :=
  if e.keepModel then b
  else
    { rows := b.rows
      data := modelSum e b
      flags := b.flags
      weights := b.weights
      extra := fun name => if name ∈ e.names then none else b.extra name }

theorem addModels_total {names : List String} (hnd : names.Nodup) {b : Buf F K}
    (h : ∀ name ∈ names, hasData b name = true) :
    addModels names b = .ok
      { rows := b.rows
        data := fun i ch => b.data i ch +
          (names.map fun name => ((b.extra name).getD fun _ _ => 0) i ch).sum
        flags := b.flags
        weights := b.weights
        extra := fun name => if name ∈ names then none else b.extra name } := by
  induction names generalizing b with
  | nil => unfold addModels; simp
  | cons n names ih =>
    rw [List.nodup_cons] at hnd
    unfold addModels
    have h1 := h n (by simp)
    unfold hasData at h1
    cases h2 : b.extra n with
    | none => rw [h2] at h1; cases h1
    | some v =>
      simp only
      have hx : ∀ name ∈ names, (if name = n then none else b.extra name) = b.extra name := by
        intro name hname
        rw [if_neg]
        rintro rfl
        exact hnd.1 hname
      rw [ih hnd.2]
      · unfold removeExtra
        simp only
        congr 2
        · funext i ch
          rw [List.map_cons, List.sum_cons, h2, Option.getD_some, add_assoc]
          congr 2
          congr 1
          apply List.map_congr_left
          intro name hname
          rw [hx name hname]
        · funext name
          by_cases hm : name ∈ names
          · simp [hm]
          · by_cases hn : name = n <;> simp [hm, hn]
      · intro name hname
        unfold hasData removeExtra
        simp only
        rw [hx name hname]
        exact h name (by simp [hname])

theorem sumModels_total {e : Env F K} (hnd : e.names.Nodup) (hne : e.names ≠ []) {b : Buf F K}
    (hk : e.keepModel = false) (h : ∀ name ∈ e.names, hasData b name = true) :
    sumModels e b = .ok (predicted e b) := by
  unfold sumModels predicted modelSum
  simp only [hk, Bool.false_eq_true, if_false]
  cases hl : e.names with
  | nil => exact absurd hl hne
  | cons n names =>
    rw [hl] at hnd h
    rw [List.nodup_cons] at hnd
    have h1 := h n (by simp)
    unfold hasData at h1
    cases h2 : b.extra n with
    | none => rw [h2] at h1; cases h1
    | some v =>
      simp only [h2]
      have hx : ∀ name ∈ names, (if name = n then none else b.extra name) = b.extra name := by
        intro name hname
        rw [if_neg]
        rintro rfl
        exact hnd.1 hname
      rw [addModels_total hnd.2]
      · unfold removeExtra
        simp only
        congr 2
        · funext i ch
          rw [List.map_cons, List.sum_cons, h2, Option.getD_some]
          congr 2
          apply List.map_congr_left
          intro name hname
          rw [hx name hname]
        · funext name
          by_cases hm : name ∈ names
          · simp [hm]
          · by_cases hn : name = n <;> simp [hm, hn]
      · intro name hname
        unfold hasData removeExtra
        simp only
        rw [hx name hname]
        exact h name (by simp [hname])

theorem forwardPredicted_total {e : Env F K} (hnd : e.names.Nodup) (hne : e.names ≠ [])
    {l : List (Buf F K)} (h : ∀ b ∈ l, ∀ name ∈ e.names, hasData b name = true) :
    forwardPredicted e l = .ok (l.map (predicted e)) := by
  unfold forwardPredicted
  apply mapM_except
  intro b hb
  split_ifs with hk
  · simp [predicted, hk]
  · exact sumModels_total hnd hne (by simpa using hk) (h b hb)

/-! ## The whole step -/

/-- What holds after the buffers `l` left the queue. -/
def Consumed (e : Env F K) (l : List (Buf F K)) (st : St F K) : Prop :=
  if e.onlyPredict then st.out = l.map (predicted e) ∧ st.calls = []
  else SInv e l st ∧ st.done = []

/-- The sub-steps put out one result per buffer, in order, possibly later. -/
def Contract (e : Env F K) : Prop :=
  ∀ d, d < e.steps.length → ∀ n, e.released d n ≤ e.released d (n + 1) ∧ e.released d n ≤ n

/-- The invariant between the calls of `process`. -/
def PInv (e : Env F K) (input : List (Buf F K)) (st : St F K) : Prop :=
  ∃ p, p ≤ input.length ∧ st.sent = input.map (·.rows) ∧
    st.queue = queueOf e (fun d => e.released d input.length) p input ∧
    (∀ d, d < e.steps.length → p ≤ e.released d input.length) ∧
    Consumed e ((fulls e input).take p) st

/-- What is assumed about the input. -/
structure Good (e : Env F K) (input : List (Buf F K)) : Prop where
  names : e.names.Nodup
  nonempty : e.names ≠ []
  contract : Contract e
  fresh : Fresh e input
  ids : IdsNodup input

theorem fullBuf_rows (e : Env F K) (j : Nat) (b : Buf F K) : (fullBuf e j b).rows = b.rows := by
  unfold fullBuf withExtra
  exact uvwStep_rows e b

theorem fulls_rows (e : Env F K) (input : List (Buf F K)) :
    (fulls e input).flatMap (·.rows) = input.flatMap (·.rows) := by
  rw [List.flatMap_def, List.flatMap_def]
  congr 1
  unfold fulls
  rw [List.map_map]
  have : ((fun b : Buf F K => b.rows) ∘ fun x : Buf F K × Nat => fullBuf e x.2 x.1) =
      (fun b : Buf F K => b.rows) ∘ Prod.fst := by
    funext x
    simp only [Function.comp]
    exact fullBuf_rows e _ _
  rw [this, ← List.map_map, List.zipIdx_map_fst]

theorem fulls_has {e : Env F K} {input : List (Buf F K)}
    (hr : ∀ b ∈ input, ∀ name ∈ e.reused, hasData b name = true) :
    ∀ b ∈ fulls e input, ∀ name ∈ e.names, hasData b name = true := by
  intro b hb name hname
  unfold fulls at hb
  obtain ⟨x, hx, rfl⟩ := List.mem_map.1 hb
  have hx1 : x.1 ∈ input := by
    obtain ⟨k, hk, hkx⟩ := List.getElem_of_mem hx
    rw [List.getElem_zipIdx] at hkx
    rw [← hkx]
    exact List.getElem_mem _
  unfold hasData fullBuf withExtra
  simp only
  by_cases hs : name ∈ e.steps
  · rw [if_pos hs]; rfl
  · rw [if_neg hs]
    have : name ∈ e.reused := by
      rcases List.mem_append.1 hname with h | h
      · exact absurd h hs
      · exact h
    exact hr _ hx1 name this

theorem ids_take {l : List (Buf F K)} (h : IdsNodup l) (p : Nat) : IdsNodup (l.take p) := by
  unfold IdsNodup at h ⊢
  rw [← List.take_append_drop p l, List.flatMap_append, List.map_append] at h
  exact (List.nodup_append.1 h).1

theorem consume_spec {e : Env F K} (hnd : e.names.Nodup) (hne : e.names ≠ [])
    {l chunk : List (Buf F K)} {st st' : St F K} (h : Consumed e l st)
    (hids : IdsNodup (l ++ chunk)) (hm : ∀ b ∈ chunk, ∀ name ∈ e.names, hasData b name = true)
    (hc : consume e chunk st = .ok st') :
    Consumed e (l ++ chunk) st' ∧ st'.sent = st.sent ∧ st'.queue = st.queue := by
  unfold Consumed at h ⊢
  unfold consume at hc
  split_ifs at h hc ⊢ with ho
  · rw [forwardPredicted_total hnd hne hm] at hc
    cases hc
    exact ⟨⟨by simp [h.1], h.2⟩, rfl, rfl⟩
  · cases h1 : appendAll e chunk st with
    | error x => rw [h1] at hc; cases hc
    | ok st1 =>
      rw [h1] at hc
      simp only at hc
      obtain ⟨a1, a2, a3⟩ := sinv_appendAll h.1 hids h1
      cases h2 : solveComplete e (completeFuel st1) st1 with
      | error x => rw [h2] at hc; cases hc
      | ok st2 =>
        rw [h2] at hc
        simp only at hc
        obtain ⟨b1, b2, b3⟩ := sinv_solveComplete hnd hids a1 h2
        obtain ⟨st3, c1, c2, c3, c4, c5, -⟩ := sinv_done b1
        rw [c1] at hc
        cases hc
        exact ⟨⟨c2, c5⟩, (c3.trans b2).trans a2, (c4.trans b3).trans a3⟩

/-- The queue and what leaves it, for new results. -/
theorem queue_step {e : Env F K} {input : List (Buf F K)} (hg : Good e input)
    (hr : ∀ b ∈ input, ∀ name ∈ e.reused, hasData b name = true) {before now : Nat → Nat} {p : Nat}
    (hpl : p ≤ input.length)
    (hb : ∀ d, d < e.steps.length → p ≤ before d ∧ before d ≤ now d ∧ now d ≤ input.length) :
    ∃ p', p ≤ p' ∧ p' ≤ input.length ∧ (∀ d, d < e.steps.length → p' ≤ now d) ∧
      extractResults e before now (input.map (·.rows)) (queueOf e before p input) =
        .ok (queueOf e now p input) ∧
      (takeComplete e (queueOf e now p input)).1 = ((fulls e input).take p').drop p ∧
      (takeComplete e (queueOf e now p input)).2 = queueOf e now p' input ∧
      ((∀ d, d < e.steps.length → input.length ≤ now d) → p' = input.length) := by
  obtain ⟨p', h1, h2, h3, h4, h5, h6⟩ := takeComplete_spec hg.names hg.fresh hr (m := now) (p := p)
    (fun d hd => le_trans (hb d hd).1 (hb d hd).2.1) hpl
  exact ⟨p', h1, h2, h3, extractResults_spec (List.nodup_append.1 hg.names).1 hg.fresh hb, h4, h5, h6⟩

theorem take_drop_append {A : Type} (l : List A) {p p' : Nat} (h : p ≤ p') :
    l.take p ++ (l.take p').drop p = l.take p' := by
  have : l.take p = (l.take p').take p := by rw [List.take_take, min_eq_left h]
  rw [this, List.take_append_drop]

theorem good_prefix {e : Env F K} {a b : List (Buf F K)} (h : Good e (a ++ b)) : Good e a := by
  refine ⟨h.names, h.nonempty, h.contract, fun x hx => h.fresh x (by simp [hx]), ?_⟩
  have := ids_take h.ids a.length
  simpa using this

/-- The state in which `process` hands the complete buffers on. -/
theorem process_setup {e : Env F K} {input : List (Buf F K)} {b : Buf F K}
    (hg : Good e (input ++ [b]))
    (hr : ∀ x ∈ input ++ [b], ∀ name ∈ e.reused, hasData x name = true) {st : St F K} (h : PInv e input st) :
    ∃ p p', p ≤ p' ∧ p' ≤ (input ++ [b]).length ∧
      (∀ d, d < e.steps.length → p' ≤ e.released d (input ++ [b]).length) ∧
      Consumed e ((fulls e (input ++ [b])).take p) st ∧
      process e st b = consume e (((fulls e (input ++ [b])).take p').drop p)
        { st with sent := (input ++ [b]).map (·.rows)
                  queue := queueOf e (fun d => e.released d (input ++ [b]).length) p'
                    (input ++ [b]) } := by
  obtain ⟨p, h1, h2, h3, h4, h5⟩ := h
  have hlen : (input ++ [b]).length = input.length + 1 := by simp
  have hsn : st.sent.length = input.length := by rw [h2]; simp
  have hq : st.queue ++ [uvwStep e b] =
      queueOf e (fun d => e.released d input.length) p (input ++ [b]) := by
    rw [h3]
    unfold queueOf
    rw [List.zipIdx_append, List.drop_append_of_le_length (by simpa using h1), List.map_append]
    congr 1
    simp only [List.zipIdx_cons, List.zipIdx_nil, List.map_cons, List.map_nil, Nat.zero_add]
    rw [loaded_new]
    intro d hd
    exact (hg.contract d hd input.length).2
  obtain ⟨p', g1, g2, g3, g4, g5, g6, -⟩ := queue_step hg hr (p := p)
    (before := fun d => e.released d input.length)
    (now := fun d => e.released d (input.length + 1)) (by omega)
    (fun d hd => ⟨h4 d hd, (hg.contract d hd input.length).1, by
      rw [hlen]; exact (hg.contract d hd (input.length + 1)).2⟩)
  refine ⟨p, p', g1, g2, ?_, ?_, ?_⟩
  · rw [hlen]; exact g3
  · rw [fulls_append, List.take_append_of_le_length (by rw [fulls_length]; exact h1)]
    exact h5
  · unfold process
    have hre : (e.reused.all fun name => hasData b name) = true := by
      rw [List.all_eq_true]
      exact fun name hn => hr b (by simp) name hn
    rw [hre]
    simp only [Bool.true_eq_false, if_false]
    rw [hsn, h2, hq]
    have e2 : input.map (·.rows) ++ [b.rows] = (input ++ [b]).map (·.rows) := by simp
    rw [e2, g4]
    simp only
    unfold processComplete
    simp only
    rw [g5, g6, hlen]

theorem pinv_process {e : Env F K} {input : List (Buf F K)} {b : Buf F K}
    (hg : Good e (input ++ [b]))
    (hr : ∀ x ∈ input ++ [b], ∀ name ∈ e.reused, hasData x name = true) {st st' : St F K}
    (h : PInv e input st) (hp : process e st b = .ok st') : PInv e (input ++ [b]) st' := by
  obtain ⟨p, p', h1, h2, h3, h4, h5⟩ := process_setup hg hr h
  rw [h5] at hp
  have hids : IdsNodup ((fulls e (input ++ [b])).take p') := by
    apply ids_take
    unfold IdsNodup
    rw [fulls_rows]
    exact hg.ids
  have hids2 : IdsNodup ((fulls e (input ++ [b])).take p ++
      ((fulls e (input ++ [b])).take p').drop p) := by
    rw [take_drop_append _ h1]; exact hids
  obtain ⟨c1, c2, c3⟩ := consume_spec hg.names hg.nonempty
    (st := { st with sent := (input ++ [b]).map (·.rows)
                     queue := queueOf e (fun d => e.released d (input ++ [b]).length) p'
                       (input ++ [b]) })
    (by
      unfold Consumed at h4 ⊢
      split_ifs at h4 ⊢
      · exact h4
      · exact ⟨⟨h4.1.core, h4.1.data, h4.1.done, h4.1.mem, h4.1.models, h4.1.bufs, h4.1.out,
          h4.1.nCalls, h4.1.sols, h4.1.iters, h4.1.cons, h4.1.calls, h4.1.slots, h4.1.live,
        h4.1.needed⟩, h4.2⟩)
    hids2
    (fun x hx => fulls_has hr x (List.mem_of_mem_take (List.mem_of_mem_drop hx))) hp
  rw [take_drop_append _ h1] at c1
  exact ⟨p', h2, c2, c3, h3, c1⟩

theorem sinv_init (e : Env F K) : SInv e [] (init e) := by
  refine ⟨⟨[], ⟨[], []⟩, BdaSolverBuffer.inv_init e.config e.nBl, rfl, rfl, rfl, rfl⟩, rfl, rfl, ?_,
    ?_, rfl, rfl, rfl, rfl, rfl, rfl, ?_, ?_, ?_, ?_⟩
  · intro b hb; cases hb
  · intro b hb; cases hb
  · intro i c hc; simp [init] at hc
  · intro b hb; cases hb
  · intro rows hrows; simp [init, BdaSolverBuffer.init] at hrows
  · intro _ i hi; simp [init] at hi

theorem pinv_init (e : Env F K) : PInv e [] (init e) := by
  refine ⟨0, by simp, rfl, ?_, fun _ _ => Nat.zero_le _, ?_⟩
  · simp [queueOf, init]
  · unfold Consumed
    split_ifs
    · exact ⟨rfl, rfl⟩
    · simp only [List.take_zero]
      exact ⟨sinv_init e, rfl⟩

theorem pinv_processAll {e : Env F K} {rest input : List (Buf F K)} (hg : Good e (input ++ rest))
    (hr : ∀ x ∈ input ++ rest, ∀ name ∈ e.reused, hasData x name = true) {st st' : St F K}
    (h : PInv e input st) (hp : processAll e rest st = .ok st') : PInv e (input ++ rest) st' := by
  induction rest generalizing input st with
  | nil => cases hp; simpa using h
  | cons b rest ih =>
    have e0 : input ++ b :: rest = (input ++ [b]) ++ rest := by simp
    rw [e0] at hg hr ⊢
    unfold processAll at hp
    cases h1 : process e st b with
    | error x => rw [h1] at hp; cases hp
    | ok st1 =>
      rw [h1] at hp
      exact ih hg hr (pinv_process (good_prefix hg)
        (fun x hx => hr x (by simp only [List.mem_append] at hx ⊢; exact .inl hx)) h h1) hp

/-- In `finish` all buffers leave the queue. -/
theorem finish_setup {e : Env F K} {input : List (Buf F K)} (hg : Good e input)
    (hr : ∀ x ∈ input, ∀ name ∈ e.reused, hasData x name = true) {st : St F K} (h : PInv e input st) :
    ∃ p, p ≤ input.length ∧ Consumed e ((fulls e input).take p) st ∧
      finish e st = match consume e ((fulls e input).drop p) { st with queue := [] } with
        | .error x => .error x
        | .ok st1 =>
          if e.onlyPredict then .ok st1
          else
            match solveRest e (restFuel e st1) st1 with
            | .error x => .error x
            | .ok st2 => processDone e st2 := by
  obtain ⟨p, h1, h2, h3, h4, h5⟩ := h
  have hsn : st.sent.length = input.length := by rw [h2]; simp
  obtain ⟨p', g1, g2, g3, g4, g5, g6, g7⟩ := queue_step hg hr (p := p)
    (before := fun d => e.released d input.length)
    (now := fun _ => input.length) h1
    (fun d hd => ⟨h4 d hd, (hg.contract d hd input.length).2, le_refl _⟩)
  have hp' := g7 fun _ _ => le_refl _
  refine ⟨p, h1, h5, ?_⟩
  unfold finish
  simp only
  rw [hsn, h2, h3, g4]
  simp only
  unfold processComplete
  simp only
  rw [g5, g6, hp']
  have e1 : (fulls e input).take input.length = fulls e input := by
    rw [← fulls_length e input, List.take_length]
  have e2 : queueOf e (fun _ => input.length) input.length input = [] :=
    List.eq_nil_of_length_eq_zero (by rw [queueOf_length]; omega)
  rw [e1, e2]
  rfl

/-- What a run leaves behind. -/
theorem run_spec {e : Env F K} {input : List (Buf F K)} (hg : Good e input)
    (hr : ∀ x ∈ input, ∀ name ∈ e.reused, hasData x name = true) {st : St F K}
    (h : run e input = .ok st) :
    if e.onlyPredict then st.out = (fulls e input).map (predicted e) ∧ st.calls = []
    else SInv e (fulls e input) st ∧ st.out = (fulls e input).map (final e st.sols) ∧
      ∀ b ∈ input, ∀ r ∈ b.rows, slot e.config r.time < st.sols.length := by
  unfold run at h
  cases h1 : processAll e input (init e) with
  | error x => rw [h1] at h; cases h
  | ok st1 =>
    rw [h1] at h
    simp only at h
    have hp := pinv_processAll (input := []) (by simpa using hg) (by simpa using hr) (pinv_init e) h1
    rw [List.nil_append] at hp
    obtain ⟨p, hpl, hcons, hf⟩ := finish_setup hg hr hp
    rw [hf] at h
    cases h2 : consume e ((fulls e input).drop p) { st1 with queue := [] } with
    | error x => rw [h2] at h; cases h
    | ok st2 =>
      rw [h2] at h
      simp only at h
      have hids : IdsNodup (fulls e input) := by
        unfold IdsNodup
        rw [fulls_rows]
        exact hg.ids
      obtain ⟨c1, -, -⟩ := consume_spec hg.names hg.nonempty (st := { st1 with queue := [] })
        (by
          unfold Consumed at hcons ⊢
          split_ifs at hcons ⊢
          · exact hcons
          · exact ⟨⟨hcons.1.core, hcons.1.data, hcons.1.done, hcons.1.mem, hcons.1.models,
              hcons.1.bufs, hcons.1.out, hcons.1.nCalls, hcons.1.sols, hcons.1.iters, hcons.1.cons,
              hcons.1.calls, hcons.1.slots, hcons.1.live,
        hcons.1.needed⟩, hcons.2⟩)
        (by rw [List.take_append_drop]; exact hids)
        (fun x hx => fulls_has hr x (List.mem_of_mem_drop hx)) h2
      rw [List.take_append_drop] at c1
      unfold Consumed at c1
      split_ifs at h c1 ⊢ with ho
      · cases h
        exact c1
      · cases h3 : solveRest e (restFuel e st2) st2 with
        | error x => rw [h3] at h; cases h
        | ok st3 =>
          rw [h3] at h
          simp only at h
          obtain ⟨d1, -, -⟩ := sinv_solveRest hg.names hids c1.1 h3
          obtain ⟨f1, f2⟩ := restFuel_enough e st2
          have hend := solveRest_end hg.names hids c1.1 (fun _ => f1) f2 h3
          obtain ⟨st4, k1, k2, -, -, k5, k6, -, k8, k9⟩ := sinv_done d1
          rw [k1, Except.ok.injEq] at h
          subst h
          have hb : st4.bufs = [] := by
            have := k2.data
            rw [k8, hend] at this
            exact List.map_eq_nil_iff.1 this.symm
          have hlen : (fulls e input).length ≤ st4.out.length := by
            have := congrArg List.length k2.bufs
            rw [k5, hb] at this
            simp at this
            omega
          have hout : st4.out = (fulls e input).map (final e st4.sols) := by
            have := k2.out
            rw [List.take_of_length_le hlen] at this
            exact this
          refine ⟨k2, hout, ?_⟩
          intro b hb' r hrb
          obtain ⟨ops, seen, hi, hgv, hadv, -, hret⟩ := k2.core
          have hmem : b.rows ∈ seen.returned := by
            rw [hret, hout, List.map_map]
            have e3 : ((fun b : Buf F K => b.rows) ∘ final e st4.sols) = fun b => b.rows := rfl
            rw [e3]
            obtain ⟨k, hk, hkb⟩ := List.getElem_of_mem hb'
            have : (fulls e input)[k]? = some (fullBuf e k b) := by
              rw [fulls_get, List.getElem?_eq_getElem hk, hkb]
              rfl
            rw [← fullBuf_rows e k b]
            exact List.mem_map_of_mem (List.mem_of_getElem? this)
          have := hi.old b.rows (by simp [hmem]) r hrb
          rw [hi.current, hadv] at this
          exact this

/-! ## A run of orderly input succeeds -/

/-- The invariant for success. -/
def Ready (e : Env F K) (l : List (Buf F K)) (st : St F K) : Prop :=
  e.onlyPredict = false → Prompt e (l.flatMap (·.rows)) st.core

theorem consume_total {e : Env F K} (hc : 0 < e.config.interval) (hbl : 0 < e.nBl)
    (hnd : e.names.Nodup) (hne : e.names ≠ [])
    {l chunk : List (Buf F K)} {st : St F K} (h : Consumed e l st)
    (hids : IdsNodup (l ++ chunk)) (hm : ∀ b ∈ chunk, ∀ name ∈ e.names, hasData b name = true)
    (ho : Orderly e ((l ++ chunk).flatMap (·.rows))) (hp : Ready e l st) :
    ∃ st', consume e chunk st = .ok st' ∧ Ready e (l ++ chunk) st' := by
  unfold Consumed at h
  unfold consume
  by_cases hop : e.onlyPredict
  · simp only [hop, if_true]
    rw [forwardPredicted_total hnd hne hm]
    refine ⟨_, rfl, ?_⟩
    intro hf
    rw [hop] at hf
    cases hf
  · simp only [hop, if_false, Bool.false_eq_true] at h ⊢
    have hpp := hp (by simpa using hop)
    obtain ⟨st1, h1, h2⟩ := appendAll_total hc h.1 hids hm ho hpp
    rw [h1]
    obtain ⟨a1, -, -⟩ := sinv_appendAll h.1 hids h1
    obtain ⟨st2, h3, h4⟩ := solveComplete_total (fuel := completeFuel st1) hnd hids a1 hbl ho h2
    simp only
    rw [h3]
    simp only
    obtain ⟨b1, -, -⟩ := sinv_solveComplete hnd hids a1 h3
    obtain ⟨st3, c1, c2, -, -, -, c6, c7, -, -⟩ := sinv_done b1
    refine ⟨st3, c1, fun _ => ?_⟩
    have hcur : st3.core.current = st2.core.current := by
      obtain ⟨ops, seen, hi, -, hadv, -⟩ := c2.core
      obtain ⟨ops', seen', hi', -, hadv', -⟩ := b1.core
      rw [hi.current, hi'.current, hadv, hadv', c6]
    exact ⟨by rw [c7]; exact h4.1, by rw [hcur]; exact h4.2.1, by rw [hcur]; exact h4.2.2⟩

theorem flatMap_take_fulls (e : Env F K) (input : List (Buf F K)) (p : Nat) :
    ((fulls e input).take p).flatMap (·.rows) ++ ((fulls e input).drop p).flatMap (·.rows) =
      input.flatMap (·.rows) := by
  rw [← List.flatMap_append, List.take_append_drop, fulls_rows]

theorem orderly_take {e : Env F K} {input : List (Buf F K)}
    (ho : Orderly e (input.flatMap (·.rows))) (p : Nat) :
    Orderly e (((fulls e input).take p).flatMap (·.rows)) := by
  rw [← flatMap_take_fulls e input p] at ho
  exact orderly_prefix ho

/-- The invariant between the calls, with what is needed for success. -/
def PReady (e : Env F K) (input : List (Buf F K)) (st : St F K) : Prop :=
  ∀ p, Consumed e ((fulls e input).take p) st → p ≤ input.length →
    Ready e ((fulls e input).take p) st

theorem consumed_same {e : Env F K} {l : List (Buf F K)} {st : St F K} (h : Consumed e l st)
    (sent : List (List (Row F))) (queue : List (Buf F K)) :
    Consumed e l { st with sent := sent, queue := queue } := by
  unfold Consumed at h ⊢
  split_ifs at h ⊢
  · exact h
  · exact ⟨⟨h.1.core, h.1.data, h.1.done, h.1.mem, h.1.models, h.1.bufs, h.1.out, h.1.nCalls,
      h.1.sols, h.1.iters, h.1.cons, h.1.calls, h.1.slots, h.1.live,
        h.1.needed⟩, h.2⟩

/-- The number of consumed buffers, apart from buffers without rows, follows from the state. -/
theorem consumed_rows {e : Env F K} {l l' : List (Buf F K)} {st : St F K} (hop : e.onlyPredict = false)
    (h : Consumed e l st) (h' : Consumed e l' st) : l.map (·.rows) = l'.map (·.rows) := by
  unfold Consumed at h h'
  simp only [hop, Bool.false_eq_true, if_false] at h h'
  obtain ⟨ops, seen, hi, hg, -, -, hret⟩ := h.1.core
  obtain ⟨ops', seen', hi', hg', -, -, hret'⟩ := h'.1.core
  have h1 := hi.buffers
  have h2 := hi'.buffers
  simp only at h1 h2
  rw [hret, hg] at h1
  rw [hret', hg'] at h2
  rw [← h1, ← h2]

theorem process_total {e : Env F K} (hc : 0 < e.config.interval) (hbl : 0 < e.nBl)
    {input : List (Buf F K)} {b : Buf F K} (hg : Good e (input ++ [b]))
    (hr : ∀ x ∈ input ++ [b], ∀ name ∈ e.reused, hasData x name = true)
    (ho : Orderly e ((input ++ [b]).flatMap (·.rows))) {st : St F K}
    (h : PInv e input st) (hp : PReady e input st) :
    ∃ st', process e st b = .ok st' ∧ PReady e (input ++ [b]) st' := by
  obtain ⟨p, p', h1, h2, h3, h4, h5⟩ := process_setup hg hr h
  have hids : IdsNodup ((fulls e (input ++ [b])).take p ++
      ((fulls e (input ++ [b])).take p').drop p) := by
    rw [take_drop_append _ h1]
    apply ids_take
    unfold IdsNodup
    rw [fulls_rows]
    exact hg.ids
  have hready : Ready e ((fulls e (input ++ [b])).take p) st := by
    intro hop
    obtain ⟨q, q1, -, -, -, q5⟩ := h
    have := hp q q5 q1 hop
    have hrows := consumed_rows hop h4 q5
    rw [List.flatMap_def, hrows, ← List.flatMap_def]
    exact this
  obtain ⟨st', c1, c2⟩ := consume_total hc hbl hg.names hg.nonempty
    (consumed_same h4 ((input ++ [b]).map (·.rows))
      (queueOf e (fun d => e.released d (input ++ [b]).length) p' (input ++ [b])))
    hids (fun x hx => fulls_has hr x (List.mem_of_mem_take (List.mem_of_mem_drop hx)))
    (by rw [take_drop_append _ h1]; exact orderly_take ho p') hready
  refine ⟨st', by rw [h5]; exact c1, ?_⟩
  intro q hq _ hop
  have hpi := consume_spec hg.names hg.nonempty (consumed_same h4 ((input ++ [b]).map (·.rows))
      (queueOf e (fun d => e.released d (input ++ [b]).length) p' (input ++ [b]))) hids
      (fun x hx => fulls_has hr x (List.mem_of_mem_take (List.mem_of_mem_drop hx))) c1
  have hrows := consumed_rows hop hq hpi.1
  rw [List.flatMap_def, hrows, ← List.flatMap_def]
  exact c2 hop

theorem pready_init (e : Env F K) : PReady e [] (init e) := by
  intro p _ hp _
  refine ⟨by simp [init, BdaSolverBuffer.init], by simp [init, BdaSolverBuffer.init], ?_⟩
  intro bl _
  left
  simp [init, BdaSolverBuffer.init]

theorem processAll_total {e : Env F K} (hc : 0 < e.config.interval) (hbl : 0 < e.nBl)
    {rest input : List (Buf F K)} (hg : Good e (input ++ rest))
    (hr : ∀ x ∈ input ++ rest, ∀ name ∈ e.reused, hasData x name = true)
    (ho : Orderly e ((input ++ rest).flatMap (·.rows))) {st : St F K}
    (h : PInv e input st) (hp : PReady e input st) :
    ∃ st', processAll e rest st = .ok st' ∧ PReady e (input ++ rest) st' := by
  induction rest generalizing input st with
  | nil => exact ⟨st, rfl, by simpa using hp⟩
  | cons b rest ih =>
    have e0 : input ++ b :: rest = (input ++ [b]) ++ rest := by simp
    rw [e0] at hg hr ho ⊢
    have hr' : ∀ x ∈ input ++ [b], ∀ name ∈ e.reused, hasData x name = true :=
      fun x hx => hr x (by simp only [List.mem_append] at hx ⊢; exact .inl hx)
    have ho' : Orderly e ((input ++ [b]).flatMap (·.rows)) := by
      rw [List.flatMap_append] at ho
      exact orderly_prefix ho
    obtain ⟨st1, h1, h2⟩ := process_total hc hbl (good_prefix hg) hr' ho' h hp
    obtain ⟨st', h3, h4⟩ := ih hg hr ho (pinv_process (good_prefix hg) hr' h h1) h2
    refine ⟨st', ?_, h4⟩
    unfold processAll
    rw [h1]
    exact h3

theorem run_total {e : Env F K} (hc : 0 < e.config.interval) (hbl : 0 < e.nBl)
    {input : List (Buf F K)} (hg : Good e input)
    (hr : ∀ x ∈ input, ∀ name ∈ e.reused, hasData x name = true)
    (ho : Orderly e (input.flatMap (·.rows))) : ∃ st, run e input = .ok st := by
  obtain ⟨st1, h1, hready⟩ := processAll_total hc hbl (input := []) (by simpa using hg)
    (by simpa using hr) (by simpa using ho) (pinv_init e) (pready_init e)
  have hp := pinv_processAll (input := []) (by simpa using hg) (by simpa using hr) (pinv_init e) h1
  rw [List.nil_append] at hp hready
  obtain ⟨p, hpl, hcons, hf⟩ := finish_setup hg hr hp
  have hids : IdsNodup (fulls e input) := by
    unfold IdsNodup
    rw [fulls_rows]
    exact hg.ids
  have ho' : Orderly e ((fulls e input).flatMap (·.rows)) := by rw [fulls_rows]; exact ho
  have hids' : IdsNodup ((fulls e input).take p ++ (fulls e input).drop p) := by
    rw [List.take_append_drop]; exact hids
  have hm : ∀ b ∈ (fulls e input).drop p, ∀ name ∈ e.names, hasData b name = true :=
    fun x hx => fulls_has hr x (List.mem_of_mem_drop hx)
  have hcons' := consumed_same hcons st1.sent []
  obtain ⟨st2, c1, c2⟩ := consume_total hc hbl hg.names hg.nonempty hcons' hids' hm
    (by rw [List.take_append_drop]; exact ho') (hready p hcons hpl)
  obtain ⟨d1, -, -⟩ := consume_spec hg.names hg.nonempty hcons' hids' hm c1
  rw [List.take_append_drop] at d1
  unfold run
  rw [h1]
  simp only
  rw [hf, c1]
  simp only
  split_ifs with hop
  · exact ⟨st2, rfl⟩
  · unfold Consumed at d1
    simp only [hop, if_false, Bool.false_eq_true] at d1
    obtain ⟨st3, k1⟩ := solveRest_total (fuel := restFuel e st2) hg.names hids d1.1 ho'
    rw [k1]
    simp only
    obtain ⟨k2, -, -⟩ := sinv_solveRest hg.names hids d1.1 k1
    obtain ⟨st4, k3, -⟩ := sinv_done k2
    exact ⟨st4, k3⟩

end DP3.BdaDdeCal
