import Verif.BdaMs.Spec
import Mathlib.Tactic.Linarith

/-!
Lemmas for the properties of the BDA reader and writer.
-/

namespace DP3.BdaMs

set_option linter.unusedSimpArgs false

variable {V W U : Type}

theorem mapM_ok {A B : Type} (f : A → Except Err B) (g : A → B) (xs : List A)
    (h : ∀ x ∈ xs, f x = .ok (g x)) : xs.mapM f = .ok (xs.map g) := by
  induction xs with
  | nil => rfl
  | cons x xs ih =>
    rw [List.mapM_cons, h x (by simp), ih fun y hy => h y (by simp [hy])]
    rfl

theorem mapM_ok_iff {A B : Type} (f : A → Except Err B) (xs : List A) (ys : List B)
    (h : xs.mapM f = .ok ys) : ys.length = xs.length ∧
      ∀ (i : Nat) x y, xs[i]? = some x → ys[i]? = some y → f x = .ok y := by
  induction xs generalizing ys with
  | nil =>
    rw [List.mapM_nil] at h
    cases h
    simp
  | cons x xs ih =>
    rw [List.mapM_cons] at h
    cases hx : f x with
    | error e => rw [hx] at h; cases h
    | ok y =>
      rw [hx] at h
      cases hxs : xs.mapM f with
      | error e => rw [hxs] at h; cases h
      | ok zs =>
        rw [hxs] at h
        cases h
        obtain ⟨h1, h2⟩ := ih zs hxs
        refine ⟨by simp [h1], fun i a b ha hb => ?_⟩
        cases i with
        | zero => simp at ha hb; rw [← ha, ← hb, hx]
        | succ i => simp at ha hb; exact h2 i a b ha hb

theorem map_getD {A : Type} (l : List A) (d : A) (n : Nat) (h : l.length = n) :
    (List.range n).map (fun i => l.getD i d) = l := by
  subst h
  apply List.ext_getElem
  · simp
  · intro i h1 h2
    simp [h2]

theorem getElem?_getD {A : Type} (l : List A) (d : A) (i : Nat) (h : i < l.length) :
    l[i]? = some (l.getD i d) := by
  simp [h]

theorem lookup_append {A B : Type} [BEq A] (xs ys : List (A × B)) (k : A) :
    (xs ++ ys).lookup k = (xs.lookup k).or (ys.lookup k) := by
  induction xs with
  | nil => simp
  | cons x xs ih =>
    rw [List.cons_append, List.lookup_cons, List.lookup_cons, ih]
    split <;> simp

/-- In a map in which the keys are distinct, a key gives its value. -/
theorem lookup_of_mem {A B : Type} [BEq A] [LawfulBEq A] (l : List (A × B)) (k : A) (v : B)
    (hm : (k, v) ∈ l) (h : ∀ w, (k, w) ∈ l → w = v) : l.lookup k = some v := by
  induction l with
  | nil => simp at hm
  | cons x xs ih =>
    rw [List.lookup_cons]
    by_cases hx : k == x.1
    · simp only [hx, Option.some.injEq]
      have : k = x.1 := by simpa using hx
      exact h x.2 (by rw [this]; simp)
    · simp only [hx]
      apply ih
      · rcases List.mem_cons.mp hm with hm | hm
        · exfalso; apply hx; rw [← hm]; simp
        · exact hm
      · exact fun w hw => h w (by simp [hw])

/-! ### The spectral windows -/

/-- What the tables of windows have after `n` baselines. -/
structure WinInv (info : Info) (old : Option Int × String) (n : Nat)
    (st : List (Nat × Nat) × List SpwRow × List Nat) : Prop where
  len : st.2.1.length = st.2.2.length
  cover : ∀ i f, i < n → info.freqs[i]? = some f → (st.1.lookup f.length).isSome
  found : ∀ c k, st.1.lookup c = some k → ∃ s j f, st.2.1[k]? = some s ∧ j < n ∧
    info.freqs[j]? = some f ∧ info.widths[j]? = some s.widths ∧ f.length = c ∧ s.freqs = f ∧
    (∀ i g, i < j → info.freqs[i]? = some g → g.length ≠ c)
  ref : ∀ s ∈ st.2.1, s.measFreqRef = old.1 ∧ s.name = old.2
  whole : ∀ s ∈ st.2.1, ∃ j, j < n ∧ info.freqs[j]? = some s.freqs ∧
    info.widths[j]? = some s.widths ∧ info.effectiveBw[j]? = some s.effectiveBw ∧
    info.resolutions[j]? = some s.resolution ∧ s.numChan = s.freqs.length ∧
    s.refFreq = info.refFreq ∧ s.totalBw = info.totalBw

theorem winInv_step {info : Info} {old : Option Int × String} {n : Nat}
    {st st' : List (Nat × Nat) × List SpwRow × List Nat} (h : WinInv info old n st)
    (hs : addWindow info old st n = .ok st') : WinInv info old (n + 1) st' := by
  unfold addWindow at hs
  cases hf : info.freqs[n]? with
  | none => rw [hf] at hs; cases hs
  | some f =>
    rw [hf] at hs
    dsimp only at hs
    split at hs
    · rename_i hk
      cases hs
      refine ⟨h.len, fun i g hi hg => ?_, fun c k hck => ?_, h.ref, fun s hs => ?_⟩
      · by_cases hin : i = n
        · subst hin; rw [hf] at hg; cases hg; exact hk
        · exact h.cover i g (by omega) hg
      · obtain ⟨s, j, f', h1, h2, h3⟩ := h.found c k hck
        exact ⟨s, j, f', h1, by omega, h3⟩
      · obtain ⟨j, hj, hrest⟩ := h.whole s hs
        exact ⟨j, by omega, hrest⟩
    · rename_i hk
      split at hs
      · rename_i w e r hw he hr
        cases hs
        have hnone : st.1.lookup f.length = none := by
          cases hl : st.1.lookup f.length with
          | none => rfl
          | some v => rw [hl] at hk; simp at hk
        refine ⟨by simp [h.len], fun i g hi hg => ?_, fun c k hck => ?_, fun s hs => ?_,
          fun s hs => ?_⟩
        · dsimp only
          rw [lookup_append]
          by_cases hin : i = n
          · subst hin
            rw [hf] at hg
            cases hg
            simp [hnone, List.lookup_cons]
          · have := h.cover i g (by omega) hg
            cases hl : st.1.lookup g.length with
            | none => rw [hl] at this; simp at this
            | some v => simp
        · dsimp only at hck ⊢
          rw [lookup_append] at hck
          cases hl : st.1.lookup c with
          | some v =>
            rw [hl] at hck
            simp at hck
            subst hck
            obtain ⟨s, j, f', h1, h2, h3⟩ := h.found c v hl
            have hlt : v < st.2.1.length := (List.getElem?_eq_some_iff.mp h1).1
            exact ⟨s, j, f', by rw [List.getElem?_append_left hlt]; exact h1, by omega, h3⟩
          | none =>
            rw [hl] at hck
            simp only [Option.none_or, List.lookup_cons] at hck
            by_cases hc : c == f.length
            · simp only [hc] at hck
              cases hck
              have hc' : c = f.length := by simpa using hc
              subst hc'
              refine ⟨⟨f, w, e, old.1, old.2, f.length, info.refFreq, r, info.totalBw⟩, n, f, ?_,
                by omega, hf, hw, rfl, rfl, fun i g hi hg hgc => ?_⟩
              · rw [← h.len, List.getElem?_append_right (Nat.le_refl _)]; simp
              · have := h.cover i g hi hg
                rw [hgc, hnone] at this
                simp at this
            · simp [hc, List.lookup] at hck
        · dsimp only at hs
          rcases List.mem_append.mp hs with hs | hs
          · exact h.ref s hs
          · rw [List.mem_singleton] at hs
            subst hs
            exact ⟨rfl, rfl⟩
        · dsimp only at hs
          rcases List.mem_append.mp hs with hs | hs
          · obtain ⟨j, hj, hrest⟩ := h.whole s hs
            exact ⟨j, by omega, hrest⟩
          · rw [List.mem_singleton] at hs
            subst hs
            exact ⟨n, by omega, hf, hw, he, hr, rfl, rfl, rfl⟩
      · cases hs

theorem winInv_fold {info : Info} {old : Option Int × String} (n : Nat)
    {st : List (Nat × Nat) × List SpwRow × List Nat}
    (h : (List.range n).foldlM (addWindow info old) ([], [], []) = .ok st) :
    WinInv info old n st := by
  induction n generalizing st with
  | zero =>
    cases h
    exact ⟨rfl, fun i f hi => by omega, fun c k hck => by simp at hck, fun s hs => by simp at hs,
      fun s hs => by simp at hs⟩
  | succ n ih =>
    rw [List.range_succ, List.foldlM_append] at h
    cases hm : (List.range n).foldlM (addWindow info old) ([], [], []) with
    | error e => rw [hm] at h; cases h
    | ok st1 =>
      rw [hm] at h
      change List.foldlM (addWindow info old) st1 [n] = _ at h
      rw [List.foldlM_cons] at h
      cases hs : addWindow info old st1 n with
      | error e => rw [hs] at h; cases h
      | ok st2 =>
        rw [hs] at h
        cases h
        exact winInv_step (ih hm) hs

theorem addWindow_ok {info : Info} (h : info.WellFormed) (old : Option Int × String)
    (st : List (Nat × Nat) × List SpwRow × List Nat) (i : Nat) (hi : i < info.nBaselines) :
    ∃ st', addWindow info old st i = .ok st' := by
  unfold addWindow
  rw [getElem?_getD info.freqs [] i (by rw [h.freqs]; exact hi),
    getElem?_getD info.widths [] i (by rw [h.widths]; exact hi),
    getElem?_getD info.effectiveBw [] i (by rw [h.effectiveBw]; exact hi),
    getElem?_getD info.resolutions [] i (by rw [h.resolutions]; exact hi)]
  dsimp only
  split
  · exact ⟨_, rfl⟩
  · exact ⟨_, rfl⟩

theorem windows_ok {info : Info} (h : info.WellFormed) (old : Option Int × String) (n : Nat)
    (hn : n ≤ info.nBaselines) :
    ∃ st, (List.range n).foldlM (addWindow info old) ([], [], []) = .ok st := by
  induction n with
  | zero => exact ⟨_, rfl⟩
  | succ n ih =>
    obtain ⟨st, hst⟩ := ih (by omega)
    obtain ⟨st', hst'⟩ := addWindow_ok h old st n (by omega)
    refine ⟨st', ?_⟩
    rw [List.range_succ, List.foldlM_append, hst]
    change List.foldlM (addWindow info old) st [n] = _
    rw [List.foldlM_cons, hst']
    rfl

/-- The row of `BDA_FACTORS` of a baseline. -/
def factorOf (info : Info) (descIds : List (Nat × Nat)) (i : Nat) : FactorRow :=
  ⟨info.ant1.getD i 0, info.ant2.getD i 0, info.timeAvgs.getD i 0,
    (descIds.lookup (info.freqs.getD i []).length).getD 0⟩

theorem factorRow_ok {info : Info} (h : info.WellFormed) (descIds : List (Nat × Nat)) (i : Nat)
    (hi : i < info.nBaselines) : factorRow info descIds i = .ok (factorOf info descIds i) := by
  unfold factorRow factorOf
  rw [getElem?_getD info.freqs [] i (by rw [h.freqs]; exact hi),
    getElem?_getD info.timeAvgs 0 i (by rw [h.timeAvgs]; exact hi),
    getElem?_getD info.ant1 0 i hi,
    getElem?_getD info.ant2 0 i (by rw [h.ant2]; exact hi)]

/-- The prepared output of a well-formed info. -/
theorem openWriter_ok {info : Info} (h : info.WellFormed) (spw : List SpwRow) (desc : List Nat) :
    ∃ st, WinInv info (none, "") info.nBaselines st ∧
      (openWriter info spw desc : Except Err (Writer V W U)) = .ok ⟨info, st.1, ⟨[], st.2.1, st.2.2,
        (List.range info.nBaselines).map (factorOf info st.1),
        [axisRow info ((List.range info.nBaselines).map (factorOf info st.1))]⟩⟩ := by
  obtain ⟨st, hst⟩ := windows_ok h (none, "") info.nBaselines (Nat.le_refl _)
  refine ⟨st, winInv_fold _ hst, ?_⟩
  unfold openWriter overwriteSubTables copySubTable
  have h1 : oldWindow [] info.spectralWindow = (none, "") := by simp [oldWindow]
  rw [if_neg (by rw [h.timeAvgs]; simp)]
  simp only [if_true, List.length_nil, ne_eq, not_true_eq_false, if_false, h1, hst]
  rw [mapM_ok _ (factorOf info st.1) _ fun i hi => factorRow_ok h st.1 i (by simpa using hi)]

/-! ### Writing rows -/

/-- The cells of a row that fits the info. -/
def cellsOf (info : Info) (descIds : List (Nat × Nat)) (r : Row V W U) : MainRow V W U :=
  { time := r.time, timeCentroid := r.time, interval := r.interval, exposure := r.exposure,
    ant1 := info.ant1.getD r.baseline 0, ant2 := info.ant2.getD r.baseline 0, nCorr := info.nCorr,
    nChan := r.nChannels, data := r.data, weights := r.weights, flags := r.flags,
    flagRow := r.flags.all id, uvw := r.uvw,
    descId := (descIds.lookup r.nChannels).getD 0 }

theorem rowCells_ok {info : Info} (h : info.WellFormed) (descIds : List (Nat × Nat)) (k : Nat)
    (r : Row V W U) (hr : r.Fits info k) : rowCells info descIds r = .ok (cellsOf info descIds r) := by
  obtain ⟨f, hf, hn⟩ := hr.nChannels
  have hc : info.nCorr * f.length = r.nChannels * r.nCorrelations := by
    rw [hn, hr.nCorrelations, Nat.mul_comm]
  unfold rowCells cellsOf
  rw [hf, getElem?_getD info.ant1 0 r.baseline hr.baseline,
    getElem?_getD info.ant2 0 r.baseline (by rw [h.ant2]; exact hr.baseline)]
  dsimp only
  rw [if_neg (by rw [hc, hr.data, hr.flags, hr.weights]; omega), hc]
  rw [List.take_of_length_le (by rw [hr.data]),
    List.take_of_length_le (by rw [hr.weights]),
    List.take_of_length_le (by rw [hr.flags]), hn]

theorem putRow_fold {info : Info} (h : info.WellFormed) (rows : List (Row V W U))
    (w : Writer V W U) (hw : w.info = info) (done : List (Option (MainRow V W U)))
    (hm : w.ms.main = done ++ List.replicate rows.length none)
    (hr : ∀ (i : Nat) (r : Row V W U), rows[i]? = some r → r.Fits info (done.length + i)) :
    rows.foldlM putRow w = .ok { w with ms := { w.ms with
      main := done ++ rows.map fun r => some (cellsOf info w.descIds r) } } := by
  induction rows generalizing w done with
  | nil =>
    obtain ⟨i, d, m⟩ := w
    obtain ⟨a, b, c, e, f⟩ := m
    simp at hm
    subst hm
    simp [pure, Except.pure]
  | cons r rows ih =>
    have h0 := hr 0 r (by simp)
    have hp : putRow w r = .ok { w with ms := { w.ms with
        main := (done ++ [some (cellsOf info w.descIds r)]) ++
          List.replicate rows.length none } } := by
      unfold putRow
      rw [hw, rowCells_ok h w.descIds _ r h0, hm]
      dsimp only
      rw [h0.rowNr, if_pos (by simp)]
      congr 4
      rw [Nat.add_zero, List.set_append_right _ _ (Nat.le_refl _)]
      simp [List.replicate_succ]
    rw [List.foldlM_cons, hp]
    change List.foldlM putRow _ rows = _
    rw [ih _ (by exact hw) (done ++ [some (cellsOf info w.descIds r)]) rfl]
    · simp
    · intro i r' hi
      have := hr (i + 1) r' (by simpa using hi)
      have he : (done ++ [some (cellsOf info w.descIds r)]).length + i = done.length + (i + 1) := by
        simp; omega
      rw [he]
      exact this

theorem writeBuffers_ok {info : Info} (h : info.WellFormed) (buffers : List (List (Row V W U)))
    (w : Writer V W U) (hw : w.info = info)
    (hr : ∀ (i : Nat) (r : Row V W U), buffers.flatten[i]? = some r → r.Fits info (w.ms.main.length + i)) :
    writeBuffers w buffers = .ok { w with ms := { w.ms with
      main := w.ms.main ++ buffers.flatten.map fun r => some (cellsOf info w.descIds r) } } := by
  induction buffers generalizing w with
  | nil => simp [writeBuffers, pure, Except.pure]
  | cons b bs ih =>
    unfold writeBuffers at ih ⊢
    have hb : writeBuffer w b = .ok { w with ms := { w.ms with
        main := w.ms.main ++ b.map fun r => some (cellsOf info w.descIds r) } } := by
      unfold writeBuffer
      refine putRow_fold h b _ (by exact hw) w.ms.main rfl fun i r hi => hr i r ?_
      rw [List.flatten_cons, List.getElem?_append_left (List.getElem?_eq_some_iff.mp hi).1]
      exact hi
    rw [List.foldlM_cons, hb]
    change List.foldlM writeBuffer _ bs = _
    rw [ih _ (by exact hw)]
    · simp
    · intro i r hi
      have := hr (b.length + i) r (by
        rw [List.flatten_cons, List.getElem?_append_right (by omega)]; simpa using hi)
      have he : (w.ms.main ++ b.map fun r => some (cellsOf info w.descIds r)).length + i =
          w.ms.main.length + (b.length + i) := by simp; omega
      dsimp only
      rw [he]
      exact this

theorem definedRows_map (ms : Ms V W U) (rows : List (MainRow V W U))
    (h : ms.main = rows.map some) : definedRows ms = .ok rows := by
  unfold definedRows
  rw [h, List.mapM_map]
  have := mapM_ok (fun r : MainRow V W U => (.ok r : Except Err _)) id rows fun _ _ => rfl
  rw [List.map_id] at this
  exact this

/-! ### Reading rows -/

/-- The rows, with their numbers from `k` on, that do not end more than a
millisecond before the last such row; `e` is the end of the last one before. -/
def delivered : Rat → Nat → List (MainRow V W U) → List (Nat × MainRow V W U)
  | _, _, [] => []
  | e, k, m :: ms =>
    if m.time + m.interval / 2 < e - 1 / 1000 then delivered e (k + 1) ms
    else (k, m) :: delivered (m.time + m.interval / 2) (k + 1) ms

/-- The end of the last row delivered. -/
def endAfter : Rat → List (MainRow V W U) → Rat
  | e, [] => e
  | e, m :: ms =>
    if m.time + m.interval / 2 < e - 1 / 1000 then endAfter e ms
    else endAfter (m.time + m.interval / 2) ms

theorem delivered_append (e : Rat) (k : Nat) (xs ys : List (MainRow V W U)) :
    delivered e k (xs ++ ys) =
      delivered e k xs ++ delivered (endAfter e xs) (k + xs.length) ys := by
  induction xs generalizing e k with
  | nil => rfl
  | cons x xs ih =>
    simp only [List.cons_append, delivered, endAfter, List.length_cons]
    split
    · rw [ih, Nat.add_right_comm, Nat.add_assoc]
    · rw [ih, Nat.add_right_comm, Nat.add_assoc, List.cons_append]

/-- The row that the reader makes of a row of the main table. -/
def rowFrom (rd : Reader) (p : Nat × MainRow V W U) : Row V W U :=
  { time := p.2.time, interval := p.2.interval, exposure := p.2.exposure, rowNr := p.1,
    baseline := (rd.blToId.lookup (p.2.ant1, p.2.ant2)).getD 0,
    nChannels := (rd.descToChan.lookup p.2.descId).getD 0,
    nCorrelations := rd.info.nCorr, uvw := p.2.uvw, data := p.2.data,
    flags := List.replicate ((rd.descToChan.lookup p.2.descId).getD 0 * rd.info.nCorr) false,
    weights := p.2.weights }

/-- A main table that the reader can read: the cells have the size of the window
of the row, which is at most the largest, and intervals exceed the tolerances. -/
def Readable (rd : Reader) (main : List (MainRow V W U)) : Prop :=
  ∀ m ∈ main, m.data.length = (rd.descToChan.lookup m.descId).getD 0 * rd.info.nCorr ∧
    m.weights.length = (rd.descToChan.lookup m.descId).getD 0 * rd.info.nCorr ∧
    (rd.descToChan.lookup m.descId).getD 0 ≤ rd.info.nChan ∧
    1 / 1000 + 2 / 1000000 ≤ m.interval

/-- The reader's part that does not change. -/
def SameMaps (a b : Reader) : Prop :=
  a.info = b.info ∧ a.descToChan = b.descToChan ∧ a.blToId = b.blToId

theorem rowFrom_same {a b : Reader} (h : SameMaps a b) (p : Nat × MainRow V W U) :
    rowFrom a p = rowFrom b p := by
  unfold rowFrom
  rw [h.1, h.2.1, h.2.2]

theorem readable_same {a b : Reader} (h : SameMaps a b) (main : List (MainRow V W U))
    (hr : Readable a main) : Readable b main := by
  unfold Readable at *
  rw [← h.1, ← h.2.1]
  exact hr

theorem rowOf_ok (rd : Reader) (m : MainRow V W U)
    (h1 : m.data.length = (rd.descToChan.lookup m.descId).getD 0 * rd.info.nCorr)
    (h2 : m.weights.length = (rd.descToChan.lookup m.descId).getD 0 * rd.info.nCorr) :
    rowOf rd m = .ok (rowFrom rd (rd.nread, m)) := by
  unfold rowOf rowFrom
  dsimp only
  rw [if_neg (by omega), List.take_of_length_le (by omega), List.take_of_length_le (by omega)]

theorem readLoop_eq (main : List (MainRow V W U)) (n : Nat) (rd : Reader) (b : Buf V W U)
    (h : Readable rd main)
    (hcap : n * (rd.info.nChan * rd.info.nCorr) ≤ b.remaining)
    (hlast : ∀ l, b.rows.getLast? = some l → l.time = rd.lastTime ∧ l.interval = rd.lastInterval ∧
      1 / 1000 + 2 / 1000000 ≤ l.interval) :
    ∃ rd' b', readLoop main n rd b = .ok (rd', b') ∧ SameMaps rd rd' ∧
      rd'.nread = rd.nread + ((main.drop rd.nread).take n).length ∧
      rd'.lastTime + rd'.lastInterval / 2 =
        endAfter (rd.lastTime + rd.lastInterval / 2) ((main.drop rd.nread).take n) ∧
      b'.rows = b.rows ++ (delivered (rd.lastTime + rd.lastInterval / 2) rd.nread
        ((main.drop rd.nread).take n)).map (rowFrom rd) := by
  induction n generalizing rd b with
  | zero =>
    exact ⟨rd, b, by simp [readLoop], ⟨rfl, rfl, rfl⟩, by simp, by simp [endAfter],
      by simp [delivered]⟩
  | succ n ih =>
    unfold readLoop
    cases hm : main[rd.nread]? with
    | none =>
      have : main.drop rd.nread = [] := by
        rw [List.drop_eq_nil_iff]
        exact List.getElem?_eq_none_iff.mp hm
      exact ⟨rd, b, rfl, ⟨rfl, rfl, rfl⟩, by simp [this], by simp [endAfter, this],
        by simp [delivered, this]⟩
    | some m =>
      obtain ⟨hlt, hget⟩ := List.getElem?_eq_some_iff.mp hm
      have hdrop : main.drop rd.nread = m :: main.drop (rd.nread + 1) := by
        rw [List.drop_eq_getElem_cons hlt, hget]
      dsimp only
      have hmem : m ∈ main := List.mem_of_getElem? hm
      obtain ⟨hd, hwt, hch, hint⟩ := h m hmem
      rw [hdrop, List.take_succ_cons, Nat.succ_mul] at *
      by_cases hte : tooEarly rd m.time m.interval = true
      · rw [if_pos hte]
        obtain ⟨rd', b', h1, h2, h3, h4, h5⟩ :=
          ih { rd with nread := rd.nread + 1 } b h (by dsimp only; omega) hlast
        have hlt' : m.time + m.interval / 2 < rd.lastTime + rd.lastInterval / 2 - 1 / 1000 := by
          simpa [tooEarly] using hte
        refine ⟨rd', b', h1, h2, ?_, ?_, ?_⟩
        · rw [h3]; simp; omega
        · rw [h4, endAfter, if_pos hlt']
        · rw [h5, delivered, if_pos hlt']
          rfl
      · rw [if_neg hte, rowOf_ok rd m hd hwt]
        have hge : ¬ m.time + m.interval / 2 < rd.lastTime + rd.lastInterval / 2 - 1 / 1000 := by
          simpa [tooEarly] using hte
        dsimp only
        have hmis : misordered b.rows (rowFrom rd (rd.nread, m)) = false := by
          unfold misordered
          cases hl : b.rows.getLast? with
          | none => rfl
          | some l =>
            obtain ⟨a1, a2, a3⟩ := hlast l hl
            rw [← a1, ← a2] at hge
            refine decide_eq_false fun hh => ?_
            simp only [rowFrom, not_lt] at hge hh
            linarith
        have hsize : (rowFrom rd (rd.nread, m)).nChannels * (rowFrom rd (rd.nread, m)).nCorrelations ≤
            rd.info.nChan * rd.info.nCorr := Nat.mul_le_mul_right _ hch
        have hadd : b.addRow (rowFrom rd (rd.nread, m)) =
            .ok ⟨b.rows ++ [rowFrom rd (rd.nread, m)], b.remaining -
              (rowFrom rd (rd.nread, m)).nChannels * (rowFrom rd (rd.nread, m)).nCorrelations⟩ := by
          unfold Buf.addRow
          rw [if_neg (by simp [hmis]), if_neg (by omega)]
        rw [hadd]
        dsimp only
        obtain ⟨rd', b', h1, h2, h3, h4, h5⟩ := ih
          { rd with lastTime := m.time, lastInterval := m.interval, nread := rd.nread + 1 }
          ⟨b.rows ++ [rowFrom rd (rd.nread, m)], b.remaining -
            (rowFrom rd (rd.nread, m)).nChannels * (rowFrom rd (rd.nread, m)).nCorrelations⟩
          h (by dsimp only; omega) (by
            intro l hl
            rw [List.getLast?_append] at hl
            simp at hl
            subst hl
            exact ⟨rfl, rfl, hint⟩)
        refine ⟨rd', b', h1, h2, ?_, ?_, ?_⟩
        · rw [h3]; simp; omega
        · rw [h4, endAfter, if_neg hge]
        · rw [h5, delivered, if_neg hge]
          simp only [List.append_assoc, List.map_cons, List.singleton_append]
          rfl

theorem readBuffers_eq (main : List (MainRow V W U)) (fuel : Nat) (rd : Reader)
    (h : Readable rd main) (hn : 0 < rd.info.nBaselines) (hf : main.length - rd.nread ≤ fuel)
    (hr : rd.nread < main.length) :
    ∃ buffers, readBuffers main fuel rd = .ok buffers ∧
      buffers.flatten = (delivered (rd.lastTime + rd.lastInterval / 2) rd.nread
        (main.drop rd.nread)).map (rowFrom rd) ∧
      main.length - rd.nread ≤ buffers.length * rd.info.nBaselines ∧
      buffers.length * rd.info.nBaselines < main.length - rd.nread + rd.info.nBaselines := by
  induction fuel generalizing rd with
  | zero => omega
  | succ fuel ih =>
    unfold readBuffers readBuffer
    rw [if_neg (by omega)]
    obtain ⟨rd', b', h1, h2, h3, h4, h5⟩ := readLoop_eq main rd.info.nBaselines rd
      ⟨[], rd.info.nBaselines * rd.info.nChan * rd.info.nCorr⟩ h
      (by dsimp only; rw [Nat.mul_assoc]) (by simp)
    rw [h1]
    dsimp only
    rw [List.nil_append] at h5
    have hsplit : main.drop rd.nread = (main.drop rd.nread).take rd.info.nBaselines ++
        (main.drop rd.nread).drop rd.info.nBaselines := (List.take_append_drop _ _).symm
    have hlen : ((main.drop rd.nread).take rd.info.nBaselines).length =
        min rd.info.nBaselines (main.length - rd.nread) := by simp
    by_cases hmore : rd'.nread < main.length
    · rw [if_pos hmore]
      have hn' : rd'.nread = rd.nread + rd.info.nBaselines := by omega
      obtain ⟨bs, k1, k2, k3, k4⟩ := ih rd' (readable_same h2 main h) (by rw [← h2.1]; exact hn)
        (by omega) hmore
      rw [k1]
      refine ⟨b'.rows :: bs, rfl, ?_, ?_, ?_⟩
      · rw [List.flatten_cons, k2, h5, h4]
        conv_rhs => rw [hsplit, delivered_append]
        rw [List.map_append, hlen, List.drop_drop, hn']
        congr 1
        rw [Nat.min_eq_left (by omega)]
        exact List.map_congr_left fun p _ => (rowFrom_same h2 p).symm
      · rw [List.length_cons, Nat.succ_mul]
        rw [← h2.1] at k3
        omega
      · rw [List.length_cons, Nat.succ_mul]
        rw [← h2.1] at k4
        omega
    · rw [if_neg hmore]
      refine ⟨[b'.rows], rfl, ?_, ?_, ?_⟩
      · rw [List.flatten_cons, List.flatten_nil, List.append_nil, h5,
          List.take_of_length_le (by simp; omega)]
      · simp; omega
      · simp; omega

end DP3.BdaMs
