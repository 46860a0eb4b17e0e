import Verif.BdaMs.Lemmas

/-!
Properties of writing BDA data to a measurement set and reading it back.
-/

namespace DP3.BdaMs

set_option linter.unusedSimpArgs false

variable {V W U : Type}

/-! ### Lemmas -/

private theorem foldl_min_le (xs : List Rat) (x : Rat) : xs.foldl min x ≤ x := by
  induction xs generalizing x with
  | nil => exact le_refl x
  | cons y ys ih => exact le_trans (ih _) (min_le_left _ _)

private theorem le_foldl_max (xs : List Rat) (x : Rat) : x ≤ xs.foldl max x := by
  induction xs generalizing x with
  | nil => exact le_refl x
  | cons y ys ih => exact le_trans (le_max_left _ _) (ih _)

private theorem smallest_le_largest (l : List Rat) : smallest l ≤ largest l := by
  cases l with
  | nil => exact le_refl _
  | cons x xs => exact le_trans (foldl_min_le xs x) (le_foldl_max xs x)

private theorem foldl_longest (ls : List (List Rat)) (l : List Rat) :
    (ls.foldl (fun best x => if best.length < x.length then x else best) l) ∈ l :: ls ∧
    ∀ x ∈ l :: ls, x.length ≤
      (ls.foldl (fun best x => if best.length < x.length then x else best) l).length := by
  induction ls generalizing l with
  | nil => simp
  | cons y ys ih =>
    rw [List.foldl_cons]
    obtain ⟨h1, h2⟩ := ih (if l.length < y.length then y else l)
    constructor
    · rcases List.mem_cons.mp h1 with h | h
      · rw [h]; split <;> simp
      · simp [h]
    · intro x hx
      have h3 := h2 _ List.mem_cons_self
      simp only [List.mem_cons] at hx
      rcases hx with rfl | rfl | hx
      · refine Nat.le_trans ?_ h3
        split <;> omega
      · refine Nat.le_trans ?_ h3
        split <;> omega
      · exact h2 x (by simp [hx])

private theorem longest_spec (l : List (List Rat)) :
    ∀ x ∈ l, x.length ≤ (longest l).length := by
  cases l with
  | nil => simp
  | cons y ys => exact (foldl_longest ys y).2

/-- The window that a baseline uses. -/
private theorem window_of {info : Info} (h : info.WellFormed)
    {st : List (Nat × Nat) × List SpwRow × List Nat} {old : Option Int × String}
    (hi : WinInv info old info.nBaselines st) (i : Nat) (hlt : i < info.nBaselines) :
    ∃ s j, st.2.1[(factorOf info st.1 i).spwId]? = some s ∧ j ≤ i ∧
      info.freqs[j]? = some s.freqs ∧ info.widths[j]? = some s.widths ∧
      s.freqs.length = (info.freqs.getD i []).length ∧
      (∀ k g, k < j → info.freqs[k]? = some g → g.length ≠ s.freqs.length) := by
  have hf := getElem?_getD info.freqs [] i (by rw [h.freqs]; exact hlt)
  have hc := hi.cover i _ hlt hf
  cases hl : st.1.lookup (info.freqs.getD i []).length with
  | none => rw [hl] at hc; simp at hc
  | some k =>
    obtain ⟨s, j, f, h1, h2, h3, h4, h5, h6, h7⟩ := hi.found _ _ hl
    refine ⟨s, j, ?_, ?_, by rw [h6]; exact h3, h4, by rw [h6, h5], ?_⟩
    · simp only [factorOf, hl, Option.getD_some]; exact h1
    · by_contra hcon
      exact h7 i _ (by omega) hf rfl
    · intro m g hm hg
      rw [h6, h5]
      exact h7 m g hm hg

/-- The window that a baseline uses, or some window. -/
private def windowAt (spw : List SpwRow) (f : FactorRow) : SpwRow :=
  (spw[f.spwId]?).getD ⟨[], [], [], none, "", 0, 0, [], 0⟩

private theorem windows_read {info : Info} (h : info.WellFormed)
    {st : List (Nat × Nat) × List SpwRow × List Nat} {old : Option Int × String}
    (hi : WinInv info old info.nBaselines st) :
    ((List.range info.nBaselines).map (factorOf info st.1)).mapM (windowOf st.2.1) =
      .ok (((List.range info.nBaselines).map (factorOf info st.1)).map (windowAt st.2.1)) := by
  refine mapM_ok _ _ _ fun f hf => ?_
  obtain ⟨i, hir, rfl⟩ := List.mem_map.mp hf
  obtain ⟨s, j, h1, -⟩ := window_of h hi i (by simpa using hir)
  unfold windowOf windowAt
  rw [h1]
  rfl

/-- What the reader finds, apart from the frequencies. -/
private theorem openReader_written {info : Info} (h : info.WellFormed)
    {st : List (Nat × Nat) × List SpwRow × List Nat} {old : Option Int × String}
    (hi : WinInv info old info.nBaselines st) (ms : Ms V W U)
    (hm : ms.spw = st.2.1 ∧ ms.factors = (List.range info.nBaselines).map (factorOf info st.1) ∧
      ms.axis = [axisRow info ms.factors])
    (rows : List (MainRow V W U)) (first : MainRow V W U) (rest : List (MainRow V W U))
    (hrows : rows = first :: rest) (hd : definedRows ms = .ok rows) (hnc : first.nCorr = info.nCorr)
    (fs ws : List (List Rat))
    (hfs : fs = (ms.factors.map (windowAt st.2.1)).map SpwRow.freqs)
    (hws : ws = (ms.factors.map (windowAt st.2.1)).map SpwRow.widths)
    (hcount : ∀ (i : Nat) (f w : List Rat), fs[i]? = some f → ws[i]? = some w → f.length = w.length)
    (hbw : ∀ v ∈ ws, ∀ w ∈ ws, v.sum = w.sum) (hch : ∃ f ∈ fs, f ≠ []) :
    ∃ rd : Reader, openReader ms = .ok rd ∧ rd.info.ant1 = info.ant1 ∧ rd.info.ant2 = info.ant2 ∧
      rd.info.timeAvgs = info.timeAvgs ∧ rd.info.nCorr = info.nCorr ∧
      rd.info.timeInterval = info.timeInterval ∧ rd.info.freqs = fs ∧ rd.info.widths = ws ∧
      rd.info.resolutions = ws ∧ rd.info.effectiveBw = ws ∧
      (∀ f ∈ fs, f.length ≤ rd.info.nChan) ∧
      rd.descToChan = ((ms.factors.zip (ms.factors.map (windowAt st.2.1))).map
        fun p => (p.1.spwId, p.2.freqs.length)).reverse ∧
      rd.blToId = (ms.factors.zipIdx.map fun p => ((p.1.ant1, p.1.ant2), p.2)).reverse ∧
      rd.lastTime = 0 ∧ rd.lastInterval = 0 ∧ rd.nread = 0 := by
  obtain ⟨hspw, hfac, hax⟩ := hm
  have ha1 : ms.factors.map FactorRow.ant1 = info.ant1 := by
    rw [hfac, List.map_map]
    exact map_getD info.ant1 0 _ rfl
  have ha2 : ms.factors.map FactorRow.ant2 = info.ant2 := by
    rw [hfac, List.map_map]
    exact map_getD info.ant2 0 _ h.ant2
  have hta : ms.factors.map FactorRow.factor = info.timeAvgs := by
    rw [hfac, List.map_map]
    exact map_getD info.timeAvgs 0 _ h.timeAvgs
  have hlenf : ms.factors.length = info.nBaselines := by rw [hfac]; simp
  have hlenfs : fs.length = info.nBaselines := by rw [hfs]; simp [hlenf]
  have hlenws : ws.length = info.nBaselines := by rw [hws]; simp [hlenf]
  unfold openReader
  rw [hd, hspw, hrows]
  have hwin := windows_read h hi
  rw [← hfac] at hwin
  rw [hwin, hax]
  dsimp only
  unfold setTimes
  rw [if_neg (not_lt.mpr (smallest_le_largest _)),
    if_neg (by simp only [axisRow, not_le]; exact h.interval)]
  dsimp only
  rw [← hfs, ← hws]
  unfold setChannels
  rw [if_neg (by
    rw [hlenfs, hlenws]
    simp only [Info.nBaselines, ha1]
    simp)]
  rw [if_neg (by
    simp only [List.any_eq_true, bne_iff_ne, ne_eq, not_exists, not_and, not_not]
    rintro ⟨f, w⟩ hp
    obtain ⟨i, hi'⟩ := List.getElem?_of_mem hp
    rw [List.getElem?_zip_eq_some] at hi'
    exact hcount i f w hi'.1 hi'.2)]
  have hmost : 0 < (longest fs).length := by
    obtain ⟨f, hf, hne⟩ := hch
    have := longest_spec fs f hf
    have := List.length_pos_iff.mpr hne
    omega
  cases hw0 : ws with
  | nil =>
    exfalso
    rw [hw0] at hlenws
    have := h.nonempty
    simp at hlenws
    omega
  | cons front others =>
    dsimp only
    rw [if_neg (by
      simp only [List.any_eq_true, bne_iff_ne, ne_eq, not_exists, not_and, not_not]
      intro w hw
      rw [← hw0] at hw
      exact hbw w hw front (by rw [hw0]; simp))]
    rw [List.getElem?_eq_getElem (show ((longest fs).length - 1) / 2 < (longest fs).length by omega),
      List.getElem?_eq_getElem (show (longest fs).length / 2 < (longest fs).length by omega)]
    dsimp only
    exact ⟨_, rfl, ha1, ha2, hta, hnc, rfl, rfl, rfl, rfl, rfl, longest_spec fs, rfl, rfl, rfl, rfl,
      rfl⟩

private theorem zipIdx_mem {A : Type} (l : List A) (p : A × Nat) :
    p ∈ l.zipIdx ↔ l[p.2]? = some p.1 := by
  obtain ⟨a, i⟩ := p
  rw [List.mem_zipIdx_iff_getElem?]

/-- The antenna pair gives the baseline. -/
private theorem baseline_of {info : Info} (h : info.WellFormed) (descIds : List (Nat × Nat))
    (b : Nat) (hb : b < info.nBaselines) :
    ((((List.range info.nBaselines).map (factorOf info descIds)).zipIdx.map
      fun p => ((p.1.ant1, p.1.ant2), p.2)).reverse).lookup
        (info.ant1.getD b 0, info.ant2.getD b 0) = some b := by
  have hget : ∀ i, ((List.range info.nBaselines).map (factorOf info descIds))[i]? =
      if i < info.nBaselines then some (factorOf info descIds i) else none := by
    intro i
    split
    · rename_i hi; simp [hi]
    · rename_i hi; simp [hi]
  apply lookup_of_mem
  · rw [List.mem_reverse, List.mem_map]
    refine ⟨(factorOf info descIds b, b), ?_, rfl⟩
    rw [zipIdx_mem, hget, if_pos hb]
  · intro w hw
    rw [List.mem_reverse, List.mem_map] at hw
    obtain ⟨⟨f, i⟩, hp, he⟩ := hw
    rw [zipIdx_mem, hget] at hp
    dsimp only at hp
    split at hp
    · rename_i hi
      cases hp
      simp only [Prod.mk.injEq] at he
      obtain ⟨⟨e1, e2⟩, e3⟩ := he
      subst e3
      simp only [factorOf] at e1 e2
      have z : ∀ k, k < info.nBaselines → (info.ant1.zip info.ant2)[k]? =
          some (info.ant1.getD k 0, info.ant2.getD k 0) := by
        intro k hk
        rw [List.getElem?_zip_eq_some]
        exact ⟨getElem?_getD _ _ _ hk, getElem?_getD _ _ _ (by rw [h.ant2]; exact hk)⟩
      have z1 := z i hi
      have z2 := z b hb
      rw [e1, e2, ← z2] at z1
      exact (List.getElem?_inj (by rw [List.length_zip, h.ant2]; simp [Info.nBaselines] at hi ⊢; exact hi)
        h.distinct).mp z1
    · cases hp

/-- The window of the rows of a baseline has as many channels. -/
private theorem channels_of {info : Info} (h : info.WellFormed)
    {st : List (Nat × Nat) × List SpwRow × List Nat} {old : Option Int × String}
    (hi : WinInv info old info.nBaselines st) (factors : List FactorRow)
    (hfac : factors = (List.range info.nBaselines).map (factorOf info st.1)) (b : Nat)
    (hb : b < info.nBaselines) :
    (((factors.zip (factors.map (windowAt st.2.1))).map
      fun p => (p.1.spwId, p.2.freqs.length)).reverse).lookup (factorOf info st.1 b).spwId =
      some (info.freqs.getD b []).length := by
  obtain ⟨s, j, h1, -, -, -, h5, -⟩ := window_of h hi b hb
  have hzip : factors.zip (factors.map (windowAt st.2.1)) =
      factors.map fun f => (f, windowAt st.2.1 f) := by
    clear hfac
    induction factors with
    | nil => rfl
    | cons f fs ih => simp [ih]
  rw [hzip, List.map_map]
  have hat : ∀ f : FactorRow, f.spwId = (factorOf info st.1 b).spwId →
      (windowAt st.2.1 f).freqs.length = (info.freqs.getD b []).length := by
    intro f hf
    unfold windowAt
    rw [hf, h1]
    exact h5
  apply lookup_of_mem
  · rw [List.mem_reverse, List.mem_map]
    refine ⟨factorOf info st.1 b, ?_, ?_⟩
    · rw [hfac, List.mem_map]
      exact ⟨b, by simpa using hb, rfl⟩
    · simp only [Function.comp, Prod.mk.injEq, true_and]
      exact hat _ rfl
  · intro w hw
    rw [List.mem_reverse, List.mem_map] at hw
    obtain ⟨f, -, he⟩ := hw
    simp only [Function.comp, Prod.mk.injEq] at he
    rw [← he.2]
    exact hat f he.1

private theorem delivered_kept {info : Info} (descIds : List (Nat × Nat)) (rd : Reader)
    (rows : List (Row V W U)) (e : Rat) (k : Nat)
    (hrow : ∀ i r, rows[i]? = some r →
      rowFrom rd (k + i, cellsOf info descIds r) = r.unflagged) :
    (delivered e k (rows.map (cellsOf info descIds))).map (rowFrom rd) =
      (keptRows e rows).map Row.unflagged := by
  induction rows generalizing e k with
  | nil => rfl
  | cons r rs ih =>
    have hrest : ∀ i r', rs[i]? = some r' →
        rowFrom rd (k + 1 + i, cellsOf info descIds r') = r'.unflagged := by
      intro i r' hi
      have := hrow (i + 1) r' (by simpa using hi)
      rw [show k + 1 + i = k + (i + 1) by omega]
      exact this
    have h0 := hrow 0 r (by simp)
    simp only [List.map_cons, delivered, keptRows]
    have he : (cellsOf info descIds r).time + (cellsOf info descIds r).interval / 2 = r.end_ := rfl
    rw [he]
    split
    · exact ih _ _ hrest
    · rw [List.map_cons, List.map_cons, ih _ _ hrest]
      congr 1

private theorem keptRows_ordered (rows : List (Row V W U)) (e : Rat)
    (h0 : ∀ r, rows[0]? = some r → e - 1 / 1000 ≤ r.end_)
    (h : ∀ (i : Nat) (a b : Row V W U), rows[i]? = some a → rows[i + 1]? = some b →
      a.end_ - 1 / 1000 ≤ b.end_) : keptRows e rows = rows := by
  induction rows generalizing e with
  | nil => rfl
  | cons r rs ih =>
    unfold keptRows
    rw [if_neg (not_lt.mpr (h0 r (by simp))), ih]
    · intro r' hr'
      exact h 0 r r' (by simp) (by simpa using hr')
    · intro i a b ha hb
      exact h (i + 1) a b (by simpa using ha) (by simpa using hb)

/-! ### Properties -/

/-- **Writing and reading back.**  For every info in which baselines with as many
channels have the same channels, and all rows that belong to it and are numbered
consecutively, the written measurement set can be read.  The reader finds the
antennas, averaging factors, channels, widths and time interval of the writer.
It delivers, in order, the rows that do not end before their predecessor, with
the data, weights, times, UVW, baselines and row numbers they had.  All flags
are false. -/
theorem write_read (info : Info) (h : info.WellFormed) (hl : info.SameLayout)
    (hb : info.SameBandwidth) (spw : List SpwRow) (desc : List Nat)
    (buffers : List (List (Row V W U))) (hne : buffers.flatten ≠ [])
    (hfit : ∀ (i : Nat) (r : Row V W U), buffers.flatten[i]? = some r → r.Fits info i) :
    ∃ ms info' buffers', writeMs info spw desc buffers = .ok ms ∧
      readMs ms = .ok (info', buffers') ∧ info'.ant1 = info.ant1 ∧ info'.ant2 = info.ant2 ∧
      info'.timeAvgs = info.timeAvgs ∧ info'.nCorr = info.nCorr ∧
      info'.timeInterval = info.timeInterval ∧ info'.freqs = info.freqs ∧
      info'.widths = info.widths ∧ info'.resolutions = info.widths ∧
      info'.effectiveBw = info.widths ∧
      buffers'.flatten = (keptRows 0 buffers.flatten).map Row.unflagged ∧
      buffers.flatten.length ≤ buffers'.length * info.nBaselines ∧
      buffers'.length * info.nBaselines < buffers.flatten.length + info.nBaselines := by
  obtain ⟨st, hi, hw⟩ := openWriter_ok (V := V) (W := W) (U := U) h spw desc
  let factors := (List.range info.nBaselines).map (factorOf info st.1)
  let rows := buffers.flatten.map (cellsOf info st.1)
  let ms : Ms V W U := ⟨rows.map some, st.2.1, st.2.2, factors, [axisRow info factors]⟩
  have hwrite : writeMs info spw desc buffers = .ok ms := by
    unfold writeMs
    rw [hw]
    dsimp only
    rw [writeBuffers_ok h buffers _ (by rfl) (by simpa using hfit)]
    simp [ms, rows, factors, Function.comp_def]
  have hdef : definedRows ms = .ok rows := definedRows_map ms rows rfl
  have hat : ∀ i, i < info.nBaselines →
      (windowAt st.2.1 (factorOf info st.1 i)).freqs = info.freqs.getD i [] ∧
      (windowAt st.2.1 (factorOf info st.1 i)).widths = info.widths.getD i [] := by
    intro i hlt
    obtain ⟨s, j, h1, h2, h3, h4, h5, -⟩ := window_of h hi i hlt
    have hfi := getElem?_getD info.freqs [] i (by rw [h.freqs]; exact hlt)
    have hwi := getElem?_getD info.widths [] i (by rw [h.widths]; exact hlt)
    obtain ⟨e1, e2⟩ := hl j i _ _ h3 hfi h5
    unfold windowAt
    rw [h1]
    refine ⟨e1, ?_⟩
    rw [h4, hwi] at e2
    exact Option.some.inj e2
  have hfs : info.freqs = (ms.factors.map (windowAt st.2.1)).map SpwRow.freqs := by
    conv_lhs => rw [← map_getD info.freqs [] info.nBaselines h.freqs]
    simp only [ms, factors, List.map_map]
    refine List.map_congr_left fun i hir => ?_
    exact (hat i (by simpa using hir)).1.symm
  have hws : info.widths = (ms.factors.map (windowAt st.2.1)).map SpwRow.widths := by
    conv_lhs => rw [← map_getD info.widths [] info.nBaselines h.widths]
    simp only [ms, factors, List.map_map]
    refine List.map_congr_left fun i hir => ?_
    exact (hat i (by simpa using hir)).2.symm
  obtain ⟨first, rest, hcons⟩ : ∃ first rest, rows = first :: rest := by
    cases hr : rows with
    | nil => exfalso; apply hne; simpa [rows] using hr
    | cons a b => exact ⟨a, b, rfl⟩
  have hnc : first.nCorr = info.nCorr := by
    have : first ∈ rows := by rw [hcons]; simp
    obtain ⟨r, -, rfl⟩ := List.mem_map.mp this
    rfl
  obtain ⟨rd, ho, k1, k2, k3, k4, k5, k6, k7, k8, k9, k10, k11, k12, k13, k14, k15⟩ :=
    openReader_written h hi ms ⟨rfl, rfl, rfl⟩ rows first rest hcons hdef hnc info.freqs info.widths
      hfs hws h.widthCount hb h.channels
  have hmaps : ∀ (i : Nat) (r : Row V W U), r.Fits info i →
      rd.descToChan.lookup (cellsOf info st.1 r).descId = some r.nChannels ∧
      rd.blToId.lookup ((cellsOf info st.1 r).ant1, (cellsOf info st.1 r).ant2) =
        some r.baseline := by
    intro i r hr
    obtain ⟨f, hf, hn⟩ := hr.nChannels
    have hfd : info.freqs.getD r.baseline [] = f := by
      have := getElem?_getD info.freqs [] r.baseline (by rw [h.freqs]; exact hr.baseline)
      rw [hf] at this
      exact (Option.some.inj this).symm
    refine ⟨?_, ?_⟩
    · rw [k11]
      have := channels_of h hi ms.factors rfl r.baseline hr.baseline
      rw [hfd, ← hn] at this
      rw [← this]
      simp only [factorOf, cellsOf, hfd, hn]
    · rw [k12]
      exact baseline_of h st.1 r.baseline hr.baseline
  have hread : Readable rd rows := by
    intro m hm
    obtain ⟨r, hr, rfl⟩ := List.mem_map.mp hm
    obtain ⟨i, hri⟩ := List.getElem?_of_mem hr
    have hf := hfit i r hri
    rw [(hmaps i r hf).1, k4]
    refine ⟨?_, ?_, ?_, hf.interval⟩
    · simp only [cellsOf, Option.getD_some]
      rw [hf.data, hf.nCorrelations]
    · simp only [cellsOf, Option.getD_some]
      rw [hf.weights, hf.nCorrelations]
    · obtain ⟨f, hff, hn⟩ := hf.nChannels
      simp only [Option.getD_some]
      rw [hn]
      exact k10 f (List.mem_of_getElem? hff)
  have hlen : rows.length = buffers.flatten.length := List.length_map ..
  have hnb : rd.info.nBaselines = info.nBaselines := by simp [Info.nBaselines, k1]
  obtain ⟨bs, b1, b2, b3, b4⟩ := readBuffers_eq rows rows.length rd hread (by rw [hnb]; exact h.nonempty)
    (by omega) (by rw [k15, hcons]; simp)
  refine ⟨ms, rd.info, bs, hwrite, ?_, k1, k2, k3, k4, k5, k6, k7, k8, k9, ?_, ?_, ?_⟩
  · unfold readMs
    rw [ho, hdef]
    dsimp only
    rw [b1]
  · rw [b2, k13, k14, k15]
    rw [show (0 : Rat) + 0 / 2 = 0 by norm_num, List.drop_zero]
    refine delivered_kept st.1 rd buffers.flatten 0 0 fun i r hri => ?_
    have hf := hfit i r hri
    obtain ⟨m1, m2⟩ := hmaps i r hf
    unfold rowFrom Row.unflagged
    dsimp only
    rw [m1, m2, k4]
    simp only [cellsOf, Option.getD_some, Nat.zero_add]
    obtain ⟨a1, a2, a3, a4, a5, a6, a7, a8, a9, a10, a11⟩ := r
    have e1 := hf.rowNr
    have e2 := hf.flags
    have e3 := hf.nCorrelations
    dsimp only at e1 e2 e3 ⊢
    subst e1 e3
    congr 1
    rw [List.map_const', e2]
  · rw [k15, hnb] at b3
    rwa [Nat.sub_zero, hlen] at b3
  · rw [k15, hnb] at b4
    rwa [Nat.sub_zero, hlen] at b4

/-- When every row ends at or after its predecessor, up to a millisecond, all
rows come back. -/
theorem write_read_ordered (info : Info) (h : info.WellFormed) (hl : info.SameLayout)
    (hb : info.SameBandwidth) (spw : List SpwRow) (desc : List Nat)
    (buffers : List (List (Row V W U))) (hne : buffers.flatten ≠ [])
    (hfit : ∀ (i : Nat) (r : Row V W U), buffers.flatten[i]? = some r → r.Fits info i)
    (hord : Ordered buffers.flatten) :
    ∃ ms info' buffers', writeMs info spw desc buffers = .ok ms ∧
      readMs ms = .ok (info', buffers') ∧
      buffers'.flatten = buffers.flatten.map Row.unflagged := by
  obtain ⟨ms, info', buffers', h1, h2, -, -, -, -, -, -, -, -, -, h3, -, -⟩ :=
    write_read info h hl hb spw desc buffers hne hfit
  refine ⟨ms, info', buffers', h1, h2, ?_⟩
  rw [h3, keptRows_ordered _ _ (fun r hr => ?_) hord.2]
  have := hord.1 r hr
  linarith

/-- Every flag that the reader delivers is false, whatever the FLAG column
has. -/
theorem read_unflagged (ms : Ms V W U) (info : Info) (buffers : List (List (Row V W U)))
    (h : readMs ms = .ok (info, buffers)) :
    ∀ r ∈ buffers.flatten, ∀ f ∈ r.flags, f = false := by
  have hrow : ∀ (rd : Reader) (m : MainRow V W U) r, rowOf rd m = .ok r →
      ∀ f ∈ r.flags, f = false := by
    intro rd m r hr f hf
    unfold rowOf at hr
    dsimp only at hr
    split at hr
    · cases hr
    · cases hr
      exact List.eq_of_mem_replicate hf
  have hloop : ∀ (main : List (MainRow V W U)) n rd b rd' b', readLoop main n rd b = .ok (rd', b') →
      (∀ r ∈ b.rows, ∀ f ∈ r.flags, f = false) → ∀ r ∈ b'.rows, ∀ f ∈ r.flags, f = false := by
    intro main n
    induction n with
    | zero =>
      intro rd b rd' b' hl hb
      simp only [readLoop, Except.ok.injEq, Prod.mk.injEq] at hl
      rw [← hl.2]
      exact hb
    | succ n ih =>
      intro rd b rd' b' hl hb
      unfold readLoop at hl
      split at hl
      · simp only [Except.ok.injEq, Prod.mk.injEq] at hl
        rw [← hl.2]
        exact hb
      · split at hl
        · exact ih _ _ _ _ hl hb
        · split at hl
          · cases hl
          · rename_i r hr
            split at hl
            · cases hl
            · rename_i b1 hadd
              refine ih _ _ _ _ hl ?_
              unfold Buf.addRow at hadd
              split at hadd
              · cases hadd
              · split at hadd
                · cases hadd; exact hb
                · cases hadd
                  intro r' hr'
                  rcases List.mem_append.mp hr' with hr' | hr'
                  · exact hb r' hr'
                  · rw [List.mem_singleton] at hr'
                    subst hr'
                    exact hrow _ _ _ hr
  have hbufs : ∀ (main : List (MainRow V W U)) fuel rd bs, readBuffers main fuel rd = .ok bs →
      ∀ r ∈ bs.flatten, ∀ f ∈ r.flags, f = false := by
    intro main fuel
    induction fuel with
    | zero =>
      intro rd bs hb
      cases hb
      simp
    | succ fuel ih =>
      intro rd bs hb
      unfold readBuffers at hb
      split at hb
      · cases hb
      · rename_i rd' rows hrb
        have hrows : ∀ r ∈ rows, ∀ f ∈ r.flags, f = false := by
          unfold readBuffer at hrb
          split at hrb
          · cases hrb
          · split at hrb
            · cases hrb
            · rename_i rd1 b1 hl
              cases hrb
              exact hloop _ _ _ _ _ _ hl (by simp)
        split at hb
        · split at hb
          · cases hb
          · rename_i rest hrest
            cases hb
            intro r hr
            rw [List.flatten_cons] at hr
            rcases List.mem_append.mp hr with hr | hr
            · exact hrows r hr
            · exact ih _ _ hrest r hr
        · cases hb
          intro r hr
          rw [List.flatten_cons, List.flatten_nil, List.append_nil] at hr
          exact hrows r hr
  unfold readMs at h
  split at h
  · split at h
    · rename_i hb
      cases h
      exact hbufs _ _ _ _ hb
    · cases h
  · cases h
  · cases h

/-- **What is written.**  Every row of the buffers is a row of the main table
under its own number, with its times, its values, the antennas of its baseline,
and a row flag that is set exactly when all its flags are.  The window that it
refers to is the window of its baseline in `BDA_FACTORS`, and has as many
channels as the row.  Every window has the frequencies, widths, effective
bandwidths and resolutions of one baseline. -/
theorem write_tables (info : Info) (h : info.WellFormed) (spw : List SpwRow) (desc : List Nat)
    (buffers : List (List (Row V W U)))
    (hfit : ∀ (i : Nat) (r : Row V W U), buffers.flatten[i]? = some r → r.Fits info i) :
    ∃ ms, writeMs info spw desc buffers = .ok ms ∧ ms.main.length = buffers.flatten.length ∧
      ms.factors.length = info.nBaselines ∧ ms.dataDesc.length = ms.spw.length ∧
      (∀ s ∈ ms.spw, ∃ j, j < info.nBaselines ∧ info.freqs[j]? = some s.freqs ∧
        info.widths[j]? = some s.widths ∧ info.effectiveBw[j]? = some s.effectiveBw ∧
        info.resolutions[j]? = some s.resolution ∧ s.numChan = s.freqs.length ∧
        s.refFreq = info.refFreq ∧ s.totalBw = info.totalBw) ∧
      ∀ (i : Nat) (r : Row V W U), buffers.flatten[i]? = some r →
        ∃ m f s, ms.main[r.rowNr]? = some (some m) ∧ m.time = r.time ∧ m.timeCentroid = r.time ∧
          m.interval = r.interval ∧ m.exposure = r.exposure ∧ m.uvw = r.uvw ∧
          info.ant1[r.baseline]? = some m.ant1 ∧ info.ant2[r.baseline]? = some m.ant2 ∧
          m.nCorr = r.nCorrelations ∧ m.nChan = r.nChannels ∧ m.data = r.data ∧
          m.weights = r.weights ∧ m.flags = r.flags ∧
          (m.flagRow = true ↔ ∀ x ∈ r.flags, x = true) ∧
          ms.factors[r.baseline]? = some f ∧ f.ant1 = m.ant1 ∧ f.ant2 = m.ant2 ∧
          info.timeAvgs[r.baseline]? = some f.factor ∧ f.spwId = m.descId ∧
          ms.spw[m.descId]? = some s ∧ s.numChan = r.nChannels := by
  obtain ⟨st, hi, ho⟩ := openWriter_ok (V := V) (W := W) (U := U) h spw desc
  refine ⟨⟨buffers.flatten.map fun r => some (cellsOf info st.1 r), st.2.1, st.2.2,
    (List.range info.nBaselines).map (factorOf info st.1),
    [axisRow info ((List.range info.nBaselines).map (factorOf info st.1))]⟩, ?_, by rw [List.length_map], by simp,
    hi.len.symm, hi.whole, fun i r hr => ?_⟩
  · unfold writeMs
    rw [ho]
    dsimp only
    rw [writeBuffers_ok h buffers _ (by rfl) (by simpa using hfit)]
    rfl
  · have hf := hfit i r hr
    obtain ⟨s, j, h1, -, -, -, h5, -⟩ := window_of h hi r.baseline hf.baseline
    obtain ⟨f, hff, hn⟩ := hf.nChannels
    have hfd : info.freqs.getD r.baseline [] = f := by
      have := getElem?_getD info.freqs [] r.baseline (by rw [h.freqs]; exact hf.baseline)
      rw [hff] at this
      exact (Option.some.inj this).symm
    have hid : (factorOf info st.1 r.baseline).spwId = (cellsOf info st.1 r).descId := by
      simp only [factorOf, cellsOf, hfd, hn]
    refine ⟨cellsOf info st.1 r, factorOf info st.1 r.baseline, s, ?_, rfl, rfl, rfl, rfl, rfl,
      getElem?_getD _ _ _ hf.baseline, getElem?_getD _ _ _ (by rw [h.ant2]; exact hf.baseline),
      hf.nCorrelations.symm, rfl, rfl, rfl, rfl, ?_, ?_, rfl, rfl,
      getElem?_getD _ _ _ (by rw [h.timeAvgs]; exact hf.baseline), hid, ?_, ?_⟩
    · rw [hf.rowNr, List.getElem?_map, hr]
      rfl
    · simp [cellsOf]
    · simp [hf.baseline]
    · rw [← hid]
      exact h1
    · obtain ⟨-, -, -, -, -, -, e, -⟩ := hi.whole s (List.mem_of_getElem? h1)
      rw [e, h5, hfd, hn]

private theorem openReader_freqs (ms : Ms V W U) (rd : Reader) (h : openReader ms = .ok rd) :
    ∃ windows, ms.factors.mapM (windowOf ms.spw) = .ok windows ∧
      rd.info.freqs = windows.map SpwRow.freqs := by
  unfold openReader at h
  split at h
  · cases h
  · split at h
    · dsimp only at h
      refine ⟨_, by assumption, ?_⟩
      split at h
      · cases h
      · split at h
        · cases h
        · rename_i i2 hset
          cases h
          dsimp only
          unfold setChannels at hset
          split at hset
          · cases hset
          · split at hset
            · cases hset
            · split at hset
              · cases hset
              · split at hset
                · cases hset
                · dsimp only at hset
                  split at hset
                  · cases hset; rfl
                  · cases hset
    · cases h

/-- **The channels that come back** are, for each baseline, those of the first
baseline with as many channels: the tables have one window per number of
channels. -/
theorem read_channels (info : Info) (h : info.WellFormed) (spw : List SpwRow) (desc : List Nat)
    (buffers buffers' : List (List (Row V W U))) (ms : Ms V W U) (info' : Info)
    (hfit : ∀ (i : Nat) (r : Row V W U), buffers.flatten[i]? = some r → r.Fits info i)
    (hw : writeMs info spw desc buffers = .ok ms) (hr : readMs ms = .ok (info', buffers'))
    (i : Nat) (f : List Rat) (hf : info.freqs[i]? = some f) :
    ∃ j g, j ≤ i ∧ info.freqs[j]? = some g ∧ g.length = f.length ∧
      (∀ k g', k < j → info.freqs[k]? = some g' → g'.length ≠ f.length) ∧
      info'.freqs[i]? = some g := by
  obtain ⟨st, hi, ho⟩ := openWriter_ok (V := V) (W := W) (U := U) h spw desc
  have hms : ms.spw = st.2.1 ∧ ms.factors = (List.range info.nBaselines).map (factorOf info st.1) := by
    unfold writeMs at hw
    rw [ho] at hw
    dsimp only at hw
    rw [writeBuffers_ok h buffers _ (by rfl) (by simpa using hfit)] at hw
    cases hw
    exact ⟨rfl, rfl⟩
  have hlt : i < info.nBaselines := by
    rw [← h.freqs]
    exact (List.getElem?_eq_some_iff.mp hf).1
  obtain ⟨s, j, h1, h2, h3, h4, h5, h6⟩ := window_of h hi i hlt
  have hfd : info.freqs.getD i [] = f := by
    have := getElem?_getD info.freqs [] i (by rw [h.freqs]; exact hlt)
    rw [hf] at this
    exact (Option.some.inj this).symm
  rw [hfd] at h5
  refine ⟨j, s.freqs, h2, h3, h5, fun k g' hk hg => by rw [← h5]; exact h6 k g' hk hg, ?_⟩
  unfold readMs at hr
  split at hr
  · rename_i rd main hrd hdef
    split at hr
    · cases hr
      obtain ⟨windows, hwin, hfr⟩ := openReader_freqs ms rd hrd
      rw [hms.1, hms.2, windows_read h hi] at hwin
      cases hwin
      rw [hfr]
      simp [hlt, windowAt, h1]
    · cases hr
  · cases hr
  · cases hr

/-- **The frequency reference is lost.**  For every input, the frequency
reference of all windows in the output is a value that was never assigned, and
the name of the window is empty. -/
theorem frequency_reference_lost (info : Info) (spw : List SpwRow) (desc : List Nat)
    (w : Writer V W U) (h : openWriter info spw desc = .ok w) :
    ∀ s ∈ w.ms.spw, s.measFreqRef = none ∧ s.name = "" := by
  unfold openWriter at h
  split at h
  · cases h
  · split at h
    · cases h
    · rename_i ids sp dd hov
      split at h
      · cases h
      · cases h
        unfold overwriteSubTables copySubTable at hov
        simp only [if_true, List.length_nil, ne_eq, not_true_eq_false, if_false] at hov
        have := (winInv_fold _ hov).ref
        simpa [oldWindow] using this

private theorem foldl_min_spec (l : List FactorRow) (m : Nat) :
    (∀ f ∈ l, l.foldl (fun m f => min m f.factor) m ≤ f.factor) ∧
      l.foldl (fun m f => min m f.factor) m ≤ m ∧
      (l.foldl (fun m f => min m f.factor) m = m ∨
        ∃ f ∈ l, l.foldl (fun m f => min m f.factor) m = f.factor) := by
  induction l generalizing m with
  | nil => simp
  | cons x xs ih =>
    obtain ⟨h1, h2, h3⟩ := ih (min m x.factor)
    rw [List.foldl_cons]
    refine ⟨fun f hf => ?_, by omega, ?_⟩
    · rcases List.mem_cons.mp hf with rfl | hf
      · omega
      · exact h1 f hf
    · rcases h3 with h3 | ⟨f, hf, h3⟩
      · rcases Nat.le_total m x.factor with hle | hle
        · left; omega
        · right; exact ⟨x, by simp, by omega⟩
      · right; exact ⟨f, by simp [hf], h3⟩

private theorem foldl_max_spec (l : List FactorRow) (m : Nat) :
    (∀ f ∈ l, f.factor ≤ l.foldl (fun m f => max m f.factor) m) ∧
      m ≤ l.foldl (fun m f => max m f.factor) m ∧
      (l.foldl (fun m f => max m f.factor) m = m ∨
        ∃ f ∈ l, l.foldl (fun m f => max m f.factor) m = f.factor) := by
  induction l generalizing m with
  | nil => simp
  | cons x xs ih =>
    obtain ⟨h1, h2, h3⟩ := ih (max m x.factor)
    rw [List.foldl_cons]
    refine ⟨fun f hf => ?_, by omega, ?_⟩
    · rcases List.mem_cons.mp hf with rfl | hf
      · omega
      · exact h1 f hf
    · rcases h3 with h3 | ⟨f, hf, h3⟩
      · rcases Nat.le_total x.factor m with hle | hle
        · left; omega
        · right; exact ⟨x, by simp, by omega⟩
      · right; exact ⟨f, by simp [hf], h3⟩

/-- **The time axis.**  When the averaging factors are between 1 and 65535, the
smallest and largest interval in the time axis are those of the baselines with
the smallest and largest factor. -/
theorem time_axis (info : Info) (h : info.WellFormed) (spw : List SpwRow) (desc : List Nat)
    (w : Writer V W U) (ho : openWriter info spw desc = .ok w)
    (hrange : ∀ n ∈ info.timeAvgs, 1 ≤ n ∧ n ≤ 65535) :
    ∃ a, w.ms.axis = [a] ∧ a.unitInterval = info.timeInterval ∧
      (∃ n ∈ info.timeAvgs, a.minInterval = n * info.timeInterval ∧ ∀ m ∈ info.timeAvgs, n ≤ m) ∧
      (∃ n ∈ info.timeAvgs, a.maxInterval = n * info.timeInterval ∧ ∀ m ∈ info.timeAvgs, m ≤ n) := by
  obtain ⟨st, hi, ho'⟩ := openWriter_ok (V := V) (W := W) (U := U) h spw desc
  rw [ho'] at ho
  cases ho
  have hta : ((List.range info.nBaselines).map (factorOf info st.1)).map FactorRow.factor =
      info.timeAvgs := by
    rw [List.map_map]
    exact map_getD info.timeAvgs 0 _ h.timeAvgs
  generalize hfs : (List.range info.nBaselines).map (factorOf info st.1) = factors at hta
  have hne : info.timeAvgs ≠ [] := by
    intro he
    have h1 := h.timeAvgs
    have h2 := h.nonempty
    rw [he] at h1
    simp at h1
    omega
  obtain ⟨n0, hn0⟩ := List.exists_mem_of_ne_nil _ hne
  have hmem : ∀ n ∈ info.timeAvgs, ∃ f ∈ factors, f.factor = n := by
    intro n hn
    rw [← hta] at hn
    exact List.mem_map.mp hn
  have hmem' : ∀ f ∈ factors, f.factor ∈ info.timeAvgs := by
    intro f hf
    rw [← hta]
    exact List.mem_map_of_mem hf
  refine ⟨_, rfl, rfl, ?_, ?_⟩
  · obtain ⟨s1, s2, s3⟩ := foldl_min_spec factors 65535
    refine ⟨minFactor factors, ?_, rfl, fun m hm => ?_⟩
    · rcases s3 with s3 | ⟨f, hf, s3⟩
      · obtain ⟨f, hf, rfl⟩ := hmem n0 hn0
        have := s1 f hf
        have := (hrange _ hn0).2
        unfold minFactor
        rw [show factors.foldl (fun m f => min m f.factor) 65535 = f.factor by omega]
        exact hn0
      · unfold minFactor
        rw [s3]
        exact hmem' f hf
    · obtain ⟨f, hf, rfl⟩ := hmem m hm
      exact s1 f hf
  · obtain ⟨s1, s2, s3⟩ := foldl_max_spec factors 1
    refine ⟨maxFactor factors, ?_, rfl, fun m hm => ?_⟩
    · rcases s3 with s3 | ⟨f, hf, s3⟩
      · obtain ⟨f, hf, rfl⟩ := hmem n0 hn0
        have := s1 f hf
        have := (hrange _ hn0).1
        unfold maxFactor
        rw [show factors.foldl (fun m f => max m f.factor) 1 = f.factor by omega]
        exact hn0
      · unfold maxFactor
        rw [s3]
        exact hmem' f hf
    · obtain ⟨f, hf, rfl⟩ := hmem m hm
      exact s1 f hf

/-! ### Copying -/

private theorem readLoop_rowNr (main : List (MainRow V W U)) (n : Nat) (rd : Reader) (b : Buf V W U)
    (rd' : Reader) (b' : Buf V W U) (h : readLoop main n rd b = .ok (rd', b'))
    (hb : b.rows.Pairwise (fun a c => a.rowNr < c.rowNr)) (hlt : ∀ r ∈ b.rows, r.rowNr < rd.nread) :
    b'.rows.Pairwise (fun a c => a.rowNr < c.rowNr) ∧ (∀ r ∈ b'.rows, r.rowNr < rd'.nread) ∧
      (∀ r ∈ b'.rows, r ∈ b.rows ∨ rd.nread ≤ r.rowNr) ∧ rd.nread ≤ rd'.nread := by
  induction n generalizing rd b with
  | zero =>
    simp only [readLoop, Except.ok.injEq, Prod.mk.injEq] at h
    rw [← h.1, ← h.2]
    exact ⟨hb, hlt, fun r hr => .inl hr, Nat.le_refl _⟩
  | succ n ih =>
    unfold readLoop at h
    split at h
    · simp only [Except.ok.injEq, Prod.mk.injEq] at h
      rw [← h.1, ← h.2]
      exact ⟨hb, hlt, fun r hr => .inl hr, Nat.le_refl _⟩
    · split at h
      · obtain ⟨i1, i2, i3, i4⟩ := ih _ _ h hb fun r hr => Nat.lt_succ_of_lt (hlt r hr)
        dsimp only at i3 i4
        refine ⟨i1, i2, fun r hr => ?_, by omega⟩
        rcases i3 r hr with i | i
        · exact .inl i
        · exact .inr (by omega)
      · split at h
        · cases h
        · rename_i r hr
          have hnr : r.rowNr = rd.nread := by
            unfold rowOf at hr
            dsimp only at hr
            split at hr
            · cases hr
            · cases hr; rfl
          split at h
          · cases h
          · rename_i b1 hadd
            unfold Buf.addRow at hadd
            split at hadd
            · cases hadd
            · split at hadd
              · cases hadd
                obtain ⟨i1, i2, i3, i4⟩ := ih _ _ h hb fun r hr => Nat.lt_succ_of_lt (hlt r hr)
                dsimp only at i3 i4
                refine ⟨i1, i2, fun r hr => ?_, by omega⟩
                rcases i3 r hr with i | i
                · exact .inl i
                · exact .inr (by omega)
              · cases hadd
                obtain ⟨i1, i2, i3, i4⟩ := ih _ _ h
                  (by
                    rw [List.pairwise_append]
                    refine ⟨hb, List.pairwise_singleton _ _, fun a ha c hc => ?_⟩
                    rw [List.mem_singleton] at hc
                    subst hc
                    rw [hnr]
                    exact hlt a ha)
                  (by
                    intro a ha
                    rcases List.mem_append.mp ha with ha | ha
                    · exact Nat.lt_succ_of_lt (hlt a ha)
                    · rw [List.mem_singleton] at ha
                      subst ha
                      rw [hnr]
                      exact Nat.lt_succ_self _)
                dsimp only at i3 i4
                refine ⟨i1, i2, fun a ha => ?_, by omega⟩
                rcases i3 a ha with i | i
                · rcases List.mem_append.mp i with i | i
                  · exact .inl i
                  · rw [List.mem_singleton] at i
                    subst i
                    exact .inr (by omega)
                · exact .inr (by omega)

private theorem readBuffers_rowNr (main : List (MainRow V W U)) (fuel : Nat) (rd : Reader)
    (bs : List (List (Row V W U))) (h : readBuffers main fuel rd = .ok bs) :
    bs.flatten.Pairwise (fun a c => a.rowNr < c.rowNr) ∧ ∀ r ∈ bs.flatten, rd.nread ≤ r.rowNr := by
  induction fuel generalizing rd bs with
  | zero => cases h; simp
  | succ fuel ih =>
    unfold readBuffers at h
    split at h
    · cases h
    · rename_i rd' rows hrb
      obtain ⟨j1, j2, j3, j4⟩ : rows.Pairwise (fun a c => a.rowNr < c.rowNr) ∧
          (∀ r ∈ rows, r.rowNr < rd'.nread) ∧ (∀ r ∈ rows, rd.nread ≤ r.rowNr) ∧
          rd.nread ≤ rd'.nread := by
        unfold readBuffer at hrb
        split at hrb
        · cases hrb
        · split at hrb
          · cases hrb
          · rename_i rd1 b1 hl
            cases hrb
            obtain ⟨i1, i2, i3, i4⟩ := readLoop_rowNr _ _ _ _ _ _ hl List.Pairwise.nil (by simp)
            refine ⟨i1, i2, fun r hr => ?_, i4⟩
            rcases i3 r hr with i | i
            · simp at i
            · exact i
      split at h
      · split at h
        · cases h
        · rename_i rest hrest
          cases h
          obtain ⟨i1, i2⟩ := ih _ _ hrest
          rw [List.flatten_cons, List.pairwise_append]
          refine ⟨⟨j1, i1, fun a ha c hc => ?_⟩, fun r hr => ?_⟩
          · exact Nat.lt_of_lt_of_le (j2 a ha) (i2 c hc)
          · rcases List.mem_append.mp hr with hr | hr
            · exact j3 r hr
            · exact Nat.le_trans j4 (i2 r hr)
      · cases h
        rw [List.flatten_cons, List.flatten_nil, List.append_nil]
        exact ⟨j1, j3⟩

private theorem putRow_length (w w' : Writer V W U) (r : Row V W U) (h : putRow w r = .ok w') :
    r.rowNr < w.ms.main.length ∧ w'.ms.main.length = w.ms.main.length := by
  unfold putRow at h
  split at h
  · cases h
  · split at h
    · rename_i hlt
      cases h
      exact ⟨hlt, by simp⟩
    · cases h

private theorem putRows_length (rows : List (Row V W U)) (w w' : Writer V W U)
    (h : rows.foldlM putRow w = .ok w') :
    (∀ r ∈ rows, r.rowNr < w'.ms.main.length) ∧ w'.ms.main.length = w.ms.main.length := by
  induction rows generalizing w with
  | nil => cases h; simp
  | cons r rs ih =>
    rw [List.foldlM_cons] at h
    cases hp : putRow w r with
    | error e => rw [hp] at h; cases h
    | ok w1 =>
      rw [hp] at h
      obtain ⟨h1, h2⟩ := putRow_length w w1 r hp
      obtain ⟨i1, i2⟩ := ih w1 h
      refine ⟨fun a ha => ?_, by omega⟩
      rcases List.mem_cons.mp ha with rfl | ha
      · omega
      · exact i1 a ha

private theorem writeBuffers_length (buffers : List (List (Row V W U))) (w w' : Writer V W U)
    (h : writeBuffers w buffers = .ok w') :
    (∀ r ∈ buffers.flatten, r.rowNr < w'.ms.main.length) ∧
      w'.ms.main.length = w.ms.main.length + buffers.flatten.length := by
  induction buffers generalizing w with
  | nil => cases h; simp
  | cons b bs ih =>
    unfold writeBuffers at h ih
    rw [List.foldlM_cons] at h
    cases hp : writeBuffer w b with
    | error e => rw [hp] at h; cases h
    | ok w1 =>
      rw [hp] at h
      obtain ⟨h1, h2⟩ := putRows_length b _ w1 hp
      obtain ⟨i1, i2⟩ := ih w1 h
      have hl : (w.ms.main ++ List.replicate b.length none).length = w.ms.main.length + b.length := by
        simp
      dsimp only at h2
      rw [hl] at h2
      rw [List.flatten_cons]
      refine ⟨fun a ha => ?_, by rw [List.length_append]; omega⟩
      rcases List.mem_append.mp ha with ha | ha
      · have := h1 a ha
        omega
      · exact i1 a ha

private theorem increasing_bounded (l : List Nat) (m : Nat) (h : l.Pairwise (· < ·))
    (hlo : ∀ x ∈ l, m ≤ x) (hhi : ∀ x ∈ l, x < m + l.length) (i x : Nat) (hx : l[i]? = some x) :
    x = m + i := by
  induction l generalizing m i x with
  | nil => simp at hx
  | cons y ys ih =>
    rw [List.pairwise_cons] at h
    have hlo' : ∀ x ∈ ys, m + 1 ≤ x := by
      intro x hx
      have := h.1 x hx
      have := hlo y (by simp)
      omega
    have hhi' : ∀ x ∈ ys, x < m + 1 + ys.length := by
      intro x hx
      have := hhi x (by simp [hx])
      rw [List.length_cons] at this
      omega
    cases i with
    | succ i =>
      have := ih (m + 1) h.2 hlo' hhi' i x (by simpa using hx)
      omega
    | zero =>
      simp only [List.getElem?_cons_zero, Option.some.injEq] at hx
      subst hx
      have h1 := hlo y (by simp)
      have h2 := hhi y (by simp)
      cases ys with
      | nil => simp at h2; omega
      | cons z zs =>
        have h3 := ih (m + 1) h.2 hlo' hhi' 0 z (by simp)
        have h4 := h.1 z (by simp)
        omega

/-- **A copy has all rows up to the last one.**  Rows that the reader skips keep
their row number, so that copying a measurement set fails when a row after a
skipped row is delivered: a copy that succeeds has the rows in their original
place. -/
theorem copy_rows (ms ms' : Ms V W U) (info : Info) (buffers : List (List (Row V W U)))
    (hr : readMs ms = .ok (info, buffers)) (hc : copyMs ms = .ok ms') (i : Nat) (r : Row V W U)
    (hi : buffers.flatten[i]? = some r) :
    r.rowNr = i ∧ ms'.main.length = buffers.flatten.length := by
  unfold copyMs at hc
  rw [hr] at hc
  dsimp only at hc
  unfold writeMs at hc
  split at hc
  · cases hc
  · rename_i w hw
    split at hc
    · cases hc
    · rename_i w' hw'
      cases hc
      have hempty : w.ms.main = [] := by
        unfold openWriter at hw
        split at hw
        · cases hw
        · split at hw
          · cases hw
          · split at hw
            · cases hw
            · cases hw; rfl
      obtain ⟨h1, h2⟩ := writeBuffers_length buffers w w' hw'
      rw [hempty] at h2
      simp only [List.length_nil, Nat.zero_add] at h2
      refine ⟨?_, h2⟩
      obtain ⟨p1, -⟩ : buffers.flatten.Pairwise (fun a c => a.rowNr < c.rowNr) ∧ True := by
        unfold readMs at hr
        split at hr
        · split at hr
          · rename_i hb
            cases hr
            exact ⟨(readBuffers_rowNr _ _ _ _ hb).1, trivial⟩
          · cases hr
        · cases hr
        · cases hr
      have := increasing_bounded (buffers.flatten.map Row.rowNr) 0
        (by rw [List.pairwise_map]; exact p1) (by simp) (by
          intro x hx
          obtain ⟨r', hr', rfl⟩ := List.mem_map.mp hx
          have := h1 r' hr'
          rw [List.length_map]
          omega) i r.rowNr (by rw [List.getElem?_map, hi]; rfl)
      omega

/-- **Copying what was written.**  Copying a measurement set whose rows are in
order succeeds, and reading the copy gives the rows of the original. -/
theorem copy_read (info : Info) (h : info.WellFormed) (hl : info.SameLayout)
    (hb : info.SameBandwidth) (spw : List SpwRow) (desc : List Nat)
    (buffers : List (List (Row V W U))) (hne : buffers.flatten ≠ [])
    (hfit : ∀ (i : Nat) (r : Row V W U), buffers.flatten[i]? = some r → r.Fits info i)
    (hord : Ordered buffers.flatten) :
    ∃ ms ms' info' buffers', writeMs info spw desc buffers = .ok ms ∧ copyMs ms = .ok ms' ∧
      readMs ms' = .ok (info', buffers') ∧
      buffers'.flatten = buffers.flatten.map Row.unflagged := by
  obtain ⟨ms, info1, buffers1, w1, w2, k1, k2, k3, k4, k5, k6, k7, k8, k9, k10, -, -⟩ :=
    write_read info h hl hb spw desc buffers hne hfit
  have hnb : info1.nBaselines = info.nBaselines := by simp [Info.nBaselines, k1]
  rw [keptRows_ordered _ _ (fun r hr => by have := hord.1 r hr; linarith) hord.2] at k10
  have hwf : info1.WellFormed := by
    refine ⟨by rw [hnb]; exact h.nonempty, by rw [k2, hnb]; exact h.ant2,
      by rw [k3, hnb]; exact h.timeAvgs, by rw [k6, hnb]; exact h.freqs,
      by rw [k7, hnb]; exact h.widths, by rw [k8, hnb]; exact h.widths,
      by rw [k9, hnb]; exact h.widths, by rw [k6, k7]; exact h.widthCount,
      by rw [k1, k2]; exact h.distinct, by rw [k5]; exact h.interval,
      by rw [k6]; exact h.channels⟩
  have hl1 : info1.SameLayout := by unfold Info.SameLayout; rw [k6, k7]; exact hl
  have hb1 : info1.SameBandwidth := by unfold Info.SameBandwidth; rw [k7]; exact hb
  have hfit1 : ∀ (i : Nat) (r : Row V W U), buffers1.flatten[i]? = some r → r.Fits info1 i := by
    intro i r hr
    rw [k10, List.getElem?_map, Option.map_eq_some_iff] at hr
    obtain ⟨r0, hr0, rfl⟩ := hr
    have hf := hfit i r0 hr0
    exact ⟨hf.rowNr, by rw [hnb]; exact hf.baseline, by rw [k6]; exact hf.nChannels,
      by rw [k4]; exact hf.nCorrelations, hf.data, by simp only [Row.unflagged, List.length_map]; exact hf.flags,
      hf.weights, hf.interval⟩
  have hord1 : Ordered buffers1.flatten := by
    rw [k10]
    refine ⟨fun r hr => ?_, fun i a b ha hb' => ?_⟩
    · rw [List.getElem?_map, Option.map_eq_some_iff] at hr
      obtain ⟨r0, hr0, rfl⟩ := hr
      exact hord.1 r0 hr0
    · rw [List.getElem?_map, Option.map_eq_some_iff] at ha hb'
      obtain ⟨a0, ha0, rfl⟩ := ha
      obtain ⟨b0, hb0, rfl⟩ := hb'
      exact hord.2 i a0 b0 ha0 hb0
  have hne1 : buffers1.flatten ≠ [] := by
    rw [k10]
    simpa using hne
  obtain ⟨ms', info', buffers', v1, v2, v3⟩ :=
    write_read_ordered info1 hwf hl1 hb1 ms.spw ms.dataDesc buffers1 hne1 hfit1 hord1
  refine ⟨ms, ms', info', buffers', w1, ?_, v2, ?_⟩
  · unfold copyMs
    rw [w2]
    exact v1
  · rw [v3, k10, List.map_map]
    refine List.map_congr_left fun r _ => ?_
    simp [Row.unflagged]

/-! ### Examples -/

/-- Two baselines: two channels without averaging, and one channel with two time
slots averaged. -/
def exampleInfo : Info :=
  ⟨1, 2, [0, 0], [1, 2], [1, 2], [[10, 20], [15]], [[10, 10], [20]], [[10, 10], [20]],
    [[10, 10], [20]], 15, 20, 0, 5, 6, 1, 2⟩

/-- A row of the first baseline. -/
def exampleRow (k : Nat) (time : Rat) (flag : Bool) : Row Nat Nat Nat :=
  ⟨time, 1, 1, k, 0, 2, 1, 7, [10 + k, 20 + k], [flag, false], [1, 2]⟩

/-- A row of the second baseline. -/
def exampleLong (k : Nat) (time : Rat) : Row Nat Nat Nat :=
  ⟨time, 2, 2, k, 1, 1, 1, 8, [30 + k], [true], [3]⟩

/-- Two time slots of the first baseline and the average of the second. -/
def exampleBuffers : List (List (Row Nat Nat Nat)) :=
  [[exampleRow 0 5 true, exampleRow 1 6 false], [exampleLong 2 (11 / 2)]]

theorem exampleInfo_wellFormed : exampleInfo.WellFormed := by
  refine ⟨by decide, rfl, rfl, rfl, rfl, rfl, rfl, ?_, by decide, by decide +kernel,
    ⟨[15], by simp [exampleInfo], by simp⟩⟩
  intro i f w hf hw
  match i with
  | 0 => simp [exampleInfo] at hf hw; simp [← hf, ← hw]
  | 1 => simp [exampleInfo] at hf hw; simp [← hf, ← hw]
  | i + 2 => simp [exampleInfo] at hf

theorem exampleInfo_sameLayout : exampleInfo.SameLayout := by
  intro i j f g hf hg he
  match i, j with
  | 0, 0 => simp [exampleInfo] at hf hg; exact ⟨by rw [← hf, ← hg], rfl⟩
  | 1, 1 => simp [exampleInfo] at hf hg; exact ⟨by rw [← hf, ← hg], rfl⟩
  | 0, 1 => simp [exampleInfo] at hf hg; rw [← hf, ← hg] at he; simp at he
  | 1, 0 => simp [exampleInfo] at hf hg; rw [← hf, ← hg] at he; simp at he
  | i + 2, _ => simp [exampleInfo] at hf
  | _, j + 2 => simp [exampleInfo] at hg

theorem exampleInfo_sameBandwidth : exampleInfo.SameBandwidth := by
  intro v hv w hw
  simp only [exampleInfo, List.mem_cons, List.not_mem_nil, or_false] at hv hw
  rcases hv with rfl | rfl <;> rcases hw with rfl | rfl <;> decide +kernel

theorem exampleBuffers_fit : ∀ (i : Nat) (r : Row Nat Nat Nat),
    exampleBuffers.flatten[i]? = some r → r.Fits exampleInfo i := by
  intro i r hr
  match i with
  | 0 =>
    simp [exampleBuffers] at hr
    subst hr
    exact ⟨rfl, by decide, ⟨[10, 20], rfl, rfl⟩, rfl, rfl, rfl, rfl, by decide +kernel⟩
  | 1 =>
    simp [exampleBuffers] at hr
    subst hr
    exact ⟨rfl, by decide, ⟨[10, 20], rfl, rfl⟩, rfl, rfl, rfl, rfl, by decide +kernel⟩
  | 2 =>
    simp [exampleBuffers] at hr
    subst hr
    exact ⟨rfl, by decide, ⟨[15], rfl, rfl⟩, rfl, rfl, rfl, rfl, by decide +kernel⟩
  | i + 3 => simp [exampleBuffers] at hr

theorem exampleBuffers_ordered : Ordered exampleBuffers.flatten := by
  refine ⟨fun r hr => ?_, fun i a b ha hb => ?_⟩
  · simp [exampleBuffers] at hr
    subst hr
    decide +kernel
  · match i with
    | 0 => simp [exampleBuffers] at ha hb; subst ha hb; decide +kernel
    | 1 => simp [exampleBuffers] at ha hb; subst ha hb; decide +kernel
    | i + 2 => simp [exampleBuffers] at hb

example := write_read_ordered exampleInfo exampleInfo_wellFormed exampleInfo_sameLayout
  exampleInfo_sameBandwidth [] [] exampleBuffers (by simp [exampleBuffers]) exampleBuffers_fit
  exampleBuffers_ordered

example := copy_read exampleInfo exampleInfo_wellFormed exampleInfo_sameLayout
  exampleInfo_sameBandwidth [] [] exampleBuffers (by simp [exampleBuffers]) exampleBuffers_fit
  exampleBuffers_ordered

/-- The measurement set that results from writing buffers, for the examples. -/
def written (info : Info) (buffers : List (List (Row Nat Nat Nat))) : Ms Nat Nat Nat :=
  match writeMs info [] [] buffers with
  | .ok ms => ms
  | .error _ => ⟨[], [], [], [], []⟩

/-- The rows that the reader delivers, for the examples. -/
def rowsRead (ms : Ms Nat Nat Nat) : List (Row Nat Nat Nat) :=
  match readMs ms with
  | .ok p => p.2.flatten
  | .error _ => []

/-- The frequencies that the reader finds, for the examples. -/
def freqsRead (ms : Ms Nat Nat Nat) : List (List Rat) :=
  match readMs ms with
  | .ok p => p.1.freqs
  | .error _ => []

/-- Whether copying throws an exception. -/
def copyThrows (ms : Ms Nat Nat Nat) : Bool :=
  match copyMs ms with
  | .error .thrown => true
  | _ => false

example := write_tables exampleInfo exampleInfo_wellFormed [] [] exampleBuffers exampleBuffers_fit

example : (rowsRead (written exampleInfo exampleBuffers)).map Row.data = [[10, 20], [11, 21], [32]] ∧
    (rowsRead (written exampleInfo exampleBuffers)).map Row.baseline = [0, 0, 1] := by
  decide +kernel

example : ∃ w : Writer Nat Nat Nat, openWriter exampleInfo
    [⟨[1], [1], [1], some 5, "band", 1, 1, [1], 1⟩] [0] = .ok w ∧
    w.ms.spw.map SpwRow.numChan = [2, 1] ∧ w.ms.axis.map AxisRow.maxInterval = [2] :=
  ⟨_, rfl, rfl, by decide +kernel⟩

/-- **Flags do not survive.**  A flagged visibility that is written to the FLAG
column comes back without its flag. -/
theorem flags_lost : ∃ (info : Info) (buffers : List (List (Row Nat Nat Nat))) (m : MainRow Nat Nat Nat),
    some m ∈ (written info buffers).main ∧ m.flags = [true] ∧ m.flagRow = true ∧
      ∀ r ∈ rowsRead (written info buffers), ∀ f ∈ r.flags, f = false := by
  refine ⟨exampleInfo, exampleBuffers, cellsOf exampleInfo [(2, 0), (1, 1)] (exampleLong 2 (11 / 2)),
    by decide +kernel, rfl, rfl, by decide +kernel⟩

/-- **Channels that differ but are as many are lost.**  Two baselines with one
channel each, at different frequencies: both come back with the first. -/
theorem channels_merged : ∃ info : Info, info.WellFormed ∧ info.SameBandwidth ∧
    ∃ buffers : List (List (Row Nat Nat Nat)), info.freqs = [[10], [20]] ∧
      freqsRead (written info buffers) = [[10], [10]] := by
  let info : Info := ⟨1, 1, [0, 0], [1, 2], [1, 1], [[10], [20]], [[5], [5]], [[5], [5]], [[5], [5]],
    10, 5, 0, 5, 5, 1, 1⟩
  let buffers : List (List (Row Nat Nat Nat)) := [[⟨5, 1, 1, 0, 0, 1, 1, 7, [1], [false], [1]⟩]]
  refine ⟨info, ⟨by decide, rfl, rfl, rfl, rfl, rfl, rfl, ?_, by decide, by decide +kernel,
    ⟨[10], by simp [info], by simp⟩⟩, ?_, buffers, ?_⟩
  · intro i f w hf hw
    match i with
    | 0 => simp [info] at hf hw; simp [← hf, ← hw]
    | 1 => simp [info] at hf hw; simp [← hf, ← hw]
    | i + 2 => simp [info] at hf
  · intro v hv w hw
    simp only [info, List.mem_cons, List.not_mem_nil, or_false] at hv hw
    rcases hv with rfl | rfl <;> rcases hw with rfl | rfl <;> rfl
  · exact ⟨rfl, by decide +kernel⟩

/-- Three rows of which the second ends before the first. -/
def exampleDisordered : List (List (Row Nat Nat Nat)) :=
  [[exampleRow 0 5 false, exampleRow 1 (9 / 2) false, exampleRow 2 6 false]]

/-- **A skipped row makes copying fail.**  The reader delivers the first and the
third of three rows; the writer then throws an exception as the third row has
number 2 in a table of two rows. -/
theorem copy_fails : (rowsRead (written exampleInfo exampleDisordered)).map Row.rowNr = [0, 2] ∧
    copyThrows (written exampleInfo exampleDisordered) = true := by
  decide +kernel

/-- A measurement set in which a row has an antenna pair that `BDA_FACTORS` does
not list. -/
def exampleUnknown : Ms Nat Nat Nat :=
  { written exampleInfo exampleBuffers with
    main := [some ⟨5, 5, 1, 1, 3, 4, 1, 2, [1, 2], [1, 2], [false, false], false, 7, 0⟩] }

/-- **An unknown baseline becomes baseline 0.**  The row of antennas 3 and 4 is
delivered as a row of the first baseline, which has antennas 0 and 1. -/
theorem unknown_baseline : (rowsRead exampleUnknown).map Row.baseline = [0] ∧
    (rowsRead exampleUnknown).map Row.data = [[1, 2]] := by
  decide +kernel

end DP3.BdaMs
