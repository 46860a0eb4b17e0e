import Verif.MsOutput.Model

/-!
# C198, C199: updating a measurement set
-/

namespace DP3.MsOutput

set_option linter.unusedSimpArgs false
set_option linter.unusedSectionVars false

variable {V W : Type}

/-! ## Cells and rows -/

private theorem putSlice_spec {α : Type} (cell new out : List α) (s : Nat) (h : putSlice cell s new = some out) :
    out.length = cell.length ∧ (∀ ch : Nat, ch < s ∨ s + new.length ≤ ch → out[ch]? = cell[ch]?) ∧
    (∀ j : Nat, j < new.length → out[s + j]? = new[j]?) := by
  unfold putSlice at h
  split_ifs at h with hl
  obtain rfl := Option.some.inj h
  have htake : (cell.take s).length = s := by rw [List.length_take]; omega
  refine ⟨?_, ?_, ?_⟩
  · simp only [List.length_append, List.length_take, List.length_drop]; omega
  · rintro ch (hc | hc)
    · rw [List.append_assoc, List.getElem?_append_left (by omega), List.getElem?_take]
      rw [if_pos hc]
    · rw [List.getElem?_append_right (by rw [List.length_append, htake]; exact hc), List.length_append, htake,
        List.getElem?_drop]
      congr 1; omega
  · intro j hj
    rw [List.append_assoc, List.getElem?_append_right (by omega), htake,
      List.getElem?_append_left (by omega)]
    congr 1; omega

private theorem putRows_spec {α : Type} (upd : Row V W → α → Option (Row V W)) :
    ∀ (rows : List Nat) (vals : List α) (t t' : List (Row V W)), putRows upd rows vals t = some t' → rows.Nodup →
      t'.length = t.length ∧ (∀ r, r ∉ rows → t'[r]? = t[r]?) ∧
      (∀ (i r : Nat), rows[i]? = some r → ∃ v row row', vals[i]? = some v ∧ t[r]? = some row ∧
        upd row v = some row' ∧ t'[r]? = some row') := by
  intro rows
  induction rows with
  | nil =>
    intro vals t t' h _
    obtain rfl := Option.some.inj h
    refine ⟨rfl, fun r _ => rfl, ?_⟩
    intro i r hi
    simp at hi
  | cons r0 rs ih =>
    intro vals t t' h hnd
    cases vals with
    | nil => simp [putRows] at h
    | cons v vs =>
      rw [putRows] at h
      cases hr : t[r0]? with
      | none => rw [hr] at h; simp at h
      | some row =>
        rw [hr] at h
        simp only at h
        cases hu : upd row v with
        | none => rw [hu] at h; simp at h
        | some row' =>
          rw [hu] at h
          simp only at h
          obtain ⟨h1, h2, h3⟩ := ih vs _ t' h (List.nodup_cons.mp hnd).2
          have hnot := (List.nodup_cons.mp hnd).1
          have hlt : r0 < t.length := by
            rcases Nat.lt_or_ge r0 t.length with g | g
            · exact g
            · rw [List.getElem?_eq_none g] at hr; cases hr
          refine ⟨by rw [h1, List.length_set], ?_, ?_⟩
          · intro r hr'
            rw [List.mem_cons, not_or] at hr'
            rw [h2 r hr'.2, List.getElem?_set_ne (Ne.symm hr'.1)]
          · intro i r hi
            cases i with
            | zero =>
              simp only [List.getElem?_cons_zero, Option.some.injEq] at hi
              subst hi
              refine ⟨v, row, row', rfl, hr, hu, ?_⟩
              rw [h2 _ hnot, List.getElem?_set_self hlt]
            | succ i =>
              simp only [List.getElem?_cons_succ] at hi
              obtain ⟨v', row1, row1', g1, g2, g3, g4⟩ := h3 i r hi
              have hne : r0 ≠ r := by
                rintro rfl
                exact hnot (List.mem_of_getElem? hi)
              rw [List.getElem?_set_ne hne] at g2
              exact ⟨v', row1, row1', by simpa using g1, g2, g3, g4⟩

/-! ## One buffer -/

/-- What a buffer does to the row of its baseline `i`. -/
structure Changed (c : Config V W) (b : Buf V W) (i : Nat) (row row' : Row V W) : Prop where
  flags : if c.wFlags then ∃ f, b.flags[i]? = some f ∧ putSlice row.flags c.start f = some row'.flags ∧
      row'.flagRow = (if f.any (fun l => l.any not) then false else row.flagRow)
    else row'.flags = row.flags ∧ row'.flagRow = row.flagRow
  data : if c.wData then ∃ d, (dataOut c b)[i]? = some d ∧
      (if c.origNChan = c.nChan then putCell row.data d else putSlice row.data c.start d) = some row'.data
    else row'.data = row.data
  weights : if c.wWeights then ∃ w, (weightsOut c b)[i]? = some w ∧ putSlice row.weights c.start w = some row'.weights
    else row'.weights = row.weights

private theorem update_row (c : Config V W) (t t' : List (Row V W)) (b : Buf V W) (h : update c t b = some t')
    (hnd : b.rows.Nodup) :
    t'.length = t.length ∧ (∀ r, r ∉ b.rows → t'[r]? = t[r]?) ∧
    (∀ (i r : Nat) row, b.rows[i]? = some r → t[r]? = some row → ∃ row', t'[r]? = some row' ∧ Changed c b i row row') := by
  unfold update at h
  rw [Option.bind_eq_some_iff] at h
  obtain ⟨t1, h1, h⟩ := h
  rw [Option.bind_eq_some_iff] at h
  obtain ⟨t2, h2, h3⟩ := h
  have e1 : t1.length = t.length ∧ (∀ r, r ∉ b.rows → t1[r]? = t[r]?) ∧
      (∀ (i r : Nat) row, b.rows[i]? = some r → t[r]? = some row → ∃ row1, t1[r]? = some row1 ∧
        row1.data = row.data ∧ row1.weights = row.weights ∧
        (if c.wFlags then ∃ f, b.flags[i]? = some f ∧ putSlice row.flags c.start f = some row1.flags ∧
            row1.flagRow = (if f.any (fun l => l.any not) then false else row.flagRow)
          else row1.flags = row.flags ∧ row1.flagRow = row.flagRow)) := by
    rcases Bool.eq_false_or_eq_true c.wFlags with hw | hw
    · rw [if_pos hw] at h1
      obtain ⟨p1, p2, p3⟩ := putRows_spec _ _ _ _ _ h1 hnd
      refine ⟨p1, p2, ?_⟩
      intro i r row hi hr
      obtain ⟨f, row0, row1, g1, g2, g3, g4⟩ := p3 i r hi
      rw [hr] at g2
      obtain rfl := Option.some.inj g2
      rw [putRowFlags] at g3
      cases hs : putSlice row.flags c.start f with
      | none => rw [hs] at g3; cases g3
      | some fs =>
        rw [hs] at g3
        obtain rfl := Option.some.inj g3
        refine ⟨_, g4, rfl, rfl, ?_⟩
        rw [if_pos hw]
        exact ⟨f, g1, hs, rfl⟩
    · rw [if_neg (by rw [hw]; decide)] at h1
      obtain rfl := Option.some.inj h1
      refine ⟨rfl, fun _ _ => rfl, ?_⟩
      intro i r row hi hr
      refine ⟨row, hr, rfl, rfl, ?_⟩
      rw [if_neg (by rw [hw]; decide)]
      exact ⟨rfl, rfl⟩
  have e2 : t2.length = t1.length ∧ (∀ r, r ∉ b.rows → t2[r]? = t1[r]?) ∧
      (∀ (i r : Nat) row, b.rows[i]? = some r → t1[r]? = some row → ∃ row1, t2[r]? = some row1 ∧
        row1.flags = row.flags ∧ row1.flagRow = row.flagRow ∧ row1.weights = row.weights ∧
        (if c.wData then ∃ d, (dataOut c b)[i]? = some d ∧
            (if c.origNChan = c.nChan then putCell row.data d else putSlice row.data c.start d) = some row1.data
          else row1.data = row.data)) := by
    rcases Bool.eq_false_or_eq_true c.wData with hw | hw
    · rw [if_pos hw] at h2
      obtain ⟨p1, p2, p3⟩ := putRows_spec _ _ _ _ _ h2 hnd
      refine ⟨p1, p2, ?_⟩
      intro i r row hi hr
      obtain ⟨f, row0, row1, g1, g2, g3, g4⟩ := p3 i r hi
      rw [hr] at g2
      obtain rfl := Option.some.inj g2
      rw [putRowData] at g3
      cases hs : (if c.origNChan = c.nChan then putCell row.data f else putSlice row.data c.start f) with
      | none => rw [hs] at g3; cases g3
      | some fs =>
        rw [hs] at g3
        obtain rfl := Option.some.inj g3
        refine ⟨_, g4, rfl, rfl, rfl, ?_⟩
        rw [if_pos hw]
        exact ⟨f, g1, hs⟩
    · rw [if_neg (by rw [hw]; decide)] at h2
      obtain rfl := Option.some.inj h2
      refine ⟨rfl, fun _ _ => rfl, ?_⟩
      intro i r row hi hr
      refine ⟨row, hr, rfl, rfl, rfl, ?_⟩
      rw [if_neg (by rw [hw]; decide)]
  have e3 : t'.length = t2.length ∧ (∀ r, r ∉ b.rows → t'[r]? = t2[r]?) ∧
      (∀ (i r : Nat) row, b.rows[i]? = some r → t2[r]? = some row → ∃ row1, t'[r]? = some row1 ∧
        row1.flags = row.flags ∧ row1.flagRow = row.flagRow ∧ row1.data = row.data ∧
        (if c.wWeights then ∃ w, (weightsOut c b)[i]? = some w ∧ putSlice row.weights c.start w = some row1.weights
          else row1.weights = row.weights)) := by
    rcases Bool.eq_false_or_eq_true c.wWeights with hw | hw
    · rw [if_pos hw] at h3
      obtain ⟨p1, p2, p3⟩ := putRows_spec _ _ _ _ _ h3 hnd
      refine ⟨p1, p2, ?_⟩
      intro i r row hi hr
      obtain ⟨f, row0, row1, g1, g2, g3, g4⟩ := p3 i r hi
      rw [hr] at g2
      obtain rfl := Option.some.inj g2
      rw [putRowWeights] at g3
      cases hs : putSlice row.weights c.start f with
      | none => rw [hs] at g3; cases g3
      | some fs =>
        rw [hs] at g3
        obtain rfl := Option.some.inj g3
        refine ⟨_, g4, rfl, rfl, rfl, ?_⟩
        rw [if_pos hw]
        exact ⟨f, g1, hs⟩
    · rw [if_neg (by rw [hw]; decide)] at h3
      obtain rfl := Option.some.inj h3
      refine ⟨rfl, fun _ _ => rfl, ?_⟩
      intro i r row hi hr
      refine ⟨row, hr, rfl, rfl, rfl, ?_⟩
      rw [if_neg (by rw [hw]; decide)]
  refine ⟨by rw [e3.1, e2.1, e1.1], ?_, ?_⟩
  · intro r hr
    rw [e3.2.1 r hr, e2.2.1 r hr, e1.2.1 r hr]
  · intro i r row hi hr
    obtain ⟨row1, a1, a2, a3, a4⟩ := e1.2.2 i r row hi hr
    obtain ⟨row2, b1, b2, b3, b4, b5⟩ := e2.2.2 i r row1 hi a1
    obtain ⟨row3, c1, c2, c3, c4, c5⟩ := e3.2.2 i r row2 hi b1
    refine ⟨row3, c1, ?_, ?_, ?_⟩
    · rw [c2, c3, b2, b3]; exact a4
    · rw [c4, ← a2]; exact b5
    · rw [← a3, ← b4]; exact c5

/-- The values of a buffer have the channels that are written. -/
def Buf.Fits (c : Config V W) (b : Buf V W) : Prop :=
  b.rows.Nodup ∧ (∀ d ∈ dataOut c b, d.length = c.nChan) ∧ (∀ w ∈ weightsOut c b, w.length = c.nChan) ∧
  ∀ f ∈ b.flags, f.length = c.nChan

private theorem changed_outside (c : Config V W) (b : Buf V W) (i : Nat) (row row' : Row V W) (hf : b.Fits c)
    (hs : c.origNChan = c.nChan → c.start = 0) (h : Changed c b i row row') :
    row'.data.length = row.data.length ∧
    ∀ ch : Nat, ch < c.start ∨ c.start + c.nChan ≤ ch →
      row'.data[ch]? = row.data[ch]? ∧ row'.weights[ch]? = row.weights[ch]? ∧ row'.flags[ch]? = row.flags[ch]? := by
  obtain ⟨h1, h2, h3⟩ := h
  have hd : row'.data.length = row.data.length ∧
      ∀ ch : Nat, ch < c.start ∨ c.start + c.nChan ≤ ch → row'.data[ch]? = row.data[ch]? := by
    by_cases hw : c.wData = true
    · rw [if_pos hw] at h2
      obtain ⟨d, g1, g2⟩ := h2
      have hl := hf.2.1 d (List.mem_of_getElem? g1)
      by_cases ho : c.origNChan = c.nChan
      · rw [if_pos ho, putCell] at g2
        split_ifs at g2 with hc
        have := Option.some.inj g2
        rw [← this]
        refine ⟨hc, ?_⟩
        intro ch hch
        have := hs ho
        rw [List.getElem?_eq_none (by omega), List.getElem?_eq_none (by omega)]
      · rw [if_neg ho] at g2
        obtain ⟨k1, k2, -⟩ := putSlice_spec _ _ _ _ g2
        rw [hl] at k2
        exact ⟨k1, k2⟩
    · rw [if_neg hw] at h2
      rw [h2]
      exact ⟨rfl, fun _ _ => rfl⟩
  refine ⟨hd.1, fun ch hch => ⟨hd.2 ch hch, ?_, ?_⟩⟩
  · by_cases hw : c.wWeights = true
    · rw [if_pos hw] at h3
      obtain ⟨w, g1, g2⟩ := h3
      have hl := hf.2.2.1 w (List.mem_of_getElem? g1)
      exact (putSlice_spec _ _ _ _ g2).2.1 ch (by rw [hl]; exact hch)
    · rw [if_neg hw] at h3
      rw [h3]
  · by_cases hw : c.wFlags = true
    · rw [if_pos hw] at h1
      obtain ⟨f, g1, g2, -⟩ := h1
      have hl := hf.2.2.2 f (List.mem_of_getElem? g1)
      exact (putSlice_spec _ _ _ _ g2).2.1 ch (by rw [hl]; exact hch)
    · rw [if_neg hw] at h1
      rw [h1.1]

private theorem changed_inside (c : Config V W) (b : Buf V W) (i : Nat) (row row' : Row V W) (hf : b.Fits c)
    (hs : c.origNChan = c.nChan → c.start = 0) (h : Changed c b i row row') (j : Nat) (hj : j < c.nChan) :
    (c.wData = true → ∃ d, (dataOut c b)[i]? = some d ∧ row'.data[c.start + j]? = d[j]?) ∧
    (c.wWeights = true → ∃ d, (weightsOut c b)[i]? = some d ∧ row'.weights[c.start + j]? = d[j]?) ∧
    (c.wFlags = true → ∃ d, b.flags[i]? = some d ∧ row'.flags[c.start + j]? = d[j]?) := by
  obtain ⟨h1, h2, h3⟩ := h
  refine ⟨?_, ?_, ?_⟩
  · intro hw
    rw [if_pos hw] at h2
    obtain ⟨d, g1, g2⟩ := h2
    have hl := hf.2.1 d (List.mem_of_getElem? g1)
    refine ⟨d, g1, ?_⟩
    by_cases ho : c.origNChan = c.nChan
    · rw [if_pos ho, putCell] at g2
      split_ifs at g2 with hc
      have := Option.some.inj g2
      rw [← this, hs ho, Nat.zero_add]
    · rw [if_neg ho] at g2
      exact (putSlice_spec _ _ _ _ g2).2.2 j (by omega)
  · intro hw
    rw [if_pos hw] at h3
    obtain ⟨w, g1, g2⟩ := h3
    have hl := hf.2.2.1 w (List.mem_of_getElem? g1)
    exact ⟨w, g1, (putSlice_spec _ _ _ _ g2).2.2 j (by omega)⟩
  · intro hw
    rw [if_pos hw] at h1
    obtain ⟨f, g1, g2, -⟩ := h1
    have hl := hf.2.2.2 f (List.mem_of_getElem? g1)
    exact ⟨f, g1, (putSlice_spec _ _ _ _ g2).2.2 j (by omega)⟩

/-! ## C198: all buffers -/

/-- C198: what is not in a row of a buffer, or not in the channels that are read, is not changed. -/
theorem updates_outside (c : Config V W) (hs : c.origNChan = c.nChan → c.start = 0) (bs : List (Buf V W)) :
    ∀ t t' : List (Row V W), updates c t bs = some t' → (∀ b ∈ bs, b.Fits c) →
      t'.length = t.length ∧ ∀ (r : Nat) row, t[r]? = some row → ∃ row', t'[r]? = some row' ∧
        ((∀ b ∈ bs, r ∉ b.rows) → row' = row) ∧
        ∀ ch : Nat, ch < c.start ∨ c.start + c.nChan ≤ ch →
          row'.data[ch]? = row.data[ch]? ∧ row'.weights[ch]? = row.weights[ch]? ∧ row'.flags[ch]? = row.flags[ch]? := by
  induction bs with
  | nil =>
    intro t t' h _
    obtain rfl := Option.some.inj h
    exact ⟨rfl, fun r row hr => ⟨row, hr, fun _ => rfl, fun _ _ => ⟨rfl, rfl, rfl⟩⟩⟩
  | cons b bs ih =>
    intro t t' h hf
    rw [updates] at h
    cases hu : update c t b with
    | none => rw [hu] at h; cases h
    | some t1 =>
      rw [hu] at h
      simp only at h
      have hfb := hf b (by simp)
      obtain ⟨k1, k2, k3⟩ := update_row c t t1 b hu hfb.1
      obtain ⟨m1, m2⟩ := ih t1 t' h (fun b' hb' => hf b' (List.mem_cons_of_mem _ hb'))
      refine ⟨by rw [m1, k1], ?_⟩
      intro r row hr
      by_cases hmem : r ∈ b.rows
      · obtain ⟨i, hi⟩ := List.mem_iff_getElem?.mp hmem
        obtain ⟨row1, g1, g2⟩ := k3 i r row hi hr
        obtain ⟨row', n1, n2, n3⟩ := m2 r row1 g1
        obtain ⟨-, o2⟩ := changed_outside c b i row row1 hfb hs g2
        refine ⟨row', n1, ?_, ?_⟩
        · intro hno
          exact absurd hmem (hno b (by simp))
        · intro ch hch
          obtain ⟨x1, x2, x3⟩ := n3 ch hch
          obtain ⟨y1, y2, y3⟩ := o2 ch hch
          exact ⟨x1.trans y1, x2.trans y2, x3.trans y3⟩
      · have g1 : t1[r]? = some row := by rw [k2 r hmem, hr]
        obtain ⟨row', n1, n2, n3⟩ := m2 r row g1
        exact ⟨row', n1, fun hno => n2 (fun b' hb' => hno b' (List.mem_cons_of_mem _ hb')), n3⟩

private theorem updates_append (c : Config V W) (pre : List (Buf V W)) :
    ∀ (t t' : List (Row V W)) post, updates c t (pre ++ post) = some t' →
      ∃ t1, updates c t pre = some t1 ∧ updates c t1 post = some t' := by
  induction pre with
  | nil => intro t t' post h; exact ⟨t, rfl, h⟩
  | cons b bs ih =>
    intro t t' post h
    rw [List.cons_append, updates] at h
    cases hu : update c t b with
    | none => rw [hu] at h; cases h
    | some t1 =>
      rw [hu] at h
      simp only at h
      obtain ⟨t2, g1, g2⟩ := ih t1 t' post h
      refine ⟨t2, ?_, g2⟩
      rw [updates, hu]
      exact g1

/-- C198: a field that is written has in the channels that were read the values of the last buffer with that row. -/
theorem updates_inside (c : Config V W) (hs : c.origNChan = c.nChan → c.start = 0) (pre post : List (Buf V W))
    (b : Buf V W) (t t' : List (Row V W)) (h : updates c t (pre ++ b :: post) = some t')
    (hf : ∀ b' ∈ pre ++ b :: post, b'.Fits c) (i r : Nat) (hi : b.rows[i]? = some r)
    (hr : r < t.length) (hlast : ∀ b' ∈ post, r ∉ b'.rows) :
    ∃ row', t'[r]? = some row' ∧ ∀ j, j < c.nChan →
      (c.wData = true → ∃ d, (dataOut c b)[i]? = some d ∧ row'.data[c.start + j]? = d[j]?) ∧
      (c.wWeights = true → ∃ d, (weightsOut c b)[i]? = some d ∧ row'.weights[c.start + j]? = d[j]?) ∧
      (c.wFlags = true → ∃ d, b.flags[i]? = some d ∧ row'.flags[c.start + j]? = d[j]?) := by
  obtain ⟨t1, h1, h2⟩ := updates_append c pre t t' (b :: post) h
  rw [updates] at h2
  cases hu : update c t1 b with
  | none => rw [hu] at h2; cases h2
  | some t2 =>
    rw [hu] at h2
    simp only at h2
    have hfb := hf b (by simp)
    obtain ⟨k1, k2, k3⟩ := update_row c t1 t2 b hu hfb.1
    obtain ⟨m1, m2⟩ := updates_outside c hs post t2 t' h2 (fun b' hb' => hf b' (by simp [hb']))
    have hlen := (updates_outside c hs pre t t1 h1 (fun b' hb' => hf b' (by simp [hb']))).1
    have hex : ∃ row, t1[r]? = some row := ⟨_, List.getElem?_eq_getElem (by omega)⟩
    obtain ⟨row, hr⟩ := hex
    obtain ⟨row2, g1, g2⟩ := k3 i r row hi hr
    obtain ⟨row', n1, n2, -⟩ := m2 r row2 g1
    obtain rfl := n2 hlast
    exact ⟨row', n1, fun j hj => changed_inside c b i row row' hfb hs g2 j hj⟩

private theorem masked_at {α : Type} (g : List Bool → α → α) :
    ∀ (fs : List (List (List Bool))) (vs : List (List α)) (i : Nat) f v, fs[i]? = some f → vs[i]? = some v →
      (masked g fs vs)[i]? = some (List.zipWith g f v) := by
  intro fs
  induction fs with
  | nil => intro vs i f v h; simp at h
  | cons f0 fs ih =>
    intro vs i f v hf hv
    cases vs with
    | nil => simp at hv
    | cons v0 vs =>
      cases i with
      | zero =>
        simp only [List.getElem?_cons_zero, Option.some.injEq] at hf hv
        subst hf; subst hv
        rfl
      | succ i =>
        simp only [List.getElem?_cons_succ] at hf hv
        simp only [masked, List.getElem?_cons_succ]
        exact ih vs i f v hf hv

/-- C198: the values that are written are those of the buffer; with compression those of flagged correlations are
replaced, if the buffer has flags. -/
theorem written_values (c : Config V W) (b : Buf V W) (i : Nat) (d : List V) (w : List W)
    (hd : b.data[i]? = some d) (hw : b.weights[i]? = some w) :
    (c.mask = none → (dataOut c b)[i]? = some d ∧ (weightsOut c b)[i]? = some w) ∧
    (∀ m f, c.mask = some m → b.flags[i]? = some f →
      (dataOut c b)[i]? = some (List.zipWith m.1 f d) ∧ (weightsOut c b)[i]? = some (List.zipWith m.2 f w)) ∧
    (b.flags = [] → (dataOut c b)[i]? = some d ∧ (weightsOut c b)[i]? = some w) := by
  refine ⟨?_, ?_, ?_⟩
  · intro h
    simp only [dataOut, weightsOut, h]
    exact ⟨hd, hw⟩
  · intro m f h hf
    simp only [dataOut, weightsOut, h]
    exact ⟨masked_at _ _ _ _ _ _ hf hd, masked_at _ _ _ _ _ _ hf hw⟩
  · intro h
    unfold dataOut weightsOut
    cases c.mask with
    | none => exact ⟨hd, hw⟩
    | some m =>
      simp only [h, masked]
      exact ⟨hd, hw⟩

private theorem putRows_some {α : Type} (upd : Row V W → α → Option (Row V W)) (P : Row V W → Prop)
    (hP : ∀ row row' v, P row → upd row v = some row' → P row') :
    ∀ (rows : List Nat) (vals : List α) (t : List (Row V W)), (∀ row ∈ t, P row) → rows.length = vals.length →
      (∀ r ∈ rows, r < t.length) → (∀ row v, P row → v ∈ vals → (upd row v).isSome) →
      ∃ t', putRows upd rows vals t = some t' ∧ t'.length = t.length ∧ ∀ row ∈ t', P row := by
  intro rows
  induction rows with
  | nil => intro vals t ht _ _ _; exact ⟨t, rfl, rfl, ht⟩
  | cons r rs ih =>
    intro vals t ht hl hr hu
    cases vals with
    | nil => simp at hl
    | cons v vs =>
      have hlt := hr r (by simp)
      have hrow := ht _ (List.getElem_mem hlt)
      obtain ⟨row', hrow'⟩ := Option.isSome_iff_exists.mp (hu t[r] v hrow (by simp))
      obtain ⟨t', h1, h2, h3⟩ := ih vs (t.set r row') (by
        intro x hx
        rcases List.mem_or_eq_of_mem_set hx with h | h
        · exact ht x h
        · rw [h]; exact hP _ _ _ hrow hrow') (by simpa using hl)
        (by intro x hx; rw [List.length_set]; exact hr x (List.mem_cons_of_mem _ hx))
        (fun row v' h1 h2 => hu row v' h1 (List.mem_cons_of_mem _ h2))
      refine ⟨t', ?_, by rw [h2, List.length_set], h3⟩
      rw [putRows, List.getElem?_eq_getElem hlt]
      simp only
      rw [hrow']
      exact h1

/-- The cells of a row have `n` channels. -/
def Row.Wide (n : Nat) (row : Row V W) : Prop := row.data.length = n ∧ row.weights.length = n ∧ row.flags.length = n

/-- C198: an update in the measurement set that was read succeeds, if the buffers have their rows and all fields that
are written for each of them. -/
theorem updates_ok (c : Config V W) (hc : c.start + c.nChan ≤ c.origNChan) (bs : List (Buf V W)) :
    ∀ t : List (Row V W), (∀ row ∈ t, row.Wide c.origNChan) →
      (∀ b ∈ bs, b.Fits c ∧ (∀ r ∈ b.rows, r < t.length) ∧ (c.wData = true → (dataOut c b).length = b.rows.length) ∧
        (c.wWeights = true → (weightsOut c b).length = b.rows.length) ∧
        (c.wFlags = true → b.flags.length = b.rows.length)) →
      ∃ t', updates c t bs = some t' ∧ t'.length = t.length := by
  induction bs with
  | nil => intro t _ _; exact ⟨t, rfl, rfl⟩
  | cons b bs ih =>
    intro t ht hb
    obtain ⟨hf, hrows, h1, h2, h3⟩ := hb b (by simp)
    have slice : ∀ {α : Type} (cell new : List α), cell.length = c.origNChan → new.length = c.nChan →
        ∃ out, putSlice cell c.start new = some out ∧ out.length = c.origNChan := by
      intro α cell new k1 k2
      have : putSlice cell c.start new = some (cell.take c.start ++ new ++ cell.drop (c.start + new.length)) := by
        rw [putSlice, if_pos (by omega)]
      exact ⟨_, this, by rw [(putSlice_spec _ _ _ _ this).1, k1]⟩
    have slice' : ∀ {α : Type} (cell new out : List α), cell.length = c.origNChan →
        putSlice cell c.start new = some out → out.length = c.origNChan := by
      intro α cell new out k1 k2
      rw [(putSlice_spec _ _ _ _ k2).1, k1]
    have e1 : ∃ t1, (if c.wFlags then putRows (putRowFlags c) b.rows b.flags t else some t) = some t1 ∧
        t1.length = t.length ∧ ∀ row ∈ t1, row.Wide c.origNChan := by
      by_cases hw : c.wFlags = true
      · rw [if_pos hw]
        refine putRows_some (putRowFlags c) (Row.Wide c.origNChan) ?_ _ _ _ ht (h3 hw).symm hrows ?_
        · intro row row' v hp hu
          rw [putRowFlags] at hu
          cases hs : putSlice row.flags c.start v with
          | none => rw [hs] at hu; cases hu
          | some o =>
            rw [hs] at hu
            obtain rfl := Option.some.inj hu
            exact ⟨hp.1, hp.2.1, slice' _ _ _ hp.2.2 hs⟩
        · intro row v hp hv
          obtain ⟨o, ho, -⟩ := slice row.flags v hp.2.2 (hf.2.2.2 v hv)
          rw [putRowFlags, ho]; rfl
      · rw [if_neg hw]; exact ⟨t, rfl, rfl, ht⟩
    obtain ⟨t1, q1, q2, q3⟩ := e1
    have e2 : ∃ t2, (if c.wData then putRows (putRowData c) b.rows (dataOut c b) t1 else some t1) = some t2 ∧
        t2.length = t1.length ∧ ∀ row ∈ t2, row.Wide c.origNChan := by
      by_cases hw : c.wData = true
      · rw [if_pos hw]
        refine putRows_some (putRowData c) (Row.Wide c.origNChan) ?_ _ _ _ q3 (h1 hw).symm (by rw [q2]; exact hrows) ?_
        · intro row row' v hp hu
          rw [putRowData] at hu
          cases hs : (if c.origNChan = c.nChan then putCell row.data v else putSlice row.data c.start v) with
          | none => rw [hs] at hu; cases hu
          | some o =>
            rw [hs] at hu
            obtain rfl := Option.some.inj hu
            refine ⟨?_, hp.2.1, hp.2.2⟩
            by_cases ho : c.origNChan = c.nChan
            · rw [if_pos ho, putCell] at hs
              split_ifs at hs with hl
              obtain rfl := Option.some.inj hs
              exact hl.trans hp.1
            · rw [if_neg ho] at hs
              exact slice' _ _ _ hp.1 hs
        · intro row v hp hv
          rw [putRowData]
          by_cases ho : c.origNChan = c.nChan
          · rw [if_pos ho, putCell, if_pos (by rw [hp.1, ho]; exact hf.2.1 v hv)]; rfl
          · rw [if_neg ho]
            obtain ⟨o, ho, -⟩ := slice row.data v hp.1 (hf.2.1 v hv)
            rw [ho]; rfl
      · rw [if_neg hw]; exact ⟨t1, rfl, rfl, q3⟩
    obtain ⟨t2, p1, p2, p3⟩ := e2
    have e3 : ∃ t3, (if c.wWeights then putRows (putRowWeights c) b.rows (weightsOut c b) t2 else some t2) = some t3 ∧
        t3.length = t2.length ∧ ∀ row ∈ t3, row.Wide c.origNChan := by
      by_cases hw : c.wWeights = true
      · rw [if_pos hw]
        refine putRows_some (putRowWeights c) (Row.Wide c.origNChan) ?_ _ _ _ p3 (h2 hw).symm
          (by rw [p2, q2]; exact hrows) ?_
        · intro row row' v hp hu
          rw [putRowWeights] at hu
          cases hs : putSlice row.weights c.start v with
          | none => rw [hs] at hu; cases hu
          | some o =>
            rw [hs] at hu
            obtain rfl := Option.some.inj hu
            exact ⟨hp.1, slice' _ _ _ hp.2.1 hs, hp.2.2⟩
        · intro row v hp hv
          obtain ⟨o, ho, -⟩ := slice row.weights v hp.2.1 (hf.2.2.1 v hv)
          rw [putRowWeights, ho]; rfl
      · rw [if_neg hw]; exact ⟨t2, rfl, rfl, p3⟩
    obtain ⟨t3, r1, r2, r3⟩ := e3
    have hu : update c t b = some t3 := by
      rw [update, q1, Option.bind_some, p1, Option.bind_some]
      exact r1
    obtain ⟨t', s1, s2⟩ := ih t3 r3 (by
      intro b' hb'
      obtain ⟨x1, x2, x3⟩ := hb b' (List.mem_cons_of_mem _ hb')
      exact ⟨x1, by rw [r2, p2, q2]; exact x2, x3⟩)
    refine ⟨t', ?_, by rw [s2, r2, p2, q2]⟩
    rw [updates, hu]
    exact s1

/-- A measurement set with three rows of three channels, of which the last two channels are read. -/
def sampleMs : List (Row ℕ ℕ) :=
  [⟨[1, 2, 3], [1, 1, 1], [[true], [true], [true]], true⟩, ⟨[4, 5, 6], [1, 1, 1], [[false], [false], [false]], false⟩,
   ⟨[7, 8, 9], [1, 1, 1], [[true], [false], [true]], false⟩]

/-- The two last channels, without compression. -/
def sampleConfig : Config ℕ ℕ := ⟨1, 2, 3, true, true, false, none⟩

/-- Two buffers; the one between them was inserted and has no rows. -/
def sampleBufs : List (Buf ℕ ℕ) :=
  [⟨[0], [[20, 30]], [[2, 2]], [[[true], [false]]]⟩, ⟨[], [[0, 0]], [[0, 0]], [[[true], [true]]]⟩,
   ⟨[2], [[80, 90]], [[2, 2]], [[[true], [true]]]⟩]

example : updates sampleConfig sampleMs sampleBufs =
    some [⟨[1, 20, 30], [1, 1, 1], [[true], [true], [false]], false⟩,
      ⟨[4, 5, 6], [1, 1, 1], [[false], [false], [false]], false⟩,
      ⟨[7, 80, 90], [1, 1, 1], [[true], [true], [true]], false⟩] := by decide +kernel

example : ∀ b ∈ sampleBufs, b.Fits sampleConfig := by
  intro b hb
  have h : b.rows.Nodup ∧ (∀ d ∈ b.data, d.length = 2) ∧ (∀ w ∈ b.weights, w.length = 2) ∧
      ∀ f ∈ b.flags, f.length = 2 := by
    revert b
    decide +kernel
  exact h

/-! ## C199: the flags of rows -/

/-- A row that is flagged has only flags that are set. -/
def Row.Consistent (row : Row V W) : Prop := row.flagRow = true → ∀ l ∈ row.flags, ∀ f ∈ l, f = true

private theorem any_not {f : List (List Bool)} : f.any (fun l => l.any not) = false ↔ ∀ l ∈ f, ∀ x ∈ l, x = true := by
  simp [List.any_eq_false]

private theorem changed_consistent (c : Config V W) (b : Buf V W) (i : Nat) (row row' : Row V W)
    (h : Changed c b i row row') (hc : row.Consistent) : row'.Consistent := by
  have h1 := h.flags
  by_cases hw : c.wFlags = true
  · rw [if_pos hw] at h1
    obtain ⟨f, -, g2, g3⟩ := h1
    intro hr
    rw [g3] at hr
    by_cases ha : f.any (fun l => l.any not) = true
    · rw [if_pos ha] at hr; cases hr
    · rw [if_neg ha] at hr
      have hall := any_not.mp (by simpa using ha)
      rw [putSlice] at g2
      split_ifs at g2
      have := Option.some.inj g2
      rw [← this]
      intro l hl
      rw [List.mem_append, List.mem_append] at hl
      rcases hl with (hl | hl) | hl
      · exact hc hr l (List.mem_of_mem_take hl)
      · exact hall l hl
      · exact hc hr l (List.mem_of_mem_drop hl)
  · rw [if_neg hw] at h1
    intro hr
    rw [h1.2] at hr
    rw [h1.1]
    exact hc hr

private theorem update_mem (c : Config V W) (t t' : List (Row V W)) (b : Buf V W) (h : update c t b = some t')
    (hnd : b.rows.Nodup) (r : Nat) (row' : Row V W) (hr : t'[r]? = some row') :
    ∃ row, t[r]? = some row ∧ (row' = row ∨ ∃ i, b.rows[i]? = some r ∧ Changed c b i row row') := by
  obtain ⟨k1, k2, k3⟩ := update_row c t t' b h hnd
  by_cases hm : r ∈ b.rows
  · have hlt : r < t'.length := by
      rcases Nat.lt_or_ge r t'.length with g | g
      · exact g
      · rw [List.getElem?_eq_none g] at hr; cases hr
    obtain ⟨i, hi⟩ := List.mem_iff_getElem?.mp hm
    have hrow : t[r]? = some t[r] := List.getElem?_eq_getElem (by omega)
    obtain ⟨row1, g1, g2⟩ := k3 i r _ hi hrow
    rw [hr] at g1
    obtain rfl := Option.some.inj g1
    exact ⟨_, hrow, .inr ⟨i, hi, g2⟩⟩
  · rw [k2 r hm] at hr
    exact ⟨row', hr, .inl rfl⟩

/-- C199: an update keeps the flags of the rows consistent with those of the channels. -/
theorem flagRow_consistent (c : Config V W) (bs : List (Buf V W)) : ∀ t t' : List (Row V W),
    updates c t bs = some t' → (∀ b ∈ bs, b.rows.Nodup) → (∀ row ∈ t, row.Consistent) → ∀ row ∈ t', row.Consistent := by
  induction bs with
  | nil =>
    intro t t' h _ ht
    obtain rfl := Option.some.inj h
    exact ht
  | cons b bs ih =>
    intro t t' h hf ht
    rw [updates] at h
    cases hu : update c t b with
    | none => rw [hu] at h; cases h
    | some t1 =>
      rw [hu] at h
      simp only at h
      refine ih t1 t' h (fun b' hb' => hf b' (List.mem_cons_of_mem _ hb')) ?_
      intro row1 hrow1
      obtain ⟨r, hr⟩ := List.mem_iff_getElem?.mp hrow1
      obtain ⟨row, g1, g2⟩ := update_mem c t t1 b hu (hf b (by simp)) r row1 hr
      have hc := ht row (List.mem_of_getElem? g1)
      rcases g2 with rfl | ⟨i, -, g2⟩
      · exact hc
      · exact changed_consistent c b i row row1 g2 hc

private theorem map_or_true {l : List (List Bool)} (h : ∀ x ∈ l, ∀ f ∈ x, f = true) (b : Bool) :
    l.map (fun x => x.map fun f => f || b) = l := by
  rw [List.map_congr_left (g := id)]
  · simp
  · intro x hx
    rw [List.map_congr_left (g := id)]
    · simp
    · intro f hf
      rw [h x hx f hf]; rfl

/-- C199: the flags that are read after an update are those that were written, whatever the flags of the rows were. -/
theorem flags_read_back (c : Config V W) (b : Buf V W) (t t' : List (Row V W)) (h : update c t b = some t')
    (hf : b.Fits c) (hw : c.wFlags = true) (i r : Nat) (hi : b.rows[i]? = some r) (hr : r < t.length) :
    ∃ row' f, t'[r]? = some row' ∧ b.flags[i]? = some f ∧ readFlags row' c.start c.nChan = f := by
  obtain ⟨k1, k2, k3⟩ := update_row c t t' b h hf.1
  obtain ⟨row', g1, g2⟩ := k3 i r _ hi (List.getElem?_eq_getElem hr)
  have g3 := g2.flags
  rw [if_pos hw] at g3
  obtain ⟨f, m1, m2, m3⟩ := g3
  have hl := hf.2.2.2 f (List.mem_of_getElem? m1)
  refine ⟨row', f, g1, m1, ?_⟩
  have hslice : (row'.flags.drop c.start).take c.nChan = f := by
    rw [putSlice] at m2
    split_ifs at m2 with hle
    have := Option.some.inj m2
    have ht : (t[r].flags.take c.start).length = c.start := by rw [List.length_take]; omega
    rw [← this, List.append_assoc, List.drop_append_of_le_length (by omega), List.drop_eq_nil_of_le (by omega),
      List.nil_append, List.take_append_of_le_length (by omega), List.take_of_length_le (by omega)]
  rw [readFlags, hslice]
  by_cases ha : f.any (fun l => l.any not) = true
  · rw [if_pos ha] at m3
    rw [m3]
    simp
  · exact map_or_true (any_not.mp (by simpa using ha)) _

/-- C199: in a consistent measurement set, the flags of all other channels are read as before. -/
theorem flags_read_other (c : Config V W) (b : Buf V W) (t t' : List (Row V W)) (h : update c t b = some t')
    (hf : b.Fits c) (hs : c.origNChan = c.nChan → c.start = 0) (r : Nat) (row : Row V W) (hr : t[r]? = some row)
    (hc : row.Consistent) (s n : Nat) (ho : s + n ≤ c.start ∨ c.start + c.nChan ≤ s) :
    ∃ row', t'[r]? = some row' ∧ readFlags row' s n = readFlags row s n := by
  obtain ⟨k1, k2, k3⟩ := update_row c t t' b h hf.1
  by_cases hm : r ∈ b.rows
  · obtain ⟨i, hi⟩ := List.mem_iff_getElem?.mp hm
    obtain ⟨row', g1, g2⟩ := k3 i r row hi hr
    refine ⟨row', g1, ?_⟩
    have hsame : (row'.flags.drop s).take n = (row.flags.drop s).take n := by
      apply List.ext_getElem?
      intro j
      rw [List.getElem?_take, List.getElem?_take]
      by_cases hj : j < n
      · rw [if_pos hj, if_pos hj, List.getElem?_drop, List.getElem?_drop]
        exact ((changed_outside c b i row row' hf hs g2).2 (s + j) (by omega)).2.2
      · rw [if_neg hj, if_neg hj]
    rw [readFlags, readFlags, hsame]
    by_cases hrow : row.flagRow = true
    · have hall : ∀ x ∈ (row.flags.drop s).take n, ∀ f ∈ x, f = true := fun x hx =>
        hc hrow x (List.mem_of_mem_drop (List.mem_of_mem_take hx))
      rw [map_or_true hall, map_or_true hall]
    · have h1 := g2.flags
      have : row'.flagRow = row.flagRow := by
        by_cases hw : c.wFlags = true
        · rw [if_pos hw] at h1
          obtain ⟨f, -, -, m3⟩ := h1
          rw [m3]
          split_ifs
          · simpa using hrow
          · rfl
        · rw [if_neg hw] at h1
          exact h1.2
      rw [this]
  · exact ⟨row, by rw [k2 r hm, hr], rfl⟩

example : ∀ row ∈ sampleMs, row.Consistent := by
  intro row h
  have : row.flagRow = true → ∀ l ∈ row.flags, ∀ f ∈ l, f = true := by
    revert row
    decide +kernel
  exact this

/-- C199: in a measurement set where a row is flagged but its channels are not, other channels get unflagged. -/
theorem inconsistent_unflags :
    let t : List (Row ℕ ℕ) := [⟨[1, 2], [1, 1], [[false], [false]], true⟩]
    let c : Config ℕ ℕ := ⟨1, 1, 2, false, true, false, none⟩
    t.map (fun row => readFlags row 0 1) = [[[true]]] ∧
    (update c t ⟨[0], [], [], [[[false]]]⟩).map (fun t' => t'.map fun row => readFlags row 0 1) = some [[[false]]] := by
  decide +kernel

end DP3.MsOutput
