import Verif.WscWriter.Model

/-!
# Properties of WSCleanWriter
-/

namespace DP3.WscWriter

set_option linter.unusedSimpArgs false

variable {F : Type}

/-- The parts cover the channels from `start` up to `stop`, one after the other, none is empty, all
have at most `cpf` channels, and all but the last have `cpf` (docs/schemas/WSCleanWriter.yml). -/
inductive Covers (cpf stop : Nat) : Nat → List (Part F) → Prop
  | last (p : Part F) : p.start < stop → p.stop = stop → stop ≤ p.start + cpf → Covers cpf stop p.start [p]
  | cons (p : Part F) (ps : List (Part F)) : p.stop = p.start + cpf → Covers cpf stop p.stop ps →
      Covers cpf stop p.start (p :: ps)

theorem mapM_get (l : List F) (start n : Nat) (h : start + n ≤ l.length) :
    ((List.range n).mapM fun k => l[start + k]?) = some ((l.drop start).take n) := by
  induction n with
  | zero => simp
  | succ n ih =>
    rw [List.range_succ, List.mapM_append, ih (by omega)]
    have hlt : start + n < l.length := by omega
    simp only [List.mapM_cons, List.getElem?_eq_getElem hlt, List.mapM_nil]
    simp only [Option.pure_def, Option.bind_eq_bind, Option.bind_some, Option.some.injEq]
    rw [List.take_add_one]
    simp [List.getElem?_drop, List.getElem?_eq_getElem hlt]

theorem getBand_eq (i : Info F) (start stop : Nat) (h : start < stop) (hs : stop ≤ i.chanFreqs.length) :
    getBand i start stop = some ((i.chanFreqs.drop start).take (stop - start)) := by
  rw [getBand, if_neg (by omega), mapM_get _ _ _ (by omega)]

theorem mapM_none (l : List F) (start : Nat) : ∀ n, l.length < start + n →
    ((List.range n).mapM fun k => l[start + k]?) = none ∨ n = 0 := by
  intro n
  cases n with
  | zero => intro _; exact Or.inr rfl
  | succ n =>
    intro h
    left
    rw [List.range_succ, List.mapM_append]
    have : l[start + n]? = none := List.getElem?_eq_none (by omega)
    cases hm : (List.range n).mapM (fun k => l[start + k]?) with
    | none => rfl
    | some v => simp [List.mapM_cons, this]

theorem getBand_none (i : Info F) (start stop : Nat) (hs : i.chanFreqs.length < stop) :
    getBand i start stop = none := by
  rw [getBand]
  split
  · rfl
  · rcases Nat.lt_or_ge start stop with h | h
    · rcases mapM_none i.chanFreqs start (stop - start) (by omega) with h' | h'
      · exact h'
      · omega
    · omega

theorem parts_spec (i : Info F) (cpf stop : Nat) (hc : 0 < cpf) (hs : stop ≤ i.chanFreqs.length) :
    ∀ n start, stop - start = n → start < stop → ∃ ps, parts i cpf stop start = some ps ∧
      Covers cpf stop start ps ∧
      ∀ p ∈ ps, p.band = (i.chanFreqs.drop p.start).take (p.stop - p.start) := by
  intro n
  induction n using Nat.strongRecOn with
  | _ n ih =>
    intro start hn hlt
    by_cases h : start + cpf < stop
    · obtain ⟨ps, h1, h2, h3⟩ := ih (stop - (start + cpf)) (by omega) (start + cpf) rfl h
      refine ⟨⟨start, start + cpf, (i.chanFreqs.drop start).take cpf⟩ :: ps, ?_, ?_, ?_⟩
      · rw [parts, dif_pos ⟨h, hc⟩, getBand_eq _ _ _ (by omega) (by omega), h1]
        simp [Nat.add_sub_cancel_left]
      · exact Covers.cons ⟨start, start + cpf, _⟩ ps rfl h2
      · intro p hp
        rcases List.mem_cons.1 hp with rfl | hp
        · simp [Nat.add_sub_cancel_left]
        · exact h3 p hp
    · refine ⟨[⟨start, stop, (i.chanFreqs.drop start).take (stop - start)⟩], ?_, ?_, ?_⟩
      · rw [parts, dif_neg (fun x => h x.1), if_pos hlt, getBand_eq _ _ _ hlt hs]
        rfl
      · exact Covers.last ⟨start, stop, _⟩ hlt rfl (by simp only; omega)
      · intro p hp
        simp only [List.mem_singleton] at hp
        subst hp; rfl

/-- C158, partial. If the first channel of the input is selected, the parts cover all channels in order,
each with `chanperfile` channels and the last with what remains, and the band of each part holds the
frequencies of its channels. The full statement is about every selection of channels; it is false
(`start_outside`). -/
theorem parts_partial (i : Info F) (cpf : Nat) (h0 : i.startchan = 0) (hn : i.nchan = i.chanFreqs.length)
    (hpos : 0 < i.nchan) : ∃ ps, startReorder i cpf = some ps ∧
      Covers (if cpf = 0 then i.nchan else cpf) i.nchan 0 ps ∧
      ∀ p ∈ ps, p.band = (i.chanFreqs.drop p.start).take (p.stop - p.start) := by
  by_cases hc : cpf = 0
  · rw [startReorder, if_pos hc, if_pos hc, h0, Nat.zero_add,
      getBand_eq _ _ _ hpos (Nat.le_of_eq hn)]
    refine ⟨_, rfl, Covers.last ⟨0, i.nchan, _⟩ hpos rfl (by simp), ?_⟩
    intro p hp
    simp only [List.mem_singleton] at hp
    subst hp; rfl
  · rw [startReorder, if_neg hc, if_neg hc, h0, Nat.zero_add]
    exact parts_spec i cpf i.nchan (by omega) (Nat.le_of_eq hn) _ 0 rfl hpos

theorem covers_channel (cpf stop : Nat) (start : Nat) (ps : List (Part F)) (h : Covers cpf stop start ps) :
    ∀ ch, start ≤ ch → ch < stop → ∃ p ∈ ps, p.start ≤ ch ∧ ch < p.stop := by
  induction h with
  | last p h1 h2 h3 => intro ch a b; exact ⟨p, by simp, a, by omega⟩
  | cons p ps h1 _ ih =>
    intro ch a b
    rcases Nat.lt_or_ge ch p.stop with h | h
    · exact ⟨p, by simp, a, h⟩
    · obtain ⟨q, hq, h'⟩ := ih ch h b
      exact ⟨q, List.mem_cons_of_mem _ hq, h'⟩

theorem covers_start (cpf stop : Nat) (start : Nat) (ps : List (Part F)) (h : Covers cpf stop start ps) :
    ∀ p ∈ ps, start ≤ p.start ∧ p.start ≤ p.stop := by
  induction h with
  | last p h1 h2 h3 => intro q hq; simp only [List.mem_singleton] at hq; subst hq; omega
  | cons p ps h1 _ ih =>
    intro q hq
    rcases List.mem_cons.1 hq with rfl | hq
    · omega
    · have := ih q hq; omega

theorem covers_disjoint (cpf stop : Nat) (start : Nat) (ps : List (Part F)) (h : Covers cpf stop start ps) :
    ps.Pairwise fun p q => p.stop ≤ q.start := by
  induction h with
  | last p => simp
  | cons p ps h1 h2 ih =>
    exact List.pairwise_cons.2 ⟨fun q hq => (covers_start _ _ _ _ h2 q hq).1, ih⟩

/-- C158. Each channel is in exactly one part. -/
theorem one_part (i : Info F) (cpf : Nat) (h0 : i.startchan = 0) (hn : i.nchan = i.chanFreqs.length)
    (hpos : 0 < i.nchan) : ∃ ps, startReorder i cpf = some ps ∧
      (∀ ch < i.nchan, ∃ p ∈ ps, p.start ≤ ch ∧ ch < p.stop) ∧
      ps.Pairwise (fun p q => p.stop ≤ q.start) := by
  obtain ⟨ps, h1, h2, _⟩ := parts_partial i cpf h0 hn hpos
  exact ⟨ps, h1, fun ch hch => covers_channel _ _ _ _ h2 ch (Nat.zero_le _) hch,
    covers_disjoint _ _ _ _ h2⟩

theorem parts_none (i : Info F) (cpf stop : Nat) (hs : i.chanFreqs.length < stop) :
    ∀ n start, stop - start = n → start < stop → parts i cpf stop start = none := by
  intro n
  induction n using Nat.strongRecOn with
  | _ n ih =>
    intro start hn hlt
    rw [parts]
    split
    · next h =>
      rw [ih (stop - (start + cpf)) (by omega) (start + cpf) rfl h.1]
      cases getBand i start (start + cpf) <;> rfl
    · rw [getBand_none _ _ _ hs]
      rfl

/-- C158. If a later channel is the first that is selected, frequencies are read outside the vector, for
all selections and all numbers of channels per file. -/
theorem start_outside (i : Info F) (cpf start n : Nat) (hs : 0 < start) (hn : 0 < n) (j : Info F)
    (h : selectChannels i start n = some j) : startReorder j cpf = none := by
  simp only [selectChannels] at h
  split_ifs at h with hle
  simp only [Option.some.injEq] at h
  have e1 : j.startchan = i.startchan + start := by rw [← h]
  have e2 : j.nchan = n := by rw [← h]
  have e3 : j.chanFreqs.length = n := by rw [← h]; simp; omega
  rw [startReorder]
  split
  · rw [getBand_none _ _ _ (by omega)]; rfl
  · exact parts_none j cpf _ (by omega) _ _ rfl (by omega)

/-- C159. The rows of a time slot are those of the baselines between different antennas, in order, each
once and with its own antennas. -/
theorem rows_right (i : Info F) (nBl : Nat) (h1 : nBl ≤ i.ant1.length) (h2 : nBl ≤ i.ant2.length) :
    ∃ rows, reorderBuffer i nBl = some rows ∧
      rows.Pairwise (fun r s => r.bl < s.bl) ∧
      ∀ r, r ∈ rows ↔ r.bl < nBl ∧ i.ant1[r.bl]? = some r.ant1 ∧ i.ant2[r.bl]? = some r.ant2 ∧
        r.ant1 ≠ r.ant2 := by
  induction nBl with
  | zero => exact ⟨[], rfl, by simp, by simp⟩
  | succ n ih =>
    obtain ⟨rows, a1, a2, a3⟩ := ih (by omega) (by omega)
    obtain ⟨x, hx⟩ : ∃ x, i.ant1[n]? = some x := ⟨_, List.getElem?_eq_getElem (by omega)⟩
    obtain ⟨y, hy⟩ : ∃ y, i.ant2[n]? = some y := ⟨_, List.getElem?_eq_getElem (by omega)⟩
    have hstep : reorderBuffer i (n + 1) =
        some (if x = y then rows else rows ++ [⟨n, x, y⟩]) := by
      rw [reorderBuffer, List.range_succ, List.foldlM_append]
      have : (List.range n).foldlM (fun rows bl => do
          let a ← i.ant1[bl]?
          let b ← i.ant2[bl]?
          if a = b then pure rows else pure (rows ++ [(⟨bl, a, b⟩ : Row)])) [] = some rows := a1
      rw [this]
      simp only [List.foldlM_cons, List.foldlM_nil, hx, hy, Option.bind_eq_bind, Option.bind_some]
      split <;> simp
    refine ⟨_, hstep, ?_, ?_⟩
    · split
      · exact a2
      · rw [List.pairwise_append]
        refine ⟨a2, by simp, fun r hr s hs => ?_⟩
        simp only [List.mem_singleton] at hs
        subst hs
        exact ((a3 r).1 hr).1
    · intro r
      split
      · next he =>
        rw [a3]
        constructor
        · rintro ⟨b1, b2⟩; exact ⟨by omega, b2⟩
        · rintro ⟨b1, b2, b3, b4⟩
          refine ⟨?_, b2, b3, b4⟩
          rcases Nat.lt_succ_iff_lt_or_eq.1 b1 with h | h
          · exact h
          · exfalso
            rw [h, hx] at b2; rw [h, hy] at b3
            simp only [Option.some.injEq] at b2 b3
            omega
      · next he =>
        rw [List.mem_append, a3, List.mem_singleton]
        constructor
        · rintro (⟨b1, b2⟩ | rfl)
          · exact ⟨by omega, b2⟩
          · exact ⟨by simp, hx, hy, he⟩
        · rintro ⟨b1, b2, b3, b4⟩
          rcases Nat.lt_succ_iff_lt_or_eq.1 b1 with h | h
          · exact Or.inl ⟨h, b2, b3, b4⟩
          · right
            obtain ⟨rb, r1, r2⟩ := r
            simp only at h b2 b3
            subst h
            rw [hx] at b2; rw [hy] at b3
            simp only [Option.some.injEq] at b2 b3
            rw [b2, b3]

/-! ## Examples -/

def exInfo : Info Nat := ⟨0, 5, [10, 20, 30, 40, 50], [0, 0, 1], [0, 1, 2]⟩

example := parts_partial exInfo 2 rfl rfl (by decide)

example : (startReorder exInfo 2).map (fun ps => ps.map fun p => p.band) =
    some [[10, 20], [30, 40], [50]] := by
  have hb := fun a b (h : a < b) (h' : b ≤ 5) => getBand_eq exInfo a b h h'
  rw [startReorder, if_neg (by decide), parts, dif_pos (by decide), hb _ _ (by decide) (by decide)]
  rw [parts, dif_pos (by decide), hb _ _ (by decide) (by decide)]
  rw [parts, dif_neg (by decide), if_pos (by decide), hb _ _ (by decide) (by decide)]
  rfl

example := one_part exInfo 3 rfl rfl (by decide)

example : ∃ j, selectChannels exInfo 1 3 = some j ∧ startReorder j 0 = none :=
  ⟨_, rfl, start_outside exInfo 0 1 3 (by decide) (by decide) _ rfl⟩

example : reorderBuffer exInfo 3 = some [⟨1, 0, 1⟩, ⟨2, 1, 2⟩] := by decide

example := rows_right exInfo 3 (by decide) (by decide)

end DP3.WscWriter
