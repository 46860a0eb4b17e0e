import Verif.Transfer.Model
import Mathlib.Algebra.Field.Rat
import Mathlib.Algebra.Order.Ring.Rat
import Mathlib.Tactic.Linarith
import Mathlib.Tactic.Ring
import Mathlib.Tactic.FieldSimp
import Mathlib.Tactic.ByContra
import Mathlib.Tactic.SplitIfs
import Mathlib.Tactic.Push

/-!
# C49, C86: transfer of data and flags
-/

namespace DP3.Transfer

open DP3.StringTools

set_option linter.unusedSectionVars false

variable {K V : Type} [Field K] [LinearOrder K] [IsStrictOrderedRing K]

/-- A cube of `m` rows and `n` channels. -/
def Shape (m n : Nat) (c : Cube V) : Prop := c.length = m ∧ ∀ row ∈ c, row.length = n

/-! ## Copying -/

private theorem setCell_spec {m n : Nat} {c : Cube V} (h : Shape m n c) {r t : Nat} (hr : r < m) (ht : t < n)
    (v : V) : ∃ d, setCell c r t v = .ok d ∧ Shape m n d ∧ cell d r t = some v ∧
      ∀ r' t', (r' ≠ r ∨ t' ≠ t) → cell d r' t' = cell c r' t' := by
  obtain ⟨hm, hn⟩ := h
  have hrow : c[r]? = some (c[r]'(by omega)) := List.getElem?_eq_getElem _
  have hlen : (c[r]'(by omega)).length = n := hn _ (List.getElem_mem _)
  refine ⟨c.set r ((c[r]'(by omega)).set t v), ?_, ⟨by rw [List.length_set]; exact hm, ?_⟩, ?_, ?_⟩
  · rw [setCell, hrow]
    simp only
    rw [if_pos (by omega)]
  · intro row h
    rcases List.mem_or_eq_of_mem_set h with h | h
    · exact hn row h
    · rw [h, List.length_set, hlen]
  · rw [cell, List.getElem?_set_self (by omega), Option.bind_some, List.getElem?_set_self (by omega)]
  · intro r' t' hne
    rw [cell, cell]
    by_cases hrr : r' = r
    · subst hrr
      have htt : t' ≠ t := by
        rcases hne with h | h
        · exact absurd rfl h
        · exact h
      rw [List.getElem?_set_self (by omega), hrow, Option.bind_some, Option.bind_some,
        List.getElem?_set_ne (Ne.symm htt)]
    · rw [List.getElem?_set_ne (Ne.symm hrr)]

private theorem cell_some {m n : Nat} {c : Cube V} (h : Shape m n c) {r t : Nat} (hr : r < m) (ht : t < n) :
    ∃ v, cell c r t = some v := by
  obtain ⟨hm, hn⟩ := h
  refine ⟨(c[r]'(by omega))[t]'(by rw [hn _ (List.getElem_mem _)]; exact ht), ?_⟩
  rw [cell, List.getElem?_eq_getElem (by omega), Option.bind_some, List.getElem?_eq_getElem]

private theorem copyChannel_spec {m n ms ns : Nat} {source : Cube V} (hs : Shape ms ns source) {block t : Nat}
    (hb : block < ns) (ht : t < n) (rows : List Nat) (s : Nat) (target : Cube V) (hc : Shape m n target)
    (hrows : ∀ r ∈ rows, r < m) (hnd : rows.Nodup) (hlen : s + rows.length = ms) :
    ∃ out, copyChannel source block t rows s target = .ok out ∧ Shape m n out ∧
      (∀ i r, rows[i]? = some r → cell out r t = cell source (s + i) block) ∧
      ∀ r' t', (r' ∉ rows ∨ t' ≠ t) → cell out r' t' = cell target r' t' := by
  induction rows generalizing s target with
  | nil => exact ⟨target, rfl, hc, by simp, by simp⟩
  | cons r rows ih =>
    obtain ⟨v, hv⟩ := cell_some hs (r := s) (by simp at hlen; omega) hb
    obtain ⟨d, hd, hd1, hd2, hd3⟩ := setCell_spec hc (hrows r (by simp)) ht v
    have hnd' := List.nodup_cons.mp hnd
    obtain ⟨out, e1, e2, e3, e4⟩ := ih (s + 1) d hd1 (fun x hx => hrows x (List.mem_cons_of_mem _ hx)) hnd'.2
      (by simp at hlen; omega)
    refine ⟨out, ?_, e2, ?_, ?_⟩
    · rw [copyChannel, hv]
      simp only
      rw [hd]
      exact e1
    · intro i x hx
      cases i with
      | zero =>
        simp at hx
        subst hx
        rw [e4 r t (.inl hnd'.1), hd2, Nat.add_zero, hv]
      | succ i =>
        rw [List.getElem?_cons_succ] at hx
        rw [e3 i x hx]
        congr 1; omega
    · intro r' t' h
      rcases h with h | h
      · rw [List.mem_cons, not_or] at h
        rw [e4 r' t' (.inl h.2), hd3 r' t' (.inl h.1)]
      · rw [e4 r' t' (.inr h), hd3 r' t' (.inr h)]

/-! ## The loops over channels -/

private theorem blockLoop_spec (x : K) (freqs : List K) (edge : K) {m n ms ns : Nat}
    (hn : freqs.length = n) {source : Cube V} (hs : Shape ms ns source) {block : Nat} (hb : block < ns)
    (rows : List Nat) (hrows : ∀ r ∈ rows, r < m) (hnd : rows.Nodup) (hlen : rows.length = ms) (fuel t : Nat)
    (htn : t ≤ n) (hfuel : n < fuel + t) (target : Cube V) (hc : Shape m n target) :
    ∃ t2 out, blockLoop (some x) freqs n edge source rows block fuel t target = .ok (t2, out) ∧
      t ≤ t2 ∧ t2 ≤ n ∧ Shape m n out ∧
      (∀ t' f, t ≤ t' → t' < t2 → freqs[t']? = some f → f < edge) ∧
      (∀ f, freqs[t2]? = some f → edge ≤ f) ∧
      (∀ i r t', rows[i]? = some r → t ≤ t' → t' < t2 → cell out r t' = cell source i block) ∧
      (∀ r' t', (r' ∉ rows ∨ t' < t ∨ t2 ≤ t') → cell out r' t' = cell target r' t') ∧
      (blockLoop none freqs n edge source rows block fuel t target =
        if t2 = n then .error .ub else .ok (t2, out)) := by
  induction fuel generalizing t target with
  | zero => omega
  | succ fuel ih =>
    rcases Nat.eq_or_lt_of_le htn with heq | hlt
    · refine ⟨t, target, ?_, le_refl _, htn, hc, by omega, ?_, by omega, fun _ _ _ => rfl, ?_⟩
      · rw [blockLoop, readFreq, if_pos (by omega)]
        simp only
        rw [if_neg (by omega)]
      · intro f hf
        rw [List.getElem?_eq_none (by omega)] at hf
        simp at hf
      · rw [blockLoop, readFreq, if_pos (by omega), if_pos heq]
    · obtain ⟨f, hf⟩ : ∃ f, freqs[t]? = some f := ⟨_, List.getElem?_eq_getElem (by omega)⟩
      by_cases hfe : f < edge
      · obtain ⟨mid, c1, c2, c3, c4⟩ := copyChannel_spec hs hb hlt rows 0 target hc hrows hnd (by omega)
        obtain ⟨t2, out, e1, e2, e3, e4, e5, e6, e7, e8, e9⟩ := ih (t + 1) (by omega) (by omega) mid c2
        have unfold : ∀ b : Option K, blockLoop b freqs n edge source rows block (fuel + 1) t target =
            blockLoop b freqs n edge source rows block fuel (t + 1) mid := by
          intro b
          rw [blockLoop, readFreq, if_neg (by omega), hf]
          simp only
          rw [if_pos ⟨hfe, hlt⟩, c1]
        refine ⟨t2, out, by rw [unfold, e1], by omega, e3, e4, ?_, e6, ?_, ?_, by rw [unfold, e9]⟩
        · intro t' f' h1 h2 h3
          rcases Nat.eq_or_lt_of_le h1 with h | h
          · subst h
            rw [hf] at h3
            rw [← Option.some.inj h3]; exact hfe
          · exact e5 t' f' (by omega) h2 h3
        · intro i r t' hr h1 h2
          rcases Nat.eq_or_lt_of_le h1 with h | h
          · subst h
            rw [e8 r t (.inr (.inl (by omega))), c3 i r hr, Nat.zero_add]
          · exact e7 i r t' hr (by omega) h2
        · intro r' t' h
          have h1 : r' ∉ rows ∨ t' < t + 1 ∨ t2 ≤ t' := by
            rcases h with h | h | h
            · exact .inl h
            · exact .inr (.inl (by omega))
            · exact .inr (.inr h)
          have h2 : r' ∉ rows ∨ t' ≠ t := by
            rcases h with h | h | h
            · exact .inl h
            · exact .inr (by omega)
            · exact .inr (by omega)
          rw [e8 r' t' h1, c4 r' t' h2]
      · have unfold : ∀ b : Option K, blockLoop b freqs n edge source rows block (fuel + 1) t target =
            .ok (t, target) := by
          intro b
          rw [blockLoop, readFreq, if_neg (by omega), hf]
          simp only
          rw [if_neg (fun h => hfe h.1)]
        refine ⟨t, target, unfold _, le_refl _, htn, hc, by omega, ?_, by omega, fun _ _ _ => rfl, ?_⟩
        · intro f' hf'
          rw [hf] at hf'
          rw [← Option.some.inj hf']
          exact not_lt.mp hfe
        · rw [unfold, if_neg (by omega)]

/-- The block of a frequency among edges: the first edge above it. -/
def Block (edges : List K) (f : K) (b : Nat) : Prop :=
  (∃ e, edges[b]? = some e ∧ f < e) ∧ ∀ b' e, b' < b → edges[b']? = some e → e ≤ f

private theorem channelLoop_spec (x : K) (freqs : List K) {m n ms ns : Nat} (hn : freqs.length = n)
    (hsorted : ∀ (t t' : Nat) (f f' : K), t ≤ t' → freqs[t]? = some f → freqs[t']? = some f' → f ≤ f')
    {source : Cube V} (hs : Shape ms ns source) (rows : List Nat) (hrows : ∀ r ∈ rows, r < m)
    (hnd : rows.Nodup) (hlen : rows.length = ms) (all edges : List K) (block t : Nat) (htn : t ≤ n)
    (hall : all.drop block = edges) (hblocks : block + edges.length = ns)
    (target : Cube V) (hc : Shape m n target)
    (hprev : ∀ b e f, b < block → all[b]? = some e → freqs[t]? = some f → e ≤ f) :
    ∃ t2 out, channelLoop (some x) freqs n source rows edges block t target = .ok (t2, out) ∧
      t ≤ t2 ∧ t2 ≤ n ∧ Shape m n out ∧
      (∀ t' f, t ≤ t' → t' < t2 → freqs[t']? = some f → ∃ b, Block all f b ∧
        ∀ i r, rows[i]? = some r → cell out r t' = cell source i b) ∧
      (∀ e f, e ∈ all → freqs[t2]? = some f → e ≤ f) ∧
      (∀ r' t', (r' ∉ rows ∨ t' < t ∨ t2 ≤ t') → cell out r' t' = cell target r' t') ∧
      (edges ≠ [] → channelLoop none freqs n source rows edges block t target =
        if t2 = n then .error .ub else .ok (t2, out)) := by
  induction edges generalizing block t target with
  | nil =>
    refine ⟨t, target, rfl, le_refl _, htn, hc, by omega, ?_, fun _ _ _ => rfl, by simp⟩
    intro e f he hf
    obtain ⟨b, hb⟩ := List.mem_iff_getElem?.mp he
    refine hprev b e f ?_ hb hf
    have : all.length ≤ block := by
      have := congrArg List.length hall
      simp at this; omega
    have := (List.getElem?_eq_some_iff.mp hb).1
    omega
  | cons edge edges ih =>
    have hedge : all[block]? = some edge := by
      have := congrArg (fun l => l[0]?) hall
      simpa using this
    obtain ⟨t1, mid, b1, b2, b3, b4, b5, b6, b7, b8, b9⟩ := blockLoop_spec x freqs edge hn hs
      (block := block) (by simp at hblocks; omega) rows hrows hnd hlen (n + 1) t htn (by omega) target hc
    obtain ⟨t2, out, e1, e2, e3, e4, e5, e6, e7, e8⟩ := ih (block + 1) t1 b3
      (by rw [← List.drop_drop, hall]; rfl) (by simp at hblocks; omega) mid b4 (by
        intro b e f hb he hf
        rcases Nat.lt_succ_iff_lt_or_eq.mp hb with hb | hb
        · rcases Nat.lt_or_ge t n with htl | htl
          · obtain ⟨f0, hf0⟩ : ∃ f0, freqs[t]? = some f0 := ⟨_, List.getElem?_eq_getElem (by omega)⟩
            exact (hprev b e f0 hb he hf0).trans (hsorted t t1 f0 f b2 hf0 hf)
          · rw [List.getElem?_eq_none (by omega)] at hf
            simp at hf
        · subst hb
          rw [hedge] at he
          rw [← Option.some.inj he]
          exact b6 f hf)
    refine ⟨t2, out, ?_, by omega, e3, e4, ?_, e6, ?_, ?_⟩
    · rw [channelLoop, b1]
      exact e1
    · intro t' f h1 h2 hf
      rcases Nat.lt_or_ge t' t1 with h | h
      · refine ⟨block, ⟨⟨edge, hedge, b5 t' f h1 h hf⟩, ?_⟩, ?_⟩
        · intro b e hb he
          obtain ⟨f0, hf0⟩ : ∃ f0, freqs[t]? = some f0 := ⟨_, List.getElem?_eq_getElem (by omega)⟩
          exact (hprev b e f0 hb he hf0).trans (hsorted t t' f0 f h1 hf0 hf)
        · intro i r hr
          rw [e7 r t' (.inr (.inl h)), b7 i r t' hr h1 h]
      · exact e5 t' f h h2 hf
    · intro r' t' h
      have h1 : r' ∉ rows ∨ t' < t1 ∨ t2 ≤ t' := by
        rcases h with h | h | h
        · exact .inl h
        · exact .inr (.inl (by omega))
        · exact .inr (.inr h)
      have h2 : r' ∉ rows ∨ t' < t ∨ t1 ≤ t' := by
        rcases h with h | h | h
        · exact .inl h
        · exact .inr (.inl h)
        · exact .inr (.inr (by omega))
      rw [e7 r' t' h1, b8 r' t' h2]
    · intro _
      rw [channelLoop, b9]
      by_cases h1 : t1 = n
      · rw [if_pos h1, if_pos (by omega)]
      · rw [if_neg h1]
        simp only
        cases edges with
        | nil =>
          simp only [channelLoop, Except.ok.injEq, Prod.mk.injEq] at e1
          obtain ⟨rfl, rfl⟩ := e1
          rw [if_neg h1, channelLoop]
        | cons _ _ => exact e8 (by simp)

/-! ## C49 -/

/-- The cubes and lists of a transfer to more channels fit together; the frequencies of the target are
ascending. -/
structure Fits (edges freqs : List K) (source : Cube V) (rows : List Nat) (target : Cube V) : Prop where
  source_shape : Shape rows.length edges.length source
  target_shape : Shape target.length freqs.length target
  rows_lt : ∀ r ∈ rows, r < target.length
  rows_nodup : rows.Nodup
  ascending : ∀ (t t' : Nat) (f f' : K), t ≤ t' → freqs[t]? = some f → freqs[t']? = some f' → f ≤ f'
  channels : edges.length ≠ freqs.length

/-- What the target has to be: the channels in a channel of the source are copied for the rows of the source,
all else is as before. -/
def Transferred (edges freqs : List K) (source : Cube V) (rows : List Nat) (target out : Cube V) : Prop :=
  Shape target.length freqs.length out ∧
  (∀ i r t f b, rows[i]? = some r → freqs[t]? = some f → Block edges f b →
    cell out r t = cell source i b) ∧
  (∀ r t, r ∉ rows → cell out r t = cell target r t) ∧
  ∀ r t f, freqs[t]? = some f → (∀ e ∈ edges, e ≤ f) → cell out r t = cell target r t

private theorem block_unique {edges : List K} {f : K} {b c : Nat} (hb : Block edges f b) (hc : Block edges f c) :
    b = c := by
  obtain ⟨⟨e, he, h1⟩, h2⟩ := hb
  obtain ⟨⟨e', he', h3⟩, h4⟩ := hc
  rcases Nat.lt_trichotomy b c with h | h | h
  · exact absurd h1 (not_lt.mpr (h4 b e h he))
  · exact h
  · exact absurd h3 (not_lt.mpr (h2 c e' h he'))

private theorem slot_both (x : K) (edges freqs : List K) (source : Cube V) (rows : List Nat) (target : Cube V)
    (h : Fits edges freqs source rows target) :
    ∃ t2 out, transferSlot (some x) edges freqs edges.length freqs.length source rows target = .ok out ∧
      Transferred edges freqs source rows target out ∧ t2 ≤ freqs.length ∧
      (∀ e f, e ∈ edges → freqs[t2]? = some f → e ≤ f) ∧
      (∀ t f, t < t2 → freqs[t]? = some f → ∃ e ∈ edges, f < e) ∧
      (edges ≠ [] → transferSlot none edges freqs edges.length freqs.length source rows target =
        if t2 = freqs.length then .error .ub else .ok out) := by
  obtain ⟨t2, out, e1, e2, e3, e4, e5, e6, e7, e8⟩ := channelLoop_spec x freqs rfl h.ascending h.source_shape rows
    h.rows_lt h.rows_nodup rfl edges edges 0 0 (by omega) rfl (by simp) target h.target_shape (by omega)
  refine ⟨t2, out, ?_, ⟨e4, ?_, ?_, ?_⟩, e3, e6, ?_, ?_⟩
  · rw [transferSlot, if_neg (fun c => h.channels c.1), if_neg h.channels, e1]
  · intro i r t f b hr hf hb
    have ht : t < t2 := by
      by_contra hge
      obtain ⟨e, he, hlt⟩ := hb.1
      have htl := (List.getElem?_eq_some_iff.mp hf).1
      obtain ⟨f2, hf2⟩ : ∃ f2, freqs[t2]? = some f2 := ⟨_, List.getElem?_eq_getElem (by omega)⟩
      have := e6 e f2 (List.mem_of_getElem? he) hf2
      have := h.ascending t2 t f2 f (by omega) hf2 hf
      exact absurd hlt (not_lt.mpr (by linarith))
    obtain ⟨b', hb', hc⟩ := e5 t f (by omega) ht hf
    rw [block_unique hb hb']
    exact hc i r hr
  · intro r t hr
    exact e7 r t (.inl hr)
  · intro r t f hf he
    refine e7 r t (.inr (.inr ?_))
    by_contra hlt
    obtain ⟨b, ⟨⟨e, hb1, hb2⟩, -⟩, -⟩ := e5 t f (by omega) (by omega) hf
    exact absurd hb2 (not_lt.mpr (he e (List.mem_of_getElem? hb1)))
  · intro t f ht hf
    obtain ⟨b, ⟨⟨e, hb1, hb2⟩, -⟩, -⟩ := e5 t f (by omega) ht hf
    exact ⟨e, List.mem_of_getElem? hb1, hb2⟩
  · intro hne
    rw [transferSlot, if_neg (fun c => h.channels c.1), if_neg h.channels, e8 hne]
    split_ifs <;> rfl

/-- C49 (a read behind the end of the frequencies gives some value instead of being undefined, see
`transfer_overrun`): all channels of the target inside a channel of the source are copied from it. -/
theorem transfer_channels_partial (beyond : K) (edges freqs : List K) (source : Cube V) (rows : List Nat)
    (target : Cube V) (h : Fits edges freqs source rows target) :
    ∃ out, transferSlot (some beyond) edges freqs edges.length freqs.length source rows target = .ok out ∧
      Transferred edges freqs source rows target out := by
  obtain ⟨_, out, h1, h2, -⟩ := slot_both beyond edges freqs source rows target h
  exact ⟨out, h1, h2⟩

/-- C49 (for a target that ends outside of the source): nothing is read behind the frequencies if the last
channel of the target is above all channels of the source. -/
theorem transfer_strict_partial (edges freqs : List K) (source : Cube V) (rows : List Nat) (target : Cube V)
    (h : Fits edges freqs source rows target) (last : K) (hlast : freqs.getLast? = some last)
    (habove : ∀ e ∈ edges, e ≤ last) :
    ∃ out, transferSlot none edges freqs edges.length freqs.length source rows target = .ok out ∧
      Transferred edges freqs source rows target out := by
  obtain ⟨t2, out, h1, h2, h3, h4, h5, h6⟩ := slot_both last edges freqs source rows target h
  rcases Decidable.em (edges = []) with he | he
  · subst he
    refine ⟨out, ?_, h2⟩
    rw [← h1]
    simp only [transferSlot, channelLoop]
  · refine ⟨out, ?_, h2⟩
    rw [h6 he, if_neg]
    intro ht
    rw [List.getLast?_eq_getElem?] at hlast
    have := (List.getElem?_eq_some_iff.mp hlast).1
    obtain ⟨e, hem, hlt⟩ := h5 _ last (by omega) hlast
    exact absurd hlt (not_lt.mpr (habove e hem))

/-- C49: whenever the last channel of the target is inside the source, an element behind the end of the
frequencies is read. -/
theorem transfer_overrun (edges freqs : List K) (source : Cube V) (rows : List Nat) (target : Cube V)
    (h : Fits edges freqs source rows target) (last : K) (hlast : freqs.getLast? = some last)
    (hin : ∃ e ∈ edges, last < e) :
    transferSlot none edges freqs edges.length freqs.length source rows target = .error .ub := by
  obtain ⟨t2, out, h1, h2, h3, h4, h5, h6⟩ := slot_both last edges freqs source rows target h
  obtain ⟨e, hem, hlt⟩ := hin
  rw [h6 (List.ne_nil_of_mem hem), if_pos]
  by_contra hne
  rw [List.getLast?_eq_getElem?] at hlast
  obtain ⟨f2, hf2⟩ : ∃ f2, freqs[t2]? = some f2 := ⟨_, List.getElem?_eq_getElem (by omega)⟩
  have := h4 e f2 hem hf2
  have := h.ascending t2 _ f2 last (by omega) hf2 hlast
  linarith

/-- C49: with the edges of `upperEdges`, the block of a frequency inside a channel is that channel, if the
channels do not overlap. -/
theorem block_inside (freqs widths : List K) (b : Nat) (c w f : K) (hc : freqs[b]? = some c)
    (hw : widths[b]? = some w) (hlow : c - 1 / 2 * w ≤ f) (hhigh : f < c + 1 / 2 * w)
    (hapart : ∀ b' c' w', b' < b → freqs[b']? = some c' → widths[b']? = some w' →
      c' + 1 / 2 * w' ≤ c - 1 / 2 * w) : Block (upperEdges freqs widths) f b := by
  refine ⟨⟨c + 1 / 2 * w, ?_, hhigh⟩, ?_⟩
  · rw [upperEdges, List.getElem?_zipWith, hc, hw]
  · intro b' e hb he
    rw [upperEdges, List.getElem?_zipWith] at he
    cases h1 : freqs[b']? with
    | none => rw [h1] at he; simp at he
    | some c' =>
      cases h2 : widths[b']? with
      | none => rw [h1, h2] at he; simp at he
      | some w' =>
        rw [h1, h2] at he
        simp only [Option.some.injEq] at he
        rw [← he]
        exact (hapart b' c' w' hb h1 h2).trans hlow

private theorem copyRows_spec (source : Cube V) (rows : List Nat) (s : Nat) (target : Cube V)
    (hrows : ∀ r ∈ rows, r < target.length) (hnd : rows.Nodup) (hlen : s + rows.length = source.length) :
    ∃ out, copyRows source rows s target = .ok out ∧ out.length = target.length ∧
      (∀ i r, rows[i]? = some r → out[r]? = source[s + i]?) ∧ ∀ r, r ∉ rows → out[r]? = target[r]? := by
  induction rows generalizing s target with
  | nil => exact ⟨target, rfl, rfl, by simp, by simp⟩
  | cons r rows ih =>
    obtain ⟨row, hrow⟩ : ∃ row, source[s]? = some row :=
      ⟨_, List.getElem?_eq_getElem (by simp at hlen; omega)⟩
    have hr := hrows r (by simp)
    have hnd' := List.nodup_cons.mp hnd
    obtain ⟨out, e1, e2, e3, e4⟩ := ih (s + 1) (target.set r row)
      (fun x hx => by rw [List.length_set]; exact hrows x (List.mem_cons_of_mem _ hx)) hnd'.2
      (by simp at hlen; omega)
    refine ⟨out, ?_, by rw [e2, List.length_set], ?_, ?_⟩
    · rw [copyRows, hrow]
      simp only
      rw [if_pos hr, e1]
    · intro i x hx
      cases i with
      | zero =>
        simp at hx
        subst hx
        rw [e4 r hnd'.1, List.getElem?_set_self hr, Nat.add_zero, hrow]
      | succ i =>
        rw [List.getElem?_cons_succ] at hx
        rw [e3 i x hx]
        congr 1; omega
    · intro x hx
      rw [List.mem_cons, not_or] at hx
      rw [e4 x hx.2, List.getElem?_set_ne (Ne.symm hx.1)]

/-- C49: with the same channels, the rows of the source are copied to the rows of the target they belong
to, all other rows are as before. If all rows are selected, these are in order. -/
theorem transfer_rows (beyond : Option K) (edges freqs : List K) (n : Nat) (source : Cube V) (rows : List Nat)
    (target : Cube V) (hrows : ∀ r ∈ rows, r < target.length) (hnd : rows.Nodup)
    (hlen : rows.length = source.length) (hall : rows.length = target.length → rows = List.range rows.length) :
    ∃ out, transferSlot beyond edges freqs n n source rows target = .ok out ∧ out.length = target.length ∧
      (∀ (i r : Nat), rows[i]? = some r → out[r]? = source[i]?) ∧ ∀ r : Nat, r ∉ rows → out[r]? = target[r]? := by
  rw [transferSlot]
  by_cases hsame : source.length = target.length
  · rw [if_pos ⟨rfl, hsame⟩]
    have hr := hall (by omega)
    refine ⟨source, rfl, hsame, ?_, ?_⟩
    · intro i r hir
      rw [hr] at hir
      have hi : i < rows.length := by
        have := (List.getElem?_eq_some_iff.mp hir).1
        simpa using this
      rw [List.getElem?_range hi] at hir
      rw [Option.some.inj hir]
    · intro r hr'
      rw [hr, List.mem_range] at hr'
      rw [List.getElem?_eq_none (by omega), List.getElem?_eq_none (by omega)]
  · rw [if_neg (fun h => hsame h.2), if_pos rfl]
    obtain ⟨out, e1, e2, e3, e4⟩ := copyRows_spec source rows 0 target hrows hnd (by omega)
    exact ⟨out, e1, e2, fun i r h => by rw [e3 i r h, Nat.zero_add], e4⟩

/-- C49: for a band with descending frequencies all channels of the target are copied from the first channel
of the source. -/
theorem transfer_descending :
    transferSlot (some 0) [9 / 2, 5 / 2] ([4, 3, 2, 1] : List ℚ) 2 4 [["high", "low"]] [0]
      [["", "", "", ""]] = .ok [["high", "high", "high", "high"]] := by decide +kernel

/-- C49: in FlagTransfer all edges come from the width of the first channel; with channels of different widths
they are not the edges of the channels. -/
theorem flag_transfer_edges : upperEdgesFirst ([1, 4] : List ℚ) [2, 4] ≠ upperEdges [1, 4] [2, 4] ∧
    upperEdgesFirst ([1, 3] : List ℚ) [2, 2] = upperEdges [1, 3] [2, 2] := by decide +kernel

/-! ## C86: time slots -/

private theorem run_held {S : Type} (factor : Nat) (c : Nat) (unread : List S) (held : S) (n k : Nat)
    (hk : k < c) (hn : k < n) : (State.run factor n ⟨unread, held, c⟩)[k]? = some held := by
  induction n generalizing c k with
  | zero => omega
  | succ n ih =>
    have hc : c ≠ 0 := by omega
    have e : State.step factor ⟨unread, held, c⟩ = (⟨unread, held, c - 1⟩, held) := by
      simp [State.step, hc]
    rw [State.run, e]
    cases k with
    | zero => rfl
    | succ k =>
      rw [List.getElem?_cons_succ]
      exact ih (c - 1) k (by omega) (by omega)

private theorem run_skip {S : Type} (factor : Nat) (c : Nat) (unread : List S) (held : S) (n : Nat) (k : Nat) :
    (State.run factor (n + c) ⟨unread, held, c⟩)[c + k]? = (State.run factor n ⟨unread, held, 0⟩)[k]? := by
  induction c with
  | zero => rw [Nat.zero_add, Nat.add_zero]
  | succ c ih =>
    have e : State.step factor ⟨unread, held, c + 1⟩ = (⟨unread, held, c⟩, held) := by
      simp [State.step]
    rw [← Nat.add_assoc, State.run, e]
    have : c + 1 + k = (c + k) + 1 := by omega
    rw [this, List.getElem?_cons_succ, ih]

private theorem run_last {S : Type} (factor : Nat) (c : Nat) (held : S) (n k : Nat) (hk : k < n) :
    (State.run factor n ⟨[], held, c⟩)[k]? = some held := by
  induction n generalizing c k with
  | zero => omega
  | succ n ih =>
    have e : State.step factor ⟨[], held, c⟩ =
        (⟨[], held, if c = 0 then factor - 1 else c - 1⟩, held) := by
      simp only [State.step]
      split_ifs <;> rfl
    rw [State.run, e]
    cases k with
    | zero => rfl
    | succ k =>
      rw [List.getElem?_cons_succ]
      exact ih _ k (by omega)

private theorem run_length {S : Type} (factor n : Nat) (st : State S) : (State.run factor n st).length = n := by
  induction n generalizing st with
  | zero => rfl
  | succ n ih => rw [State.run, List.length_cons, ih]

private theorem run_prefix {S : Type} (factor n m : Nat) (st : State S) (h : n ≤ m) (k : Nat) (hk : k < n) :
    (State.run factor n st)[k]? = (State.run factor m st)[k]? := by
  induction n generalizing m st k with
  | zero => omega
  | succ n ih =>
    cases m with
    | zero => omega
    | succ m =>
      rw [State.run, State.run]
      cases k with
      | zero => rfl
      | succ k =>
        rw [List.getElem?_cons_succ, List.getElem?_cons_succ]
        exact ih m _ (by omega) k (by omega)

/-- C86: the k-th time slot of the target uses time slot k / factor of the source; behind the end of the
source its last time slot. -/
theorem slot_used {S : Type} (factor : Nat) (hf : 0 < factor) (slots : List S) (hne : slots ≠ []) (init : S)
    (n k : Nat) (hk : k < n) :
    (State.run factor n ⟨slots, init, 0⟩)[k]? = slots[min (k / factor) (slots.length - 1)]? := by
  induction slots generalizing init n k with
  | nil => exact absurd rfl hne
  | cons s rest ih =>
    have e : State.step factor ⟨s :: rest, init, 0⟩ = (⟨rest, s, factor - 1⟩, s) := rfl
    obtain ⟨n, rfl⟩ : ∃ m, n = m + 1 := ⟨n - 1, by omega⟩
    rw [State.run, e]
    rcases Nat.lt_or_ge k factor with h | h
    · rw [Nat.div_eq_of_lt h, Nat.zero_min, List.getElem?_cons_zero]
      cases k with
      | zero => rfl
      | succ k =>
        rw [List.getElem?_cons_succ]
        exact run_held factor _ rest s n k (by omega) (by omega)
    · have hdiv : k / factor = (k - factor) / factor + 1 := by
        conv_lhs => rw [← Nat.sub_add_cancel h]
        exact Nat.add_div_right _ hf
      obtain ⟨j, rfl⟩ : ∃ j, k = j + 1 := ⟨k - 1, by omega⟩
      rw [List.getElem?_cons_succ]
      cases hrest : rest with
      | nil =>
        rw [List.length_singleton, Nat.sub_self, Nat.min_zero, List.getElem?_cons_zero]
        exact run_last factor _ s n j (by omega)
      | cons s2 rest2 =>
        rw [← hrest]
        have hj : j = (factor - 1) + (j + 1 - factor) := by omega
        have step : (State.run factor n ⟨rest, s, factor - 1⟩)[j]? =
            (State.run factor (n - (factor - 1)) ⟨rest, s, 0⟩)[j + 1 - factor]? := by
          have hn : n = (n - (factor - 1)) + (factor - 1) := by omega
          conv_lhs => rw [hn, hj]
          exact run_skip factor (factor - 1) rest s _ _
        rw [step, ih (by rw [hrest]; simp) s _ _ (by omega), List.length_cons, hdiv]
        have hl : 0 < rest.length := by rw [hrest]; simp
        have : min ((j + 1 - factor) / factor + 1) (rest.length + 1 - 1) =
            min ((j + 1 - factor) / factor) (rest.length - 1) + 1 := by omega
        rw [this, List.getElem?_cons_succ]

/-- C86: the time slot of the source contains the time slot of the target, if the intervals and start times
pass the checks exactly. -/
theorem slot_covers (round : K → Nat) (dt ds start start' : K) (hdt : 0 < dt) (factor : Nat)
    (h : averagingFactor round 0 ds dt start start' = .ok factor) (k : Nat) (hf : 0 < factor) :
    start + ((k / factor : Nat) : K) * ds ≤ start' + (k : K) * dt ∧
      start' + ((k : K) + 1) * dt ≤ start + (((k / factor : Nat) : K) + 1) * ds := by
  simp only [averagingFactor] at h
  split_ifs at h with h1 h2
  simp only [Except.ok.injEq] at h
  have e1 : ds / dt = factor := by
    have := abs_nonneg (ds / dt - round (ds / dt))
    have := le_antisymm (not_lt.mp h1) this
    rw [abs_eq_zero] at this
    rw [← h]; linarith
  have e2 : start' = start := by
    have := abs_nonneg (start' - start)
    have := le_antisymm (not_lt.mp h2) this
    rw [abs_eq_zero] at this
    linarith
  have e3 : ds = factor * dt := by
    rw [← e1]; field_simp
  have hd := Nat.div_add_mod k factor
  have hm := Nat.mod_lt k hf
  have c1 : ((k / factor : Nat) : K) * factor ≤ k := by
    rw [← Nat.cast_mul]
    exact Nat.cast_le.mpr (Nat.div_mul_le_self _ _)
  have c2 : (k : K) + 1 ≤ (((k / factor : Nat) : K) + 1) * factor := by
    have : k + 1 ≤ (k / factor + 1) * factor := by
      have : (k / factor + 1) * factor = factor * (k / factor) + factor := by ring
      omega
    have := (Nat.cast_le (α := K)).mpr this
    push_cast at this
    exact this
  rw [e2, e3]
  constructor
  · have := mul_le_mul_of_nonneg_right c1 hdt.le
    linarith
  · have := mul_le_mul_of_nonneg_right c2 hdt.le
    linarith

/-- C86: the rows of a transfer are those of the filtered baselines, or there is an exception. -/
theorem target_rows (nSource first : Nat) (n : Nat) (hn : 0 < n) (selected : List Nat)
    (hs : ∀ i ∈ selected, i < n) :
    targetRows nSource ((List.range n).map (first + ·)) (selected.map (first + ·)) =
      if selected.length = nSource then .ok selected else .error .throws := by
  obtain ⟨m, rfl⟩ : ∃ m, n = m + 1 := ⟨n - 1, by omega⟩
  rw [List.range_succ_eq_map]
  simp only [List.map_cons, targetRows, List.map_map, Nat.add_zero]
  have e : List.map ((fun r => r - first) ∘ fun x => first + x) selected = selected := by
    conv_rhs => rw [← List.map_id selected]
    refine List.map_congr_left fun i _ => ?_
    simp
  rw [e]
  by_cases h : selected.length = nSource
  · rw [if_neg (by simpa using h), if_pos h]
  · rw [if_pos h, if_neg h]

/-! ## Examples -/

/-- Two channels of the source for five of the target; the last one is above the source. -/
def sampleFreqs : List ℚ := [1, 2, 3, 4, 9]

/-- Rows 2 and 0 of three rows. -/
def sampleSource : Cube Nat := [[10, 11], [20, 21]]

/-- The target before the transfer. -/
def sampleTarget : Cube Nat := [[0, 0, 0, 0, 0], [1, 1, 1, 1, 1], [2, 2, 2, 2, 2]]

example : Fits [5 / 2, 9 / 2] sampleFreqs sampleSource [2, 0] sampleTarget where
  source_shape := ⟨rfl, by decide⟩
  target_shape := ⟨rfl, by decide⟩
  rows_lt := by decide
  rows_nodup := by decide
  ascending := by
    intro t t' f f' h h1 h2
    have hp : sampleFreqs.Pairwise (· ≤ ·) := by decide +kernel
    rcases Nat.eq_or_lt_of_le h with h | h
    · subst h; rw [h1] at h2; rw [Option.some.inj h2]
    · rw [List.pairwise_iff_getElem] at hp
      obtain ⟨l1, e1⟩ := List.getElem?_eq_some_iff.mp h1
      obtain ⟨l2, e2⟩ := List.getElem?_eq_some_iff.mp h2
      rw [← e1, ← e2]
      exact hp t t' l1 l2 h
  channels := by decide

example : transferSlot none [5 / 2, 9 / 2] sampleFreqs 2 5 sampleSource [2, 0] sampleTarget =
    .ok [[20, 20, 21, 21, 0], [1, 1, 1, 1, 1], [10, 10, 11, 11, 2]] := by decide +kernel
example : transferSlot none [5 / 2, 9 / 2] (sampleFreqs.take 4) 2 4 sampleSource [2, 0]
    (sampleTarget.map (List.take 4)) = .error .ub := by decide +kernel
example : transferSlot (some 7) [5 / 2, 9 / 2] (sampleFreqs.take 4) 2 4 sampleSource [2, 0]
    (sampleTarget.map (List.take 4)) = .ok [[20, 20, 21, 21], [1, 1, 1, 1], [10, 10, 11, 11]] := by
  decide +kernel
example : transferSlot none [] ([1, 2] : List ℚ) 2 2 sampleSource [2, 0] [[0, 0], [1, 1], [2, 2]] =
    .ok [[20, 21], [1, 1], [10, 11]] := by decide +kernel
example : Block ([5 / 2, 9 / 2] : List ℚ) 3 1 :=
  ⟨⟨9 / 2, by decide +kernel, by decide +kernel⟩, fun b e hb he => by
    have : b = 0 := by omega
    subst this
    simp at he; rw [← he]; decide +kernel⟩
example : upperEdges ([3 / 2, 7 / 2] : List ℚ) [2, 2] = [5 / 2, 9 / 2] := by decide +kernel
example : State.run 2 5 ⟨["a", "b"], "", 0⟩ = ["a", "a", "b", "b", "b"] := by decide
example : averagingFactor (fun _ : ℚ => 3) 0 6 2 10 10 = .ok 3 := by decide +kernel
example : targetRows 2 [7, 8, 9] [9, 7] = .ok [2, 0] := by decide

end DP3.Transfer
