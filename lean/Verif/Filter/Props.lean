import Verif.Filter.Model
import Mathlib.Data.List.Basic
import Mathlib.Tactic.Ring
import Mathlib.Tactic.SplitIfs

/-!
# Properties of the Filter step (C27, C28)
-/

namespace DP3.Filter

set_option linter.unusedSectionVars false

variable {T V W U : Type}

/-- Sample `(b, c, p)` of an array of shape `nbl * nchan * ncorr`. -/
def sample {α : Type} (l : List α) (nchan ncorr b c p : Nat) : Option α :=
  l[(b * nchan + c) * ncorr + p]?

/-- The arrays of a buffer have the given shape. -/
structure Shaped (buf : Buf T V W U) (nbl nchan ncorr : Nat) : Prop where
  data : buf.data.length = nbl * nchan * ncorr
  flags : buf.flags.length = nbl * nchan * ncorr
  weights : buf.weights.length = nbl * nchan * ncorr
  uvw : buf.uvw.length = nbl * 3
  rows : buf.rows = [] ∨ buf.rows.length = nbl

/-- The baselines that the step has to keep: all, or those whose antennas are selected. -/
def wanted (selbl : Option (Nat → Nat → Bool)) (ant1 ant2 : List Nat) : List Nat :=
  match selbl with
  | none => List.range ant1.length
  | some m => (List.range ant1.length).filter fun b => m (ant1.getD b 0) (ant2.getD b 0)

/-- What one output array has to be. -/
def Copied {α : Type} (out inp : List α) (sel : List Nat) (start nchanOut nchanIn ncorr : Nat) :
    Prop :=
  out.length = sel.length * nchanOut * ncorr ∧
  ∀ (b b' c p : Nat), sel[b]? = some b' → c < nchanOut → p < ncorr →
    sample out nchanOut ncorr b c p = sample inp nchanIn ncorr b' (start + c) p

/-! ## Helpers -/

private theorem copyN_ok {α : Type} (l : List α) (o n : Nat) (h : o + n ≤ l.length) :
    ∃ r, copyN l o n = some r ∧ r.length = n ∧ ∀ k : Nat, k < n → r[k]? = l[o + k]? := by
  refine ⟨(l.drop o).take n, by rw [copyN, if_pos h], by simp; omega, ?_⟩
  intro k hk
  rw [List.getElem?_take_of_lt hk, List.getElem?_drop]

private theorem chunks {α : Type} (l : List α) (g : Nat → Nat) (n : Nat) : ∀ (sel : List Nat),
    (∀ b ∈ sel, g b + n ≤ l.length) →
    ∃ r, (sel.mapM fun b => copyN l (g b) n).map List.flatten = some r ∧
      r.length = sel.length * n ∧
      ∀ (i b k : Nat), sel[i]? = some b → k < n → r[i * n + k]? = l[g b + k]?
  | [], _ => ⟨[], rfl, by simp, by simp⟩
  | b0 :: sel, h => by
    obtain ⟨r, h1, h2, h3⟩ := chunks l g n sel (fun b hb => h b (List.mem_cons_of_mem _ hb))
    obtain ⟨c, c1, c2, c3⟩ := copyN_ok l (g b0) n (h b0 (by simp))
    rw [Option.map_eq_some_iff] at h1
    obtain ⟨rs, hrs, rfl⟩ := h1
    refine ⟨c ++ rs.flatten, ?_, ?_, ?_⟩
    · rw [List.mapM_cons, c1, hrs]; rfl
    · rw [List.length_append, c2, h2, List.length_cons, Nat.succ_mul, Nat.add_comm]
    · intro i b k hi hk
      cases i with
      | zero =>
        simp only [List.getElem?_cons_zero, Option.some.injEq] at hi
        subst hi
        rw [Nat.zero_mul, Nat.zero_add, List.getElem?_append_left (by omega), c3 k hk]
      | succ i =>
        rw [List.getElem?_cons_succ] at hi
        rw [List.getElem?_append_right (by rw [c2, Nat.succ_mul]; omega), c2,
          ← h3 i b k hi hk]
        congr 1
        rw [Nat.succ_mul]; omega

private theorem base_le (b nbl nchan ncorr start n : Nat) (hb : b < nbl)
    (hn : start + n ≤ nchan) :
    (b * nchan + start) * ncorr + n * ncorr ≤ nbl * nchan * ncorr := by
  rw [← Nat.add_mul]
  apply Nat.mul_le_mul_right
  have : (b + 1) * nchan ≤ nbl * nchan := Nat.mul_le_mul_right _ hb
  rw [Nat.succ_mul] at this
  omega

private theorem copyBaselines_ok {α : Type} (l : List α) (nbl nchan ncorr start n : Nat)
    (sel : List Nat) (hl : l.length = nbl * nchan * ncorr) (hn : start + n ≤ nchan)
    (hsel : ∀ b ∈ sel, b < nbl) :
    ∃ r, copyBaselines l (ncorr * start) (ncorr * nchan) (ncorr * n) sel = some r ∧
      Copied r l sel start n nchan ncorr := by
  obtain ⟨r, h1, h2, h3⟩ := chunks l (fun b => ncorr * start + b * (ncorr * nchan)) (ncorr * n) sel
    (by
      intro b hb
      have := base_le b nbl nchan ncorr start n (hsel b hb) hn
      rw [hl]
      calc ncorr * start + b * (ncorr * nchan) + ncorr * n
          = (b * nchan + start) * ncorr + n * ncorr := by ring
        _ ≤ _ := this)
  refine ⟨r, h1, by rw [h2]; ring, ?_⟩
  intro b b' c p hb hc hp
  have hk : c * ncorr + p < ncorr * n := by
    have : (c + 1) * ncorr ≤ n * ncorr := Nat.mul_le_mul_right _ hc
    rw [Nat.succ_mul, Nat.mul_comm n] at this
    omega
  have := h3 b b' (c * ncorr + p) hb hk
  rw [sample, sample, show (b * n + c) * ncorr + p = b * (ncorr * n) + (c * ncorr + p) by ring,
    this]
  congr 1
  ring

private theorem chanView_ok {α : Type} (l : List α) (nbl nchan ncorr start n : Nat)
    (hl : l.length = nbl * nchan * ncorr) (hn : start + n ≤ nchan) :
    ∃ r, chanView l nbl nchan ncorr start n = some r ∧
      Copied r l (List.range nbl) start n nchan ncorr := by
  obtain ⟨r, h1, h2, h3⟩ := chunks l (fun b => (b * nchan + start) * ncorr) (n * ncorr)
    (List.range nbl) (by
      intro b hb
      rw [hl]
      exact base_le b nbl nchan ncorr start n (List.mem_range.1 hb) hn)
  refine ⟨r, h1, by rw [h2]; ring, ?_⟩
  intro b b' c p hb hc hp
  have hk : c * ncorr + p < n * ncorr := by
    have : (c + 1) * ncorr ≤ n * ncorr := Nat.mul_le_mul_right _ hc
    rw [Nat.succ_mul] at this
    omega
  have := h3 b b' (c * ncorr + p) hb hk
  rw [sample, sample, show (b * n + c) * ncorr + p = b * (n * ncorr) + (c * ncorr + p) by ring,
    this]
  congr 1
  ring

private theorem selectLoop_spec (m : Nat → Nat → Bool) : ∀ (ant1 ant2 : List Nat) (i : Nat),
    ant1.length = ant2.length →
    selectLoop m i ant1 ant2 =
      ((List.range ant1.length).filter fun b => m (ant1.getD b 0) (ant2.getD b 0)).map (i + ·)
  | [], [], i, _ => rfl
  | a :: as, b :: bs, i, h => by
    have ih := selectLoop_spec m as bs (i + 1) (by simpa using h)
    rw [selectLoop, ih, List.length_cons, List.range_succ_eq_map, List.filter_cons,
      List.filter_map]
    have hcomp : ((fun k => m ((a :: as).getD k 0) ((b :: bs).getD k 0)) ∘ Nat.succ) =
        fun k => m (as.getD k 0) (bs.getD k 0) := by
      funext k; simp [Function.comp]
    simp only [hcomp]
    have hmap : ∀ l : List Nat, l.map (i + 1 + ·) = (l.map Nat.succ).map (i + ·) := by
      intro l
      rw [List.map_map]
      apply List.map_congr_left
      intro k _
      simp only [Function.comp]; omega
    rw [hmap]
    by_cases hm : m a b
    · simp [hm]
    · simp [hm]

private theorem rows_ok (rows sel : List Nat) (nbl : Nat) (hr : rows = [] ∨ rows.length = nbl)
    (hsel : ∀ b ∈ sel, b < nbl) :
    ∃ r, copyRows rows sel = some r ∧ (rows = [] → r = []) ∧
      (rows ≠ [] → r.length = sel.length ∧
        ∀ (i b : Nat), sel[i]? = some b → r[i]? = rows[b]?) := by
  by_cases he : rows = []
  · exact ⟨[], by rw [copyRows, he]; rfl, fun _ => rfl, fun h => absurd he h⟩
  · have hl : rows.length = nbl := hr.resolve_left he
    have H : ∀ sel : List Nat, (∀ b ∈ sel, b < nbl) →
        ∃ r, (sel.mapM fun b => rows[b]?) = some r ∧ r.length = sel.length ∧
          ∀ (i b : Nat), sel[i]? = some b → r[i]? = rows[b]? := by
      intro sel
      induction sel with
      | nil => intro _; exact ⟨[], rfl, rfl, by simp⟩
      | cons b0 sel ih =>
        intro h
        obtain ⟨r, h1, h2, h3⟩ := ih fun b hb => h b (List.mem_cons_of_mem _ hb)
        have hb0 : b0 < rows.length := by rw [hl]; exact h b0 (by simp)
        refine ⟨rows[b0] :: r, ?_, by simp [h2], ?_⟩
        · rw [List.mapM_cons, h1, List.getElem?_eq_getElem hb0]; rfl
        · intro i b hi
          cases i with
          | zero =>
            simp only [List.getElem?_cons_zero, Option.some.injEq] at hi
            subst hi
            rw [List.getElem?_cons_zero, List.getElem?_eq_getElem hb0]
          | succ i =>
            rw [List.getElem?_cons_succ] at hi ⊢
            exact h3 i b hi
    obtain ⟨r, h1, h2, h3⟩ := H sel hsel
    exact ⟨r, by rw [copyRows, if_neg (by simpa using he), h1], fun h => absurd h he,
      fun _ => ⟨h2, h3⟩⟩

private theorem copied_refl {α : Type} (l : List α) (nbl nchan ncorr : Nat)
    (hl : l.length = nbl * nchan * ncorr) : Copied l l (List.range nbl) 0 nchan nchan ncorr := by
  refine ⟨by simpa using hl, ?_⟩
  intro b b' c p hb _ _
  have hbl : b < nbl := by
    rcases Nat.lt_or_ge b nbl with h | h
    · exact h
    · rw [List.getElem?_eq_none (by simpa using h)] at hb; simp at hb
  rw [List.getElem?_range hbl, Option.some.injEq] at hb
  subst hb
  rw [Nat.zero_add]

/-! ## C27 -/

/-- **C27, partial.**  For every shape, channel range and baseline selection that selects at least
one baseline (or none given), the filter announces the number of baselines and channels that it
gives, and every output sample is the input sample of the selected baseline and channel, for data,
flags and weights; UVW and row numbers are those of the selected baselines; time and exposure are
kept.  Missing: a selection without any baseline, for which all baselines are let through
(`empty_selection`). -/
theorem filter_partial (start nrChan nChan nCorr : Nat) (selbl : Option (Nat → Nat → Bool))
    (ant1 ant2 : List Nat) (buf : Buf T V W U) (hant : ant1.length = ant2.length)
    (hchan : start + nrChan ≤ nChan) (hshape : Shaped buf ant1.length nChan nCorr)
    (hne : wanted selbl ant1 ant2 ≠ []) :
    ∃ c out, updateInfo start nrChan nChan nCorr selbl ant1 ant2 = some c ∧
      process c buf = some out ∧
      c.nBlOut = (wanted selbl ant1 ant2).length ∧ c.nChanOut = nrChan ∧
      out.time = buf.time ∧ out.exposure = buf.exposure ∧
      Copied out.data buf.data (wanted selbl ant1 ant2) start nrChan nChan nCorr ∧
      Copied out.flags buf.flags (wanted selbl ant1 ant2) start nrChan nChan nCorr ∧
      Copied out.weights buf.weights (wanted selbl ant1 ant2) start nrChan nChan nCorr ∧
      Copied out.uvw buf.uvw (wanted selbl ant1 ant2) 0 1 1 3 ∧
      (buf.rows = [] → out.rows = []) ∧
      (buf.rows ≠ [] → out.rows.length = (wanted selbl ant1 ant2).length ∧
        ∀ i b : Nat, (wanted selbl ant1 ant2)[i]? = some b → out.rows[i]? = buf.rows[b]?) := by
  have hrowsAll : buf.rows ≠ [] → buf.rows.length = (List.range ant1.length).length ∧
      ∀ i b : Nat, (List.range ant1.length)[i]? = some b → buf.rows[i]? = buf.rows[b]? := by
    intro h
    refine ⟨by simpa using hshape.rows.resolve_left h, ?_⟩
    intro i b hb
    have hi : i < ant1.length := by
      rcases Nat.lt_or_ge i ant1.length with h | h
      · exact h
      · rw [List.getElem?_eq_none (by simpa using h)] at hb; simp at hb
    rw [List.getElem?_range hi, Option.some.injEq] at hb
    rw [hb]
  have huvwAll : Copied buf.uvw buf.uvw (List.range ant1.length) 0 1 1 3 :=
    copied_refl buf.uvw ant1.length 1 3 (by rw [hshape.uvw, Nat.mul_one])
  have hupd : ∃ c, updateInfo start nrChan nChan nCorr selbl ant1 ant2 = some c ∧
      c.startChan = start ∧ c.nBlIn = ant1.length ∧ c.nChanIn = nChan ∧ c.nCorr = nCorr ∧
      c.nChanOut = nrChan ∧
      c.nBlOut = (if c.selBL.isEmpty then ant1.length else c.selBL.length) ∧
      c.selBL = (match selbl with | none => [] | some _ => wanted selbl ant1 ant2) ∧
      (c.doSelect = true ↔ start > 0 ∨ nrChan < nChan ∨
        (selbl.isSome ∧ c.selBL.length < ant1.length)) := by
    refine ⟨_, by rw [updateInfo, if_neg (by omega)], rfl, rfl, rfl, rfl, rfl, rfl, ?_, ?_⟩
    · cases selbl with
      | none => rfl
      | some m =>
        show selectLoop m 0 ant1 ant2 = _
        rw [selectLoop_spec m ant1 ant2 0 hant]
        simp [wanted]
    · simp [or_assoc]
  obtain ⟨c, hc, h1, h2, h3, h4, h5, h6, h7, h8⟩ := hupd
  have hsub : ∀ b ∈ wanted selbl ant1 ant2, b < ant1.length := by
    intro b hb
    cases selbl with
    | none => exact List.mem_range.1 hb
    | some m => exact List.mem_range.1 (List.mem_filter.1 hb).1
  -- the number of baselines
  have hnbl : c.nBlOut = (wanted selbl ant1 ant2).length := by
    rw [h6, h7]
    cases selbl with
    | none => simp [wanted]
    | some m =>
      simp only
      rw [if_neg (by simpa using hne)]
  by_cases hdo : c.doSelect
  · cases selbl with
    | none =>
      have h7' : c.selBL = [] := h7
      obtain ⟨d, hd, hd'⟩ := chanView_ok buf.data ant1.length nChan nCorr start nrChan
        hshape.data hchan
      obtain ⟨f, hf, hf'⟩ := chanView_ok buf.flags ant1.length nChan nCorr start nrChan
        hshape.flags hchan
      obtain ⟨w, hw, hw'⟩ := chanView_ok buf.weights ant1.length nChan nCorr start nrChan
        hshape.weights hchan
      refine ⟨c, ⟨buf.time, buf.exposure, d, f, w, buf.uvw, buf.rows⟩, hc, ?_, hnbl, h5, rfl, rfl,
        hd', hf', hw', huvwAll, id, hrowsAll⟩
      rw [process]
      simp only [hdo, h7', h1, h2, h3, h4, h5, hd, hf, hw]
      rfl
    | some m =>
      have h7' : c.selBL = wanted (some m) ant1 ant2 := h7
      obtain ⟨d, hd, hd'⟩ := copyBaselines_ok buf.data ant1.length nChan nCorr start nrChan
        (wanted (some m) ant1 ant2) hshape.data hchan hsub
      obtain ⟨f, hf, hf'⟩ := copyBaselines_ok buf.flags ant1.length nChan nCorr start nrChan
        (wanted (some m) ant1 ant2) hshape.flags hchan hsub
      obtain ⟨w, hw, hw'⟩ := copyBaselines_ok buf.weights ant1.length nChan nCorr start nrChan
        (wanted (some m) ant1 ant2) hshape.weights hchan hsub
      obtain ⟨u, hu, hu'⟩ := copyBaselines_ok buf.uvw ant1.length 1 3 0 1
        (wanted (some m) ant1 ant2) (by rw [hshape.uvw, Nat.mul_one]) (by omega) hsub
      obtain ⟨r, hr, hr1, hr2⟩ := rows_ok buf.rows (wanted (some m) ant1 ant2) ant1.length
        hshape.rows hsub
      refine ⟨c, ⟨buf.time, buf.exposure, d, f, w, u, r⟩, hc, ?_, hnbl, h5, rfl, rfl, hd', hf', hw',
        hu', hr1, hr2⟩
      have hemp : (wanted (some m) ant1 ant2).isEmpty = false := by simpa using hne
      have hu'' : copyBaselines buf.uvw 0 3 3 (wanted (some m) ant1 ant2) = some u := hu
      rw [process]
      simp only [hdo, h7', hemp, h1, h3, h4, h5, hd, hf, hw, hu'', hr]
      rfl
  · have hno : ¬ (start > 0 ∨ nrChan < nChan ∨ (selbl.isSome ∧ c.selBL.length < ant1.length)) :=
      fun h => hdo (h8.2 h)
    have hs0 : start = 0 := by omega
    have hn : nrChan = nChan := by omega
    have hall : wanted selbl ant1 ant2 = List.range ant1.length := by
      cases selbl with
      | none => rfl
      | some m =>
        have h7' : c.selBL = wanted (some m) ant1 ant2 := h7
        have hlen : ¬ (wanted (some m) ant1 ant2).length < ant1.length := by
          intro h
          exact hno (Or.inr (Or.inr ⟨rfl, by rw [h7']; exact h⟩))
        have hsl : (wanted (some m) ant1 ant2).Sublist (List.range ant1.length) :=
          List.filter_sublist
        exact hsl.eq_of_length_le (by simpa using hlen)
    refine ⟨c, buf, hc, ?_, hnbl, h5, rfl, rfl, ?_, ?_, ?_, ?_, id, ?_⟩
    · rw [process]; simp [hdo]
    · rw [hall, hs0, hn]; exact copied_refl _ _ _ _ hshape.data
    · rw [hall, hs0, hn]; exact copied_refl _ _ _ _ hshape.flags
    · rw [hall, hs0, hn]; exact copied_refl _ _ _ _ hshape.weights
    · rw [hall]; exact huvwAll
    · rw [hall]; exact hrowsAll

/-- Three baselines, three channels, one correlation; the baselines with antenna 2 and the last
two channels are selected. -/
example : ∃ c out, updateInfo 1 2 3 1 (some fun _ b => b == 2) [0, 0, 1] [1, 2, 2] = some c ∧
    process c ({ time := 1, exposure := 1, data := [10, 11, 12, 20, 21, 22, 30, 31, 32]
                 flags := List.replicate 9 false, weights := [0, 1, 2, 3, 4, 5, 6, 7, 8]
                 uvw := [1, 2, 3, 4, 5, 6, 7, 8, 9], rows := [100, 101, 102] } :
                 Buf Nat Nat Nat Nat) = some out ∧
      out.data = [21, 22, 31, 32] ∧ out.weights = [4, 5, 7, 8] ∧ out.uvw = [4, 5, 6, 7, 8, 9] ∧
      out.rows = [101, 102] := ⟨_, _, rfl, rfl, rfl, rfl, rfl, rfl⟩

/-- **C27 fails for an empty selection.**  If no baseline is selected, all baselines are let
through, for every selection and channel range. -/
theorem empty_selection (start nrChan nChan nCorr : Nat) (m : Nat → Nat → Bool)
    (ant1 ant2 : List Nat) (buf : Buf T V W U) (hant : ant1.length = ant2.length)
    (hchan : start + nrChan ≤ nChan) (hshape : Shaped buf ant1.length nChan nCorr)
    (hno : wanted (some m) ant1 ant2 = []) :
    ∃ c out, updateInfo start nrChan nChan nCorr (some m) ant1 ant2 = some c ∧
      process c buf = some out ∧ c.nBlOut = ant1.length ∧
      Copied out.data buf.data (List.range ant1.length) start nrChan nChan nCorr := by
  have hsel : selected (some m) ant1 ant2 = [] := by
    rw [selected, selectLoop_spec m ant1 ant2 0 hant]
    show (wanted (some m) ant1 ant2).map _ = []
    rw [hno]; rfl
  obtain ⟨c, hc, hsl, hbi, hci, hcc, hst, hco, hbo, hds⟩ :
      ∃ c, updateInfo start nrChan nChan nCorr (some m) ant1 ant2 = some c ∧ c.selBL = [] ∧
        c.nBlIn = ant1.length ∧ c.nChanIn = nChan ∧ c.nCorr = nCorr ∧ c.startChan = start ∧
        c.nChanOut = nrChan ∧ c.nBlOut = ant1.length ∧
        (c.doSelect = false → start = 0 ∧ nrChan = nChan) := by
    refine ⟨_, by rw [updateInfo, if_neg (by omega)], hsel, rfl, rfl, rfl, rfl, rfl, ?_, ?_⟩
    · simp [hsel]
    · simp only [Bool.or_eq_false_iff, decide_eq_false_iff_not]
      rintro ⟨h, _⟩; omega
  obtain ⟨d, hd, hd'⟩ := chanView_ok buf.data ant1.length nChan nCorr start nrChan
    hshape.data hchan
  obtain ⟨f, hf, _⟩ := chanView_ok buf.flags ant1.length nChan nCorr start nrChan
    hshape.flags hchan
  obtain ⟨w, hw, _⟩ := chanView_ok buf.weights ant1.length nChan nCorr start nrChan
    hshape.weights hchan
  by_cases hdo : c.doSelect
  · refine ⟨c, ⟨buf.time, buf.exposure, d, f, w, buf.uvw, buf.rows⟩, hc, ?_, hbo, hd'⟩
    rw [process]
    simp only [hdo, hsl, hbi, hci, hcc, hst, hco, hd, hf, hw]
    rfl
  · obtain ⟨hs0, hn⟩ := hds (by simpa using hdo)
    refine ⟨c, buf, hc, by rw [process]; simp [hdo], hbo, ?_⟩
    rw [hs0, hn]; exact copied_refl _ _ _ _ hshape.data

/-- A selection of a station that is in no baseline. -/
example : ∃ c out, updateInfo 0 1 1 1 (some fun _ b => b == 7) [0, 0] [1, 2] = some c ∧
    process c ({ time := 1, exposure := 1, data := [10, 20], flags := [false, true]
                 weights := [1, 1], uvw := [1, 2, 3, 4, 5, 6], rows := [] } :
                 Buf Nat Nat Nat Nat) = some out ∧ out.data = [10, 20] := ⟨_, _, rfl, rfl, rfl⟩

/-! ## C28 -/

private theorem subRange_get (m : List Int) (a b nr j : Nat) :
    (subRange m a b nr)[j]? = (m[j]?).map fun (v : Int) => if a ≤ j ∧ j < b then v - nr else v := by
  rw [subRange, List.getElem?_mapIdx]

private theorem idLoop_spec : ∀ (removed : List Nat) (m : List Int) (nr : Nat),
    removed.Pairwise (· < ·) → (∀ r ∈ removed, r < m.length) → ∀ j, j < m.length →
    (idLoop m nr removed)[j]? =
      if j ∈ removed then some (-1)
      else if removed.any (fun r => decide (r < j)) then
        (m[j]?).map fun (v : Int) => v - ((nr + (removed.filter fun r => decide (r < j)).length : Nat) : Int)
      else m[j]?
  | [], m, nr, _, _, j, _ => by simp [idLoop]
  | [r], m, nr, _, hin, j, hj => by
    have hr := hin r (by simp)
    rw [idLoop, subRange_get, List.getElem?_set]
    by_cases h1 : r = j
    · subst h1
      simp [hj]
    · rw [if_neg h1]
      by_cases h2 : r < j
      · have : r + 1 ≤ j ∧ j < m.length := ⟨h2, hj⟩
        simp [this, h2, Ne.symm h1]
      · have : ¬ (r + 1 ≤ j ∧ j < m.length) := by omega
        simp [this, h2, Ne.symm h1]
  | r :: r' :: rest, m, nr, hs, hin, j, hj => by
    have hr := hin r (by simp)
    have hs' := (List.pairwise_cons.1 hs)
    have hrr : r < r' := hs'.1 r' (by simp)
    rw [idLoop]
    have ih := idLoop_spec (r' :: rest) (subRange (m.set r (-1)) (r + 1) r' (nr + 1)) (nr + 1)
      hs'.2 (by
        intro x hx
        simp only [subRange, List.length_mapIdx, List.length_set]
        exact hin x (List.mem_cons_of_mem _ hx)) j (by
        simpa only [subRange, List.length_mapIdx, List.length_set] using hj)
    rw [ih, subRange_get]
    have hge : ∀ x ∈ r' :: rest, r' ≤ x := by
      intro x hx
      rcases List.mem_cons.1 hx with rfl | hx
      · exact Nat.le_refl _
      · exact Nat.le_of_lt ((List.pairwise_cons.1 hs'.2).1 x hx)
    by_cases hm : j ∈ r' :: rest
    · rw [if_pos hm, if_pos (List.mem_cons_of_mem _ hm)]
    · rw [if_neg hm]
      by_cases h1 : j = r
      · subst h1
        have hany : ¬ (r' :: rest).any (fun x => decide (x < j)) := by
          simp only [List.any_eq_true, decide_eq_true_eq]
          rintro ⟨x, hx, hlt⟩
          have := hge x hx
          omega
        rw [if_neg hany, if_pos (show j ∈ j :: r' :: rest by simp), List.getElem?_set_self hr]
        simp
      · have hm' : j ∉ r :: r' :: rest := by
          intro h
          rcases List.mem_cons.1 h with h | h
          · exact h1 h
          · exact hm h
        rw [if_neg hm', List.getElem?_set_ne (Ne.symm h1)]
        have hjm := List.getElem?_eq_getElem hj
        by_cases hany : (r' :: rest).any (fun x => decide (x < j))
        · -- after the next removed id
          have hlt : r' < j := by
            obtain ⟨x, hx, hlt⟩ := List.any_eq_true.1 hany
            have := hge x hx
            have : x < j := by simpa using hlt
            omega
          have hany2 : (r :: r' :: rest).any (fun x => decide (x < j)) := by
            rw [List.any_cons, hany]; simp
          rw [if_pos hany, if_pos hany2]
          have hnot : ¬ (r + 1 ≤ j ∧ j < r') := by omega
          have hf : ((r :: r' :: rest).filter fun x => decide (x < j)) =
              r :: (r' :: rest).filter fun x => decide (x < j) :=
            List.filter_cons_of_pos (by simp; omega)
          rw [hf, List.length_cons, hjm]
          simp only [Option.map_some, hnot, if_false]
          congr 2
          omega
        · rw [if_neg hany]
          have hge' : j < r' := by
            have : ¬ r' < j := by
              intro h
              exact hany (List.any_eq_true.2 ⟨r', by simp, by simpa using h⟩)
            have : j ≠ r' := fun h => hm (by simp [h])
            omega
          have hfilter : (r' :: rest).filter (fun x => decide (x < j)) = [] := by
            apply List.filter_eq_nil_iff.2
            intro x hx
            have := hge x hx
            simp; omega
          by_cases h2 : r < j
          · have hany2 : (r :: r' :: rest).any (fun x => decide (x < j)) := by
              rw [List.any_cons]; simp [h2]
            rw [if_pos hany2, List.filter_cons_of_pos (by simpa using h2), hfilter]
            have : r + 1 ≤ j ∧ j < r' := ⟨h2, hge'⟩
            simp [this]
          · have hany2 : ¬ (r :: r' :: rest).any (fun x => decide (x < j)) := by
              rw [List.any_cons]
              simp only [Bool.not_eq_true] at hany
              simp [h2, hany]
            rw [if_neg hany2]
            have : ¬ (r + 1 ≤ j ∧ j < r') := by omega
            simp [this]

/-- The number of ids below `j` that are kept. -/
def keptBelow (removed : List Nat) (j : Nat) : Nat :=
  ((List.range j).filter fun i => decide (i ∉ removed)).length

private theorem kept_add (removed : List Nat) (hs : removed.Pairwise (· < ·)) (j : Nat) :
    keptBelow removed j + (removed.filter fun r => decide (r < j)).length = j := by
  have h1 : ((List.range j).filter fun i => decide (i ∈ removed)) =
      removed.filter fun r => decide (r < j) := by
    apply List.Perm.eq_of_pairwise (le := (· < ·))
    · intro a b _ _ h1 h2; omega
    · exact (List.pairwise_lt_range).filter _
    · exact hs.filter _
    · rw [List.perm_ext_iff_of_nodup]
      · intro a; simp [and_comm]
      · exact List.nodup_range.filter _
      · exact (hs.imp (fun h => Nat.ne_of_lt h)).filter _
  rw [← h1, keptBelow]
  have := (List.range j).length_eq_length_filter_add (fun i => decide (i ∉ removed))
  simp only [List.length_range, decide_not, Bool.not_not] at this
  simp only [decide_not]
  omega

/-- **C28.**  The id map used to renumber the subtables sends each removed id to -1 and each kept
id to the number of kept ids below it. -/
theorem createIdMap_spec (n : Nat) (removed : List Nat) (hne : removed ≠ [])
    (hs : removed.Pairwise (· < ·)) (hin : ∀ r ∈ removed, r < n) :
    ∃ m, createIdMap n removed = some m ∧ m.length = n ∧
      ∀ j, j < n → m[j]? = some (if j ∈ removed then -1 else (keptBelow removed j : Int)) := by
  have hcond : ¬ (removed = [] ∨ ¬ ∀ r ∈ removed, r < n) := by
    rintro (h | h)
    · exact hne h
    · exact h hin
  have hlen : ∀ (removed : List Nat) (m : List Int) (nr : Nat),
      (idLoop m nr removed).length = m.length := by
    intro removed
    induction removed with
    | nil => intro m nr; rfl
    | cons r rest ih =>
      intro m nr
      cases rest with
      | nil => simp [idLoop, subRange]
      | cons r' rest => rw [idLoop, ih]; simp [subRange]
  refine ⟨_, by rw [createIdMap, if_neg hcond], by rw [hlen]; simp, ?_⟩
  intro j hj
  rw [idLoop_spec removed _ 0 hs (by simpa using hin) j (by simpa using hj)]
  have hget : ((List.range n).map fun (j : Nat) => (j : Int))[j]? = some (j : Int) := by
    rw [List.getElem?_map, List.getElem?_range hj]; rfl
  rw [hget]
  have hk := kept_add removed hs j
  by_cases hm : j ∈ removed
  · simp [hm]
  · rw [if_neg hm, if_neg hm]
    by_cases ha : removed.any (fun r => decide (r < j))
    · rw [if_pos ha, Option.map_some]
      congr 1
      omega
    · rw [if_neg ha]
      have : removed.filter (fun r => decide (r < j)) = [] := by
        apply List.filter_eq_nil_iff.2
        intro x hx hlt
        exact ha (List.any_eq_true.2 ⟨x, hx, hlt⟩)
      rw [this] at hk
      simp only [List.length_nil, Nat.add_zero] at hk
      rw [hk]

/-- Ids 1, 2 and 5 of seven are removed. -/
example : createIdMap 7 [1, 2, 5] = some [0, -1, -1, 1, 2, -1, 3] := by decide

private theorem rowNumbers_spec {α : Type} (p : α → Bool) : ∀ (l : List α) (i : Nat),
    rowNumbers p i l =
      ((List.range l.length).filter fun k => (l[k]?).any p).map (i + ·)
  | [], i => rfl
  | x :: xs, i => by
    have ih := rowNumbers_spec p xs (i + 1)
    rw [rowNumbers, ih, List.length_cons, List.range_succ_eq_map, List.filter_cons,
      List.filter_map]
    have hcomp : ((fun k => ((x :: xs)[k]?).any p) ∘ Nat.succ) = fun k => (xs[k]?).any p := by
      funext k; simp [Function.comp]
    simp only [hcomp]
    have hmap : ∀ l : List Nat, l.map (i + 1 + ·) = (l.map Nat.succ).map (i + ·) := by
      intro l
      rw [List.map_map]
      apply List.map_congr_left
      intro k _
      simp only [Function.comp]; omega
    rw [hmap]
    by_cases hx : p x
    · simp [hx]
    · simp [hx]

private theorem mem_rowNumbers {α : Type} (p : α → Bool) (l : List α) (k : Nat) :
    k ∈ rowNumbers p 0 l ↔ ∃ x, l[k]? = some x ∧ p x := by
  rw [rowNumbers_spec]
  simp only [Nat.zero_add, List.map_id', List.mem_filter, List.mem_range]
  constructor
  · rintro ⟨hk, h⟩
    rw [List.getElem?_eq_getElem hk] at h ⊢
    exact ⟨_, rfl, by simpa using h⟩
  · rintro ⟨x, hx, hp⟩
    refine ⟨(List.getElem?_eq_some_iff.1 hx).1, ?_⟩
    rw [hx]; simpa using hp

private theorem rowNumbers_sorted {α : Type} (p : α → Bool) (l : List α) :
    (rowNumbers p 0 l).Pairwise (· < ·) := by
  rw [rowNumbers_spec]
  simp only [Nat.zero_add, List.map_id']
  exact (List.pairwise_lt_range).filter _

private theorem removeRows_filter {α : Type} (p : α → Bool) : ∀ (l : List α) (i : Nat)
    (removed : List Nat), (∀ k, i + k ∈ removed ↔ ∃ x, l[k]? = some x ∧ p x) →
    removeRows removed i l = l.filter fun x => !p x
  | [], _, _, _ => rfl
  | x :: xs, i, removed, h => by
    rw [removeRows, removeRows_filter p xs (i + 1) removed (by
      intro k
      have := h (k + 1)
      rw [show i + 1 + k = i + (k + 1) by omega, this]
      simp)]
    have h0 := h 0
    simp only [Nat.add_zero, List.getElem?_cons_zero, Option.some.injEq, exists_eq_left'] at h0
    by_cases hx : p x
    · rw [if_pos (h0.2 hx)]; simp [hx]
    · rw [if_neg (fun hc => hx (h0.1 hc))]; simp [hx]

private theorem removeRows_get {α : Type} (removed : List Nat) : ∀ (l : List α) (i j : Nat),
    i + j ∉ removed → j < l.length →
    (removeRows removed i l)[((List.range j).filter fun k => decide (i + k ∉ removed)).length]? =
      l[j]?
  | [], _, _, _, hj => by simp at hj
  | x :: xs, i, 0, h, _ => by
    rw [removeRows, if_neg (by simpa using h)]; simp
  | x :: xs, i, j + 1, h, hj => by
    have ih := removeRows_get removed xs (i + 1) j
      (by rw [show i + 1 + j = i + (j + 1) by omega]; exact h) (by simpa using hj)
    rw [removeRows, List.range_succ_eq_map, List.filter_cons, List.filter_map]
    have hcomp : ((fun k => decide (i + k ∉ removed)) ∘ Nat.succ) =
        fun k => decide (i + 1 + k ∉ removed) := by
      funext k
      simp only [Function.comp, Nat.succ_eq_add_one, show i + (k + 1) = i + 1 + k by omega]
    rw [hcomp, List.getElem?_cons_succ, ← ih]
    by_cases hi : i ∈ removed
    · simp [hi]
    · simp [hi]

/-- What a renumbered subtable has to be: the rows that refer to a removed row of the table `tab`
are gone, the others are there in the same order, and each refers to the row of the new table
`tab'` that is the row it referred to. -/
def Follows {A α : Type} (tab tab' : List A) (removed : List Nat) (sub sub' : Sub α) : Prop :=
  sub'.map (fun r => (tab'[r.1]?, r.2)) =
    (sub.filter fun r => decide (r.1 ∉ removed)).map (fun r => (tab[r.1]?, r.2)) ∧
  ∀ r ∈ sub', r.1 < tab'.length

private theorem renumber_spec {A α : Type} (tab : List A) (removed : List Nat)
    (hne : removed ≠ []) (hs : removed.Pairwise (· < ·)) (hin : ∀ r ∈ removed, r < tab.length)
    (sub : Sub α) (hsub : ∀ r ∈ sub, r.1 < tab.length) :
    ∃ m sub' rem, createIdMap tab.length removed = some m ∧ renumber sub removed m = some (sub', rem) ∧
      rem = rowNumbers (fun r => decide (r.1 ∈ removed)) 0 sub ∧
      Follows tab (removeRows removed 0 tab) removed sub sub' := by
  obtain ⟨m, hm, hlen, hget⟩ := createIdMap_spec tab.length removed hne hs hin
  have hmap : ∀ l : Sub α, (∀ r ∈ l, r.1 < tab.length ∧ r.1 ∉ removed) →
      (l.mapM fun (r : Nat × α) => ((m[r.1]?).bind Int.toNat?).map fun n => (n, r.2)) =
        some (l.map fun r => (keptBelow removed r.1, r.2)) := by
    intro l
    induction l with
    | nil => intro _; rfl
    | cons r l ih =>
      intro h
      obtain ⟨h1, h2⟩ := h r (by simp)
      rw [List.mapM_cons, ih fun x hx => h x (List.mem_cons_of_mem _ hx), hget r.1 h1, if_neg h2]
      rfl
  have hrem : removeRows (rowNumbers (fun r : Nat × α => decide (r.1 ∈ removed)) 0 sub) 0 sub =
      sub.filter fun r => decide (r.1 ∉ removed) := by
    rw [removeRows_filter (fun r : Nat × α => decide (r.1 ∈ removed)) sub 0]
    · simp only [decide_not]
    · intro k; rw [Nat.zero_add]; exact mem_rowNumbers _ _ _
  have hfil : ∀ r ∈ sub.filter (fun r => decide (r.1 ∉ removed)),
      r.1 < tab.length ∧ r.1 ∉ removed := by
    intro r hr
    obtain ⟨h1, h2⟩ := List.mem_filter.1 hr
    exact ⟨hsub r h1, by simpa using h2⟩
  have hrow : ∀ r ∈ sub.filter (fun r => decide (r.1 ∉ removed)),
      (removeRows removed 0 tab)[keptBelow removed r.1]? = tab[r.1]? := by
    intro r hr
    obtain ⟨h1, h2⟩ := hfil r hr
    have := removeRows_get removed tab 0 r.1 (by rw [Nat.zero_add]; exact h2) h1
    simpa only [Nat.zero_add, keptBelow] using this
  refine ⟨m, _, _, hm, by
    rw [renumber, hrem, hmap _ hfil]; rfl, rfl, ?_, ?_⟩
  · rw [List.map_map]
    apply List.map_congr_left
    intro r hr
    simp only [Function.comp]
    rw [hrow r hr]
  · intro x hx
    obtain ⟨r, hr, rfl⟩ := List.mem_map.1 hx
    have := hrow r hr
    rw [List.getElem?_eq_getElem (hfil r hr).1] at this
    exact (List.getElem?_eq_some_iff.1 this).1

/-- The rows of a measurement set refer to existing rows. -/
structure Valid {A B C D : Type} (ms : Ms A B C D) : Prop where
  feed : ∀ r ∈ ms.feed, r.1 < ms.antenna.length
  field : ∀ r ∈ ms.field, r.1 < ms.antenna.length
  failure : ∀ r ∈ ms.failure, r.1 < ms.field.length

private theorem follows_refl {A α : Type} (tab : List A) (sub : Sub α)
    (h : ∀ r ∈ sub, r.1 < tab.length) : Follows tab tab [] sub sub := by
  constructor
  · rw [List.filter_eq_self.2 (by simp)]
  · exact h

/-- The numbers of the antennas whose name is not kept. -/
def gone {A : Type} (keep : A → Bool) (l : List A) : List Nat :=
  (List.range l.length).filter fun k => (l[k]?).any fun a => !keep a

/-- **C28.**  After `addToMS` with `remove=true` the antenna table holds the rows of the kept
antennas in order; in the subtables the rows of removed antennas are gone and each remaining row
refers to the same antenna as before; and the element failures refer to the same antenna field as
before, or are gone with it.  No row refers to a row outside of its table. -/
theorem addToMS_spec {A B C D : Type} (keep : A → Bool) (ms : Ms A B C D) (hv : Valid ms) :
    ∃ ms', addToMS true keep ms = some ms' ∧ ms'.antenna = ms.antenna.filter keep ∧
      Follows ms.antenna ms'.antenna (gone keep ms.antenna) ms.feed ms'.feed ∧
      Follows ms.antenna ms'.antenna (gone keep ms.antenna) ms.field ms'.field ∧
      Follows ms.field (ms.field.filter fun r => decide (r.1 ∉ gone keep ms.antenna))
        ((List.range ms.field.length).filter fun k =>
          (ms.field[k]?).any fun r => decide (r.1 ∈ gone keep ms.antenna)) ms.failure ms'.failure ∧
      Valid ms' := by
  have hgone : rowNumbers (fun a => !keep a) 0 ms.antenna = gone keep ms.antenna := by
    rw [rowNumbers_spec]; simp [gone]
  have hantfilter : removeRows (gone keep ms.antenna) 0 ms.antenna = ms.antenna.filter keep := by
    rw [← hgone, removeRows_filter (fun a => !keep a) ms.antenna 0]
    · simp
    · intro k; rw [Nat.zero_add]; exact mem_rowNumbers _ _ _
  by_cases he : gone keep ms.antenna = []
  · have hfe : ms.antenna.filter keep = ms.antenna := by
      rw [← hantfilter, he]
      have : ∀ (l : List A) (i : Nat), removeRows [] i l = l := by
        intro l
        induction l with
        | nil => intro i; rfl
        | cons x xs ih => intro i; rw [removeRows, if_neg (by simp), ih]
      exact this _ _
    refine ⟨ms, ?_, hfe.symm, ?_, ?_, ?_, hv⟩
    · rw [addToMS]
      simp only [hgone, he]
      rfl
    · rw [he]; exact follows_refl _ _ hv.feed
    · rw [he]; exact follows_refl _ _ hv.field
    · rw [he]
      have h1 : (ms.field.filter fun r => decide (r.1 ∉ ([] : List Nat))) = ms.field :=
        List.filter_eq_self.2 (by simp)
      have h2 : ((List.range ms.field.length).filter fun k =>
          (ms.field[k]?).any fun r => decide (r.1 ∈ ([] : List Nat))) = [] := by
        apply List.filter_eq_nil_iff.2
        intro k _
        cases ms.field[k]? <;> simp
      rw [h1, h2]
      exact follows_refl _ _ hv.failure
  · have hs : (gone keep ms.antenna).Pairwise (· < ·) := by
      rw [← hgone]; exact rowNumbers_sorted _ _
    have hin : ∀ r ∈ gone keep ms.antenna, r < ms.antenna.length := by
      intro r hr; exact List.mem_range.1 (List.mem_filter.1 hr).1
    obtain ⟨m, feed, rem1, hm, hr1, _, hf1⟩ := renumber_spec ms.antenna (gone keep ms.antenna) he hs
      hin ms.feed hv.feed
    obtain ⟨m', field, rem2, hm', hr2, hrem2, hf2⟩ :=
      renumber_spec ms.antenna (gone keep ms.antenna) he hs hin ms.field hv.field
    rw [hm, Option.some.injEq] at hm'
    subst hm'
    rw [hantfilter] at hf1 hf2
    have hlenfield : (ms.field.filter fun r => decide (r.1 ∉ gone keep ms.antenna)).length =
        field.length := by
      have := congrArg List.length hf2.1
      simpa using this.symm
    have hrem2' : rem2 = (List.range ms.field.length).filter fun k =>
        (ms.field[k]?).any fun r => decide (r.1 ∈ gone keep ms.antenna) := by
      rw [hrem2, rowNumbers_spec]; simp
    by_cases he2 : rem2 = []
    · have hnone : (ms.field.filter fun r => decide (r.1 ∉ gone keep ms.antenna)) = ms.field := by
        apply List.filter_eq_self.2
        intro r hr
        obtain ⟨k, hk⟩ := List.mem_iff_getElem?.1 hr
        by_contra hc
        have : k ∈ rem2 := by
          rw [hrem2]
          exact (mem_rowNumbers _ _ _).2 ⟨r, hk, by simpa using hc⟩
        rw [he2] at this
        simp at this
      refine ⟨⟨ms.antenna.filter keep, feed, field, ms.failure⟩, ?_, rfl, hf1, hf2, ?_, ?_⟩
      · rw [addToMS]
        have h1 : (gone keep ms.antenna).isEmpty = false := by simpa using he
        simp only [hgone, hm, h1, Option.bind_eq_bind, Option.bind_some, hr1, hr2, he2, hantfilter]
        rfl
      · rw [← hrem2', he2, hnone]
        exact follows_refl _ _ hv.failure
      · refine ⟨hf1.2, hf2.2, ?_⟩
        intro r hr
        show r.1 < field.length
        rw [← hlenfield, hnone]
        exact hv.failure r hr
    · obtain ⟨m2, failure, rem3, hm2, hr3, _, hf3⟩ := renumber_spec ms.field rem2 he2
        (by rw [hrem2]; exact rowNumbers_sorted _ _)
        (by
          intro r hr
          rw [hrem2'] at hr
          exact List.mem_range.1 (List.mem_filter.1 hr).1) ms.failure hv.failure
      have hrf : removeRows rem2 0 ms.field =
          ms.field.filter fun r => decide (r.1 ∉ gone keep ms.antenna) := by
        rw [hrem2, removeRows_filter (fun r => decide (r.1 ∈ gone keep ms.antenna)) ms.field 0]
        · simp only [decide_not]
        · intro k; rw [Nat.zero_add]; exact mem_rowNumbers _ _ _
      rw [hrf] at hf3
      refine ⟨⟨ms.antenna.filter keep, feed, field, failure⟩, ?_, rfl, hf1, hf2, ?_, ?_⟩
      · rw [addToMS]
        have h1 : (gone keep ms.antenna).isEmpty = false := by simpa using he
        have h2 : rem2.isEmpty = false := by simpa using he2
        simp only [hgone, hm, h1, Option.bind_eq_bind, Option.bind_some, hr1, hr2, h2, hm2, hr3,
          hantfilter]
        rfl
      · rw [← hrem2']; exact hf3
      · refine ⟨hf1.2, hf2.2, ?_⟩
        intro r hr
        show r.1 < field.length
        rw [← hlenfield]
        exact hf3.2 r hr

/-- Antenna 11 of three is removed, with its feed, its antenna fields and their failures. -/
example : ∃ ms', addToMS true (fun a => a != 11)
    { antenna := [10, 11, 12], feed := [(0, 'a'), (1, 'b'), (2, 'c')]
      field := [(0, 'A'), (1, 'B'), (1, 'C'), (2, 'D')], failure := [(3, 'x'), (2, 'y'), (0, 'z')] }
      = some ms' ∧ ms'.antenna = [10, 12] ∧ ms'.feed = [(0, 'a'), (1, 'c')] ∧
        ms'.field = [(0, 'A'), (1, 'D')] ∧ ms'.failure = [(1, 'x'), (0, 'z')] :=
  ⟨_, rfl, rfl, rfl, rfl, rfl⟩

end DP3.Filter
