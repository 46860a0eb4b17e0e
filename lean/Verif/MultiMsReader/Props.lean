import Verif.MultiMsReader.Model
import Verif.MsReader.Props
import Mathlib.Data.List.Flatten

/-!
C19, C58.
-/

namespace DP3.MultiMsReader

set_option linter.unusedSectionVars false

variable {F V W : Type}

/-- The number of channels a reader contributes. -/
def width (nfill : Nat) (r : Option (Source F V W)) : Nat :=
  match r with
  | some s => s.freqs.length
  | none => nfill

/-- The channel where reader `i` starts: the channels of the readers before it. -/
def offset (nfill : Nat) (readers : List (Option (Source F V W))) (i : Nat) : Nat :=
  ((readers.take i).map (width nfill)).sum

private theorem width_nchan (nfill : Nat) (s : Source F V W) : width nfill (some s) = s.nchan := rfl

private theorem offset_succ (nfill : Nat) (r : Option (Source F V W)) (rest) (i : Nat) :
    offset nfill (r :: rest) (i + 1) = width nfill r + offset nfill rest i := by
  simp [offset]

/-- What the data, flags and weights of reader `r` at channel `c` must be. -/
def Good [Zero V] [Zero W] (buf : Buffer V W) (r : Option (Source F V W)) (pos b c q : Nat) : Prop :=
  match r with
  | some s => buf.data b pos q = s.data b c q ∧ buf.flags b pos q = s.flags b c q ∧
      buf.weights b pos q = s.weights b c q
  | none => buf.data b pos q = 0 ∧ buf.flags b pos q = true ∧ buf.weights b pos q = 0

private theorem setRange_below {X : Type} (cube src : Cube X) (f l b c q : Nat) (h : c < f) :
    setRange cube f l src b c q = cube b c q := by
  unfold setRange; rw [if_neg (by omega)]

private theorem setRange_in {X : Type} (cube src : Cube X) (f n b c q : Nat) (h : c < n) :
    setRange cube f (f + n) src b (f + c) q = src b c q := by
  unfold setRange; rw [if_pos (by omega)]; congr 1; omega

private theorem joinLoop_spec [Zero V] (nfill : Nat) :
    ∀ (readers : List (Option (Source F V W))) (pos : Nat) (buf out : Buffer V W),
      joinLoop nfill readers pos buf = some out →
      out.weights = buf.weights ∧
      (∀ b c q, c < pos → out.data b c q = buf.data b c q ∧ out.flags b c q = buf.flags b c q) ∧
      ∀ i r, readers[i]? = some r → ∀ b c q, c < width nfill r →
        match r with
        | some s => out.data b (pos + offset nfill readers i + c) q = s.data b c q ∧
            out.flags b (pos + offset nfill readers i + c) q = s.flags b c q
        | none => out.data b (pos + offset nfill readers i + c) q = 0 ∧
            out.flags b (pos + offset nfill readers i + c) q = true := by
  intro readers
  induction readers with
  | nil =>
    intro pos buf out h
    simp only [joinLoop, Option.some.injEq] at h
    subst h
    exact ⟨rfl, fun _ _ _ _ => ⟨rfl, rfl⟩, by simp⟩
  | cons r rest ih =>
    intro pos buf out h
    cases r with
    | some s =>
      simp only [joinLoop] at h
      split at h
      · simp at h
      obtain ⟨h1, h2, h3⟩ := ih _ _ _ h
      refine ⟨h1, fun b c q hc => ?_, ?_⟩
      · have := h2 b c q (by omega)
        simp only [setRange_below _ _ _ _ b c q hc] at this
        exact this
      · intro i r hr b c q hc
        cases i with
        | zero =>
          simp at hr
          subst hr
          have := h2 b (pos + c) q (by simp only [width] at hc; simp only [Source.nchan]; omega)
          simp only [setRange_in _ _ pos s.nchan b c q hc] at this
          simpa [offset] using this
        | succ i =>
          have := h3 i r (by simpa using hr) b c q hc
          rw [offset_succ]
          rw [show pos + (width nfill (some s) + offset nfill rest i) + c
            = pos + s.nchan + offset nfill rest i + c by rw [width_nchan]; omega]
          exact this
    | none =>
      simp only [joinLoop] at h
      obtain ⟨h1, h2, h3⟩ := ih _ _ _ h
      refine ⟨h1, fun b c q hc => ?_, ?_⟩
      · have := h2 b c q (by omega)
        simp only [setRange_below _ _ _ _ b c q hc] at this
        exact this
      · intro i r hr b c q hc
        cases i with
        | zero =>
          simp at hr
          subst hr
          have := h2 b (pos + c) q (by simp only [width] at hc; omega)
          simp only [setRange_in _ _ pos nfill b c q hc] at this
          simpa [offset] using this
        | succ i =>
          have := h3 i r (by simpa using hr) b c q hc
          rw [offset_succ]
          rw [show pos + (width nfill (none : Option (Source F V W)) + offset nfill rest i) + c
            = pos + nfill + offset nfill rest i + c by simp only [width]; omega]
          exact this

private theorem weightsLoop_spec [Zero W] (nfill : Nat) :
    ∀ (readers : List (Option (Source F V W))) (pos : Nat) (buf : Buffer V W),
      (weightsLoop nfill readers pos buf).data = buf.data ∧
      (weightsLoop nfill readers pos buf).flags = buf.flags ∧
      (∀ b c q, c < pos → (weightsLoop nfill readers pos buf).weights b c q = buf.weights b c q) ∧
      ∀ i r, readers[i]? = some r → ∀ b c q, c < width nfill r →
        match r with
        | some s => (weightsLoop nfill readers pos buf).weights b
            (pos + offset nfill readers i + c) q = s.weights b c q
        | none => (weightsLoop nfill readers pos buf).weights b
            (pos + offset nfill readers i + c) q = 0 := by
  intro readers
  induction readers with
  | nil => intro pos buf; exact ⟨rfl, rfl, fun _ _ _ _ => rfl, by simp⟩
  | cons r rest ih =>
    intro pos buf
    cases r with
    | some s =>
      simp only [weightsLoop]
      obtain ⟨h0, h1, h2, h3⟩ := ih (pos + s.nchan)
        { buf with weights := setRange buf.weights pos (pos + s.nchan) s.weights }
      refine ⟨h0, h1, fun b c q hc => ?_, ?_⟩
      · rw [h2 b c q (by omega)]; exact setRange_below _ _ _ _ b c q hc
      · intro i r hr b c q hc
        cases i with
        | zero =>
          simp at hr
          subst hr
          have := h2 b (pos + c) q (by simp only [width] at hc; simp only [Source.nchan]; omega)
          simp only [setRange_in _ _ pos s.nchan b c q hc] at this
          simpa [offset] using this
        | succ i =>
          have := h3 i r (by simpa using hr) b c q hc
          rw [offset_succ]
          rw [show pos + (width nfill (some s) + offset nfill rest i) + c
            = pos + s.nchan + offset nfill rest i + c by rw [width_nchan]; omega]
          exact this
    | none =>
      simp only [weightsLoop]
      obtain ⟨h0, h1, h2, h3⟩ := ih (pos + nfill)
        { buf with weights := setRange buf.weights pos (pos + nfill) fun _ _ _ => 0 }
      refine ⟨h0, h1, fun b c q hc => ?_, ?_⟩
      · rw [h2 b c q (by omega)]; exact setRange_below buf.weights (fun _ _ _ => 0) _ _ b c q hc
      · intro i r hr b c q hc
        cases i with
        | zero =>
          simp at hr
          subst hr
          have := h2 b (pos + c) q (by simp only [width] at hc; omega)
          simp only [setRange_in _ _ pos nfill b c q hc] at this
          simpa [offset] using this
        | succ i =>
          have := h3 i r (by simpa using hr) b c q hc
          rw [offset_succ]
          rw [show pos + (width nfill (none : Option (Source F V W)) + offset nfill rest i) + c
            = pos + nfill + offset nfill rest i + c by simp only [width]; omega]
          exact this

/-- C19: the channels of measurement set `i` are directly after those of the
measurement sets before it, in data, flags and weights; a missing one has zero data
and weights and is flagged. -/
theorem process_spec [Zero V] [Zero W] (nfill : Nat) (readers : List (Option (Source F V W)))
    (buf out : Buffer V W) (h : process nfill readers buf = some out) (i : Nat)
    (r : Option (Source F V W)) (hr : readers[i]? = some r) (b c q : Nat) (hc : c < width nfill r) :
    Good out r (offset nfill readers i + c) b c q := by
  simp only [process, Option.map_eq_some_iff] at h
  obtain ⟨mid, h1, rfl⟩ := h
  obtain ⟨_, _, hj⟩ := joinLoop_spec nfill readers 0 buf mid h1
  obtain ⟨hd, hf, _, hw⟩ := weightsLoop_spec nfill readers 0 mid
  have hj := hj i r hr b c q hc
  have hw := hw i r hr b c q hc
  rw [Nat.zero_add] at hj hw
  cases r with
  | some s => exact ⟨by rw [hd]; exact hj.1, by rw [hf]; exact hj.2, hw⟩
  | none => exact ⟨by rw [hd]; exact hj.1, by rw [hf]; exact hj.2, hw⟩

/-- The time slot is rejected exactly when a measurement set has no rows for it. -/
theorem process_rejects [Zero V] [Zero W] (nfill : Nat) (readers : List (Option (Source F V W)))
    (buf : Buffer V W) :
    process nfill readers buf = none ↔ ∃ s, some s ∈ readers ∧ s.rows = false := by
  have : ∀ (readers : List (Option (Source F V W))) (pos : Nat) (buf : Buffer V W),
      joinLoop nfill readers pos buf = none ↔ ∃ s, some s ∈ readers ∧ s.rows = false := by
    intro readers
    induction readers with
    | nil => intro pos buf; simp [joinLoop]
    | cons r rest ih =>
      intro pos buf
      cases r with
      | some s =>
        simp only [joinLoop]
        by_cases hs : s.rows = false
        · rw [if_pos hs]
          simp only [true_iff]
          exact ⟨s, by simp, hs⟩
        · rw [if_neg hs, ih]
          constructor
          · rintro ⟨t, ht, h⟩; exact ⟨t, by simp [ht], h⟩
          · rintro ⟨t, ht, h⟩
            rcases List.mem_cons.mp ht with he | ht
            · simp at he; subst he; exact absurd h hs
            · exact ⟨t, ht, h⟩
      | none =>
        simp only [joinLoop]
        rw [ih]
        simp
  simp only [process, Option.map_eq_none_iff, this]

/-! ### The channel axis -/

section axis
variable [Field F] [LinearOrder F] [IsStrictOrderedRing F] [Inhabited F]

private theorem missingFreqs_spec (chanw : F) :
    ∀ (n : Nat) (freq : F), missingFreqs chanw n freq
      = ((List.range n).map fun (j : Nat) => freq + j * chanw, freq + n * chanw) := by
  intro n
  induction n with
  | zero => intro freq; simp [missingFreqs]
  | succ n ih =>
    intro freq
    simp only [missingFreqs, ih]
    rw [List.range_succ_eq_map, List.map_cons, List.map_map]
    simp only [Nat.cast_zero, zero_mul, add_zero, Prod.mk.injEq, List.cons.injEq, true_and]
    constructor
    · apply List.map_congr_left
      intro j _
      simp only [Function.comp]
      push_cast
      ring
    · push_cast; ring

/-- The frequency axis of one reader. -/
def ReaderAxis (nfill : Nat) (chanw : F) (freqs widths : List F) (pos : Nat)
    (r : Option (Source F V W)) : Prop :=
  match r with
  | some s => ∀ c < s.freqs.length, freqs[pos + c]? = s.freqs[c]? ∧ widths[pos + c]? = s.widths[c]?
  | none => ∃ f0, ∀ c < nfill, freqs[pos + c]? = some (f0 + (c : F) * chanw) ∧
      widths[pos + c]? = some chanw

private theorem readerAxis_append {nfill : Nat} {chanw : F} {fs ws : List F} {pos : Nat}
    {r : Option (Source F V W)} (pre pre' : List F) (n : Nat) (h1 : pre.length = n)
    (h2 : pre'.length = n) (h : ReaderAxis nfill chanw fs ws pos r) :
    ReaderAxis nfill chanw (pre ++ fs) (pre' ++ ws) (n + pos) r := by
  have e1 : ∀ c, (pre ++ fs)[n + pos + c]? = fs[pos + c]? := fun c => by
    rw [List.getElem?_append_right (by omega)]; congr 1; omega
  have e2 : ∀ c, (pre' ++ ws)[n + pos + c]? = ws[pos + c]? := fun c => by
    rw [List.getElem?_append_right (by omega)]; congr 1; omega
  cases r with
  | some s =>
    intro c hc
    rw [e1, e2]
    exact h c hc
  | none =>
    obtain ⟨f0, h⟩ := h
    refine ⟨f0, fun c hc => ?_⟩
    rw [e1, e2]
    exact h c hc

private theorem fillLoop_spec (near : F → F → Bool) (nfill : Nat) (chanw : F) :
    ∀ (readers : List (Option (Source F V W))) (freq : F) (fs ws : List F),
      (∀ s, some s ∈ readers → s.widths.length = s.freqs.length) →
      fillLoop near nfill chanw readers freq = some (fs, ws) →
      fs.length = offset nfill readers readers.length ∧
      ws.length = offset nfill readers readers.length ∧
      ∀ i r, readers[i]? = some r → ReaderAxis nfill chanw fs ws (offset nfill readers i) r := by
  intro readers
  induction readers with
  | nil =>
    intro freq fs ws _ h
    simp [fillLoop] at h
    obtain ⟨rfl, rfl⟩ := h
    simp [offset]
  | cons r rest ih =>
    intro freq fs ws hlen h
    have hlen' : ∀ s, some s ∈ rest → s.widths.length = s.freqs.length :=
      fun s hs => hlen s (by simp [hs])
    cases r with
    | some s =>
      simp only [fillLoop] at h
      split at h
      · simp at h
      rename_i hn
      split at h
      · simp at h
      rw [Option.map_eq_some_iff] at h
      obtain ⟨⟨fs', ws'⟩, h1, h2⟩ := h
      obtain ⟨rfl, rfl⟩ := Prod.mk.inj h2
      have hn' : s.freqs.length = nfill := by simpa [Source.nchan] using hn
      have hw' : s.widths.length = nfill := by rw [hlen s (by simp), hn']
      rw [List.take_of_length_le (by omega), List.take_of_length_le (by omega)]
      obtain ⟨i1, i2, i3⟩ := ih _ _ _ hlen' h1
      refine ⟨?_, ?_, ?_⟩
      · rw [List.length_append, i1, List.length_cons, offset_succ, width_nchan]; rfl
      · rw [List.length_append, i2, List.length_cons, offset_succ, width_nchan, hw', ← hn']; rfl
      · intro i r hr
        cases i with
        | zero =>
          simp at hr
          subst hr
          intro c hc
          simp only [offset, List.take_zero, List.map_nil, List.sum_nil, Nat.zero_add]
          rw [List.getElem?_append_left hc, List.getElem?_append_left (by omega)]
          exact ⟨rfl, rfl⟩
        | succ i =>
          rw [offset_succ, width_nchan]
          exact readerAxis_append _ _ _ rfl (by rw [hw', ← hn']; rfl) (i3 i r (by simpa using hr))
    | none =>
      simp only [fillLoop] at h
      rw [Option.map_eq_some_iff] at h
      obtain ⟨⟨fs', ws'⟩, h1, h2⟩ := h
      obtain ⟨rfl, rfl⟩ := Prod.mk.inj h2
      rw [missingFreqs_spec] at h1 ⊢
      simp only at h1 ⊢
      obtain ⟨i1, i2, i3⟩ := ih _ _ _ hlen' h1
      refine ⟨?_, ?_, ?_⟩
      · simp [i1, offset_succ, width]
      · simp [i2, offset_succ, width]
      · intro i r hr
        cases i with
        | zero =>
          simp at hr
          subst hr
          refine ⟨freq, fun c hc => ?_⟩
          simp only [offset, List.take_zero, List.map_nil, List.sum_nil, Nat.zero_add]
          rw [List.getElem?_append_left (by simpa using hc),
            List.getElem?_append_left (by simpa using hc)]
          simp [hc]
        | succ i =>
          rw [offset_succ]
          exact readerAxis_append _ _ _ (by simp [width]) (by simp [width])
            (i3 i r (by simpa using hr))

private theorem handle_spec (nfill : Nat) (chanw : F) : ∀ (readers : List (Source F V W)),
    (∀ s ∈ readers, s.widths.length = s.freqs.length) →
    ∀ i s, readers[i]? = some s →
      ReaderAxis nfill chanw (handleBands readers).1 (handleBands readers).2
        (offset nfill (readers.map some) i) (some s) := by
  intro readers
  induction readers with
  | nil => simp
  | cons r rest ih =>
    intro hlen i s hs
    have hr := hlen r (by simp)
    simp only [handleBands, List.flatMap_cons] at ih ⊢
    cases i with
    | zero =>
      simp at hs
      subst hs
      intro c hc
      simp only [offset, List.take_zero, List.map_nil, List.sum_nil, Nat.zero_add]
      rw [List.getElem?_append_left hc, List.getElem?_append_left (by omega)]
      exact ⟨rfl, rfl⟩
    | succ i =>
      rw [List.map_cons, offset_succ, width_nchan]
      exact readerAxis_append _ _ _ rfl (by rw [hr]; rfl)
        (ih (fun s hs => hlen s (by simp [hs])) i s (by simpa using hs))

/-- C19: the output frequency axis lists the channels of each measurement set at the
positions where `process` puts its visibilities; a missing one gets channels of the
width of the first channel, that follow one another. -/
theorem axis_spec (near : F → F → Bool) (readers : List (Option (Source F V W)))
    (src : Source F V W) (hsrc : readers.find? (fun r => r.isSome) = some (some src))
    (hlen : ∀ s, some s ∈ readers → s.widths.length = s.freqs.length) (fs ws : List F)
    (h : channelAxis near readers = some (fs, ws)) (i : Nat) (r : Option (Source F V W))
    (hr : readers[i]? = some r) :
    ReaderAxis src.freqs.length src.widths[0]! fs ws (offset src.freqs.length readers i) r := by
  simp only [channelAxis, hsrc] at h
  split at h
  · exact (fillLoop_spec near _ _ readers _ fs ws hlen h).2.2 i r hr
  · rename_i hany
    have hall : readers = (readers.filterMap id).map some := by
      clear h hsrc hlen hr
      induction readers with
      | nil => rfl
      | cons r rest ih =>
        cases r with
        | none => simp at hany
        | some s =>
          simp only [List.any_cons, Option.isNone_some, Bool.false_or] at hany
          have := ih hany
          simp only [List.filterMap_cons, id, List.map_cons, List.cons.injEq, true_and]
          exact this
    simp only [Option.some.injEq] at h
    have hmem := hr
    rw [hall, List.getElem?_map, Option.map_eq_some_iff] at hmem
    obtain ⟨s, hs, rfl⟩ := hmem
    have := handle_spec src.freqs.length src.widths[0]! (readers.filterMap id)
      (fun s hs => by
        rw [List.mem_filterMap] at hs
        obtain ⟨a, ha, hb⟩ := hs
        simp at hb; subst hb; exact hlen s ha) i s hs
    rw [h, ← hall] at this
    exact this

/-- A band missing between two bands: its channels get the frequencies in between. -/
example : channelAxis (V := Int) (W := Int) (fun a b : ℚ => decide (a = b))
    [some ⟨[100, 110], [10, 10], fun _ _ _ => 1, fun _ _ _ => false, fun _ _ _ => 1, true⟩, none,
     some ⟨[140, 150], [10, 10], fun _ _ _ => 2, fun _ _ _ => false, fun _ _ _ => 1, true⟩]
    = some ([100, 110, 120, 130, 140, 150], [10, 10, 10, 10, 10, 10]) := by
  norm_num [channelAxis, fillBands, fillLoop, first, Source.nchan, missingFreqs, List.findIdx,
    List.findIdx.go, List.replicate, List.find?]

/-! ### Order of the channels -/

/-- A band as it comes from a measurement set: not empty, frequencies increasing, the
last channel has a positive width. -/
structure Increasing (s : Source F V W) : Prop where
  nonempty : s.freqs ≠ []
  sorted : s.freqs.Pairwise (· < ·)
  widths : s.widths.length = s.freqs.length
  positive : ∀ w ∈ s.widths, 0 < w

private theorem fill_sorted (nfill : Nat) (hn : 0 < nfill) (chanw : F) (hw : 0 < chanw) :
    ∀ (readers : List (Option (Source F V W))) (freq : F) (fs ws : List F),
      (∀ s, some s ∈ readers → Increasing s) →
      fillLoop (fun a b => decide (a = b)) nfill chanw readers freq = some (fs, ws) →
      fs.Pairwise (· < ·) ∧ ∀ f ∈ fs, freq ≤ f := by
  intro readers
  induction readers with
  | nil =>
    intro freq fs ws _ h
    simp [fillLoop] at h
    obtain ⟨rfl, rfl⟩ := h
    simp
  | cons r rest ih =>
    intro freq fs ws hinc h
    have hinc' : ∀ s, some s ∈ rest → Increasing s := fun s hs => hinc s (by simp [hs])
    cases r with
    | some s =>
      have hs := hinc s (by simp)
      simp only [fillLoop] at h
      split at h
      · simp at h
      rename_i hnc
      split at h
      · simp at h
      rename_i hord
      rw [Option.map_eq_some_iff] at h
      obtain ⟨⟨fs', ws'⟩, h1, h2⟩ := h
      obtain ⟨rfl, rfl⟩ := Prod.mk.inj h2
      have hnc' : s.freqs.length = nfill := by simpa [Source.nchan] using hnc
      rw [List.take_of_length_le (by omega)]
      obtain ⟨i1, i2⟩ := ih _ _ _ hinc' h1
      have hge : freq ≤ s.freqs[0]! := by
        by_contra hc
        exact hord ⟨not_le.mp hc, by
          simp only [decide_eq_true_eq]
          intro he; rw [he] at hc; exact hc le_rfl⟩
      have h0 : s.freqs[0]! = s.freqs[0]'(by omega) := by
        rw [getElem!_pos]
      have hl : s.freqs[nfill - 1]! = s.freqs[nfill - 1]'(by omega) := by rw [getElem!_pos]
      have hwl : s.widths[nfill - 1]! = s.widths[nfill - 1]'(by have := hs.widths; omega) := by
        rw [getElem!_pos]
      have hwp : 0 < s.widths[nfill - 1]! := by rw [hwl]; exact hs.positive _ (by simp)
      have hfirst : ∀ f ∈ s.freqs, s.freqs[0]! ≤ f := by
        intro f hf
        obtain ⟨k, hk, rfl⟩ := List.mem_iff_getElem.mp hf
        rw [h0]
        rcases Nat.eq_zero_or_pos k with rfl | hk0
        · exact le_rfl
        · exact (List.pairwise_iff_getElem.mp hs.sorted 0 k _ hk hk0).le
      have hlast : ∀ f ∈ s.freqs, f ≤ s.freqs[nfill - 1]! := by
        intro f hf
        obtain ⟨k, hk, rfl⟩ := List.mem_iff_getElem.mp hf
        rw [hl]
        rcases Nat.lt_or_ge k (nfill - 1) with hk0 | hk0
        · exact (List.pairwise_iff_getElem.mp hs.sorted k (nfill - 1) hk (by omega) hk0).le
        · have : k = nfill - 1 := by omega
          subst this; exact le_rfl
      constructor
      · rw [List.pairwise_append]
        refine ⟨hs.sorted, i1, fun a ha b hb => ?_⟩
        have := i2 b hb
        have := hlast a ha
        linarith
      · intro f hf
        rcases List.mem_append.mp hf with hf | hf
        · exact hge.trans (hfirst f hf)
        · have := i2 f hf
          have h3 := hlast _ (List.getElem_mem (show 0 < s.freqs.length by omega))
          rw [← h0] at h3
          linarith
    | none =>
      simp only [fillLoop] at h
      rw [Option.map_eq_some_iff] at h
      obtain ⟨⟨fs', ws'⟩, h1, h2⟩ := h
      obtain ⟨rfl, rfl⟩ := Prod.mk.inj h2
      rw [missingFreqs_spec] at h1 ⊢
      simp only at h1 ⊢
      obtain ⟨i1, i2⟩ := ih _ _ _ hinc' h1
      have hmem : ∀ f ∈ (List.range nfill).map (fun (j : Nat) => freq + (j : F) * chanw),
          freq ≤ f ∧ f < freq + nfill * chanw := by
        intro f hf
        rw [List.mem_map] at hf
        obtain ⟨j, hj, rfl⟩ := hf
        have h1 : (0 : F) ≤ j := Nat.cast_nonneg j
        have h2 : (j : F) < nfill := by exact_mod_cast List.mem_range.mp hj
        constructor
        · nlinarith [mul_nonneg h1 hw.le]
        · have := mul_lt_mul_of_pos_right h2 hw
          linarith
      constructor
      · rw [List.pairwise_append]
        refine ⟨?_, i1, fun a ha b hb => (hmem a ha).2.trans_le (i2 b hb)⟩
        rw [List.pairwise_map]
        refine List.Pairwise.imp ?_ List.pairwise_lt_range
        intro a b hab
        have : (a : F) < b := by exact_mod_cast hab
        have := mul_lt_mul_of_pos_right this hw
        linarith
      · intro f hf
        rcases List.mem_append.mp hf with hf | hf
        · exact (hmem f hf).1
        · have := i2 f hf
          have : (0 : F) ≤ nfill := Nat.cast_nonneg _
          nlinarith [mul_nonneg this hw.le]

/-- C58: when a measurement set is missing and the others are accepted, the joined
frequency axis is strictly increasing (the comparison of frequencies being exact). -/
theorem fill_increasing (readers : List (Option (Source F V W))) (src : Source F V W)
    (hsrc : readers.find? (fun r => r.isSome) = some (some src))
    (hinc : ∀ s, some s ∈ readers → Increasing s) (fs ws : List F)
    (h : fillBands (fun a b => decide (a = b)) readers src = some (fs, ws)) :
    fs.Pairwise (· < ·) := by
  have hmem := List.mem_of_find?_eq_some hsrc
  have hs := hinc src hmem
  have hn : 0 < src.nchan := List.length_pos_iff.mpr hs.nonempty
  have hw0 : src.widths[0]! = src.widths[0]'(by rw [hs.widths]; exact hn) := by rw [getElem!_pos]
  have hw : (0 : F) < src.widths[0]! := by rw [hw0]; exact hs.positive _ (List.getElem_mem _)
  exact (fill_sorted src.nchan hn _ hw readers _ fs ws hinc h).1

/-- C58: when measurement sets whose frequency ranges do not overlap are put in order,
the joined frequency axis is strictly increasing. -/
theorem sort_increasing (readers : List (Source F V W)) (hinc : ∀ s ∈ readers, Increasing s)
    (hdis : readers.Pairwise fun s t => (∀ f ∈ s.freqs, ∀ g ∈ t.freqs, f < g) ∨
      (∀ f ∈ s.freqs, ∀ g ∈ t.freqs, g < f)) :
    (handleBands (sortBands readers)).1.Pairwise (· < ·) ∧
    (sortBands readers).Perm readers := by
  have hperm : (sortBands readers).Perm readers := List.mergeSort_perm _ _
  refine ⟨?_, hperm⟩
  have hso : (sortBands readers).Pairwise fun a b => decide (a.freqs.head! ≤ b.freqs.head!) = true :=
    List.pairwise_mergeSort (fun a b c h1 h2 => by simp at *; exact h1.trans h2)
      (fun a b => by simp; exact le_total _ _) readers
  have hdis' : (sortBands readers).Pairwise fun s t => (∀ f ∈ s.freqs, ∀ g ∈ t.freqs, f < g) ∨
      (∀ f ∈ s.freqs, ∀ g ∈ t.freqs, g < f) :=
    hdis.perm hperm.symm (fun h => h.elim (fun h => .inr fun f hf g hg => h g hg f hf)
      (fun h => .inl fun f hf g hg => h g hg f hf))
  have hinc' : ∀ s ∈ sortBands readers, Increasing s := fun s hs => hinc s (hperm.mem_iff.mp hs)
  generalize sortBands readers = l at *
  clear hperm
  induction l with
  | nil => simp [handleBands]
  | cons s l ih =>
    have h1 := List.pairwise_cons.mp hso
    have h2 := List.pairwise_cons.mp hdis'
    have hi := ih h1.2 h2.2 (fun t ht => hinc' t (by simp [ht]))
    simp only [handleBands, List.flatMap_cons] at hi ⊢
    rw [List.pairwise_append]
    refine ⟨(hinc' s (by simp)).sorted, hi, fun f hf g hg => ?_⟩
    rw [List.mem_flatMap] at hg
    obtain ⟨t, ht, hg⟩ := hg
    rcases h2.1 t ht with h | h
    · exact h f hf g hg
    · have hle := h1.1 t ht
      have hs := (hinc' s (by simp)).nonempty
      have htn := (hinc' t (by simp [ht])).nonempty
      have e1 : s.freqs.head! ∈ s.freqs := by
        cases hc : s.freqs with
        | nil => exact absurd hc hs
        | cons a as => simp
      have e2 : t.freqs.head! ∈ t.freqs := by
        cases hc : t.freqs with
        | nil => exact absurd hc htn
        | cons a as => simp
      have := h _ e1 _ e2
      simp at hle
      exact absurd hle (not_le.mpr this)

end axis

/-- Three bands given out of order. -/
example : (handleBands (sortBands (V := Int) (W := Int)
    [⟨[30, 31], [1, 1], fun _ _ _ => 1, fun _ _ _ => false, fun _ _ _ => 1, true⟩,
     ⟨[(10 : ℚ), 11], [1, 1], fun _ _ _ => 1, fun _ _ _ => false, fun _ _ _ => 1, true⟩,
     ⟨[20], [1], fun _ _ _ => 1, fun _ _ _ => false, fun _ _ _ => 1, true⟩])).1.Pairwise (· < ·) := by
  refine (sort_increasing _ ?_ ?_).1
  · intro s hs
    simp only [List.mem_cons, List.not_mem_nil, or_false] at hs
    rcases hs with rfl | rfl | rfl <;>
      exact ⟨by simp, by norm_num, by simp, by simp⟩
  · norm_num

/-- Joining a band, a missing band and a band: `process_spec` applies with channels
0-1, 2-3 and 4-5. -/
example :
    let s1 : Source ℚ Int Int :=
      ⟨[100, 110], [10, 10], fun b c q => b + c + q, fun _ _ _ => false, fun _ _ _ => 1, true⟩
    let s2 : Source ℚ Int Int :=
      ⟨[140, 150], [10, 10], fun b c q => 10 * (b + c + q), fun _ _ _ => false, fun _ _ _ => 2, true⟩
    ∃ out, process 2 [some s1, none, some s2] ⟨fun _ _ _ => 7, fun _ _ _ => false, fun _ _ _ => 7⟩
        = some out ∧ (List.range 6).map (fun c => out.data 1 c 0) = [1, 2, 0, 0, 10, 20] ∧
      (List.range 6).map (fun c => out.weights 1 c 0) = [1, 1, 0, 0, 2, 2] := by
  refine ⟨_, rfl, ?_, ?_⟩ <;> decide

/-- The times of the measurement sets are not compared.  These two have equal first
and last times and intervals, and neither needs an inserted slot while the other has
data, so `ValidateBands` and `process` accept them; the second and later time slots
combine visibilities taken 3 s apart. -/
theorem times_differ :
    (MsReader.run (⟨100, 130, 10, 1/100, 0⟩ : MsReader.Config ℚ) 4
      (MsReader.start ⟨100, 130, 10, 1/100, 0⟩
        [⟨100, ()⟩, ⟨110, ()⟩, ⟨120, ()⟩, ⟨130, ()⟩] 0)).1
      = [⟨100, some ()⟩, ⟨110, some ()⟩, ⟨120, some ()⟩, ⟨130, some ()⟩] ∧
    (MsReader.run (⟨100, 130, 10, 1/100, 0⟩ : MsReader.Config ℚ) 4
      (MsReader.start ⟨100, 130, 10, 1/100, 0⟩
        [⟨100, ()⟩, ⟨107, ()⟩, ⟨117, ()⟩, ⟨127, ()⟩, ⟨130, ()⟩] 0)).1
      = [⟨100, some ()⟩, ⟨107, some ()⟩, ⟨117, some ()⟩, ⟨127, some ()⟩] := by
  constructor <;>
    norm_num [MsReader.run, MsReader.process, MsReader.scan, MsReader.start, MsReader.nearAbs, abs_le]

end DP3.MultiMsReader
