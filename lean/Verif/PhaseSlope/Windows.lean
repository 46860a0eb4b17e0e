import Verif.PhaseSlope.Model
import Mathlib.Data.List.Induction
import Mathlib.Algebra.Field.Rat
import Mathlib.Algebra.Order.Ring.Rat

/-!
# The windows of the piece-wise fits of phases
-/

namespace DP3.PhaseSlope

set_option linter.unusedSimpArgs false
set_option linter.unusedSectionVars false

variable {K : Type} [Field K] [LinearOrder K]

/-- What the sliding fit should give for a channel: the line of the window with the channel in its middle, or of the first or
the last window, at the frequency of the channel. Windows of one sample are not fitted. -/
def fittedAt (fit : List (Sample K) → Option (K × K)) (chunk : Nat) (data : List (Sample K)) (ch : Nat) : Option K :=
  let n := data.length
  let size := min chunk n
  if size ≤ 1 then data[ch]?.map Sample.phase else
    let first := if ch < size / 2 then 0 else if n - size < ch - size / 2 then n - size else ch - size / 2
    (data[ch]?).bind fun s => (fit ((List.range size).filterMap fun j => data[first + j]?)).map fun p => p.1 + p.2 * s.nu

private theorem window_eq (data : List (Sample K)) (pos size : Nat) (h : pos + size ≤ data.length) :
    window data pos size = (List.range size).filterMap fun j => data[pos + j]? := by
  unfold window
  induction size generalizing pos with
  | zero => simp
  | succ k ih =>
    rw [List.range_succ, List.filterMap_append, ← ih pos (by omega)]
    rw [List.take_add_one]
    congr 1
    rw [List.getElem?_drop, List.getElem?_eq_getElem (by omega)]
    simp [List.getElem?_eq_getElem (show pos + k < data.length by omega)]

private theorem evaluate_eq (data : List (Sample K)) (l : Option (K × K)) (ch : Nat) (h : ch < data.length) :
    evaluate l ((data.map Sample.nu).getD ch 0) = (data[ch]?).bind fun s => l.map fun p => p.1 + p.2 * s.nu := by
  simp [evaluate, List.getElem?_eq_getElem h]

variable (fit : List (Sample K) → Option (K × K)) (data : List (Sample K)) (size : Nat)

private theorem foldl_write (l : List Nat) (p c : Nat → Nat) (out : Nat → Option K) (x : Nat) :
    ((∀ k ∈ l, c k ≠ x) → (l.foldl (fun o k => write fit data size o (p k) (c k)) out) x = out x) ∧
    ((∃ k ∈ l, c k = x) → ∃ k ∈ l, c k = x ∧ (l.foldl (fun o k => write fit data size o (p k) (c k)) out) x =
      evaluate (fit (window data (p k) size)) ((data.map Sample.nu).getD x 0)) := by
  induction l using List.reverseRecOn with
  | nil => simp
  | append_singleton l e ih =>
    rw [List.foldl_append, List.foldl_cons, List.foldl_nil]
    by_cases he : c e = x
    · constructor
      · intro h
        exact absurd he (h e (by simp))
      · intro _
        refine ⟨e, by simp, he, ?_⟩
        subst he
        simp [write]
    · have hne : x ≠ c e := fun h => he h.symm
      constructor
      · intro h
        rw [write, Function.update_of_ne hne]
        exact ih.1 fun k hk => h k (by simp [hk])
      · rintro ⟨k, hk, hkx⟩
        have hk' : k ∈ l := by
          rcases List.mem_append.mp hk with h | h
          · exact h
          · rw [List.mem_singleton.mp h] at hkx
            exact absurd hkx he
        obtain ⟨k', h1, h2, h3⟩ := ih.2 ⟨k, hk', hkx⟩
        refine ⟨k', by simp [h1], h2, ?_⟩
        rw [write, Function.update_of_ne hne]
        exact h3

/-- C228: the sliding fit writes all channels and nothing else, and every channel from the window it should. -/
theorem sliding_spec (chunk : Nat) (out : Nat → Option K) (ch : Nat) :
    slidingFit fit chunk data out ch = if ch < data.length then fittedAt fit chunk data ch else out ch := by
  unfold slidingFit fittedAt
  dsimp only
  by_cases hs : min chunk data.length ≤ 1
  · rw [if_pos hs, if_pos hs]
    unfold copy
    by_cases h : ch < data.length
    · rw [dif_pos h, if_pos h, List.getElem?_eq_getElem h]
      rfl
    · rw [dif_neg h, if_neg h]
  · rw [if_neg hs, if_neg hs]
    have hle : min chunk data.length ≤ data.length := by omega
    generalize min chunk data.length = size at hs hle ⊢
    generalize hn : data.length = n at hle ⊢
    have h1 := foldl_write fit data size (List.range (size / 2)) (fun _ => 0) (fun k => k) out ch
    have h2 := fun o => foldl_write fit data size (List.range (n - size)) (fun k => k) (fun k => k + size / 2) o ch
    have h3 := fun o => foldl_write fit data size (List.range' (n - size + size / 2) (n - (n - size + size / 2)))
      (fun _ => n - size) (fun k => k) o ch
    have finish : ∀ (pos : Nat), pos + size ≤ n → ch < n →
        evaluate (fit (window data pos size)) ((data.map Sample.nu).getD ch 0) =
          (data[ch]?).bind fun s => (fit ((List.range size).filterMap fun j => data[pos + j]?)).map
            fun p => p.1 + p.2 * s.nu := by
      intro pos hp hch
      rw [window_eq data pos size (by omega), evaluate_eq data _ ch (by omega)]
    by_cases hr : n - size + size / 2 ≤ ch
    · by_cases hlt : ch < n
      · rw [if_pos hlt]
        obtain ⟨k, hk, hkx, hv⟩ := (h3 _).2 ⟨ch, by rw [List.mem_range'_1]; omega, rfl⟩
        rw [hv, finish (n - size) (by omega) hlt]
        have hf : (if ch < size / 2 then 0 else if n - size < ch - size / 2 then n - size else ch - size / 2) = n - size := by
          split_ifs <;> omega
        rw [hf]
      · rw [if_neg hlt]
        rw [(h3 _).1 (by intro k hk; rw [List.mem_range'_1] at hk; omega),
          (h2 _).1 (by intro k hk; rw [List.mem_range] at hk; omega),
          h1.1 (by intro k hk; rw [List.mem_range] at hk; omega)]
    · have hlt : ch < n := by omega
      rw [if_pos hlt]
      rw [(h3 _).1 (by intro k hk; rw [List.mem_range'_1] at hk; omega)]
      by_cases hm : size / 2 ≤ ch
      · obtain ⟨k, hk, hkx, hv⟩ := (h2 (List.foldl (fun o ch => write fit data size o 0 ch) out (List.range (size / 2)))).2
          ⟨ch - size / 2, by rw [List.mem_range]; omega, by omega⟩
        rw [hv, finish k (by rw [List.mem_range] at hk; omega) hlt]
        have hf : (if ch < size / 2 then 0 else if n - size < ch - size / 2 then n - size else ch - size / 2) = k := by
          split_ifs <;> omega
        rw [hf]
      · rw [(h2 _).1 (by intro k hk; omega)]
        obtain ⟨k, hk, hkx, hv⟩ := h1.2 ⟨ch, by rw [List.mem_range]; omega, rfl⟩
        rw [hv, finish 0 (by omega) hlt, if_pos (by omega)]

/-- C228: the window of a channel has the channel, and is in the data. -/
theorem window_has (chunk n ch : Nat) (hc : 1 < chunk) (hn : 1 < n) (hch : ch < n) :
    let size := min chunk n
    let first := if ch < size / 2 then 0 else if n - size < ch - size / 2 then n - size else ch - size / 2
    first ≤ ch ∧ ch < first + size ∧ first + size ≤ n := by
  dsimp only
  split_ifs <;> omega

private theorem breakPoint_le (chunk : Nat) (fitted : Nat → Option K) : breakPoint chunk data fitted ≤ data.length := by
  unfold breakPoint
  dsimp only
  have : ∀ (l : List Nat), (∀ i ∈ l, i + chunk / 2 ≤ data.length) → ∀ (best : K × Nat), best.2 ≤ data.length →
      (l.foldl (fun (best : K × Nat) i =>
        match distance data fitted i (min data.length chunk) with
        | none => best
        | some d => if d > best.1 then (d, i + chunk / 2) else best) best).2 ≤ data.length := by
    intro l
    induction l with
    | nil => intro _ best h; exact h
    | cons i l ih =>
      intro hl best hb
      rw [List.foldl_cons]
      apply ih fun i hi => hl i (by simp [hi])
      split
      · exact hb
      · split
        · exact hl i (by simp)
        · exact hb
  apply this
  · intro i hi
    rw [List.mem_range] at hi
    omega
  · simp

/-- C228: the sliding fit with a break divides the channels in two parts, and does a sliding fit of each of them; all channels
are written, and nothing else. -/
theorem break_spec (chunk : Nat) (out : Nat → Option K) :
    ∃ bp ≤ data.length, (slidingFitWithBreak fit chunk data out).2 = bp ∧ ∀ ch,
      (slidingFitWithBreak fit chunk data out).1 ch = if ch < bp then fittedAt fit chunk (data.take bp) ch else
        if ch < data.length then fittedAt fit chunk (data.drop bp) (ch - bp) else out ch := by
  unfold slidingFitWithBreak
  by_cases hs : min chunk data.length ≤ 1
  · rw [if_pos hs]
    refine ⟨0, by omega, rfl, ?_⟩
    intro ch
    rw [if_neg (by omega)]
    have := sliding_spec fit data chunk out ch
    unfold slidingFit at this
    dsimp only at this
    rw [if_pos hs] at this
    exact this
  · rw [if_neg hs]
    dsimp only
    have hb := breakPoint_le data chunk (slidingFit fit chunk data out)
    generalize breakPoint chunk data (slidingFit fit chunk data out) = bp at hb
    refine ⟨bp, hb, rfl, ?_⟩
    intro ch
    by_cases h : ch < bp
    · rw [if_pos h, if_pos h, sliding_spec, if_pos (by rw [List.length_take]; omega)]
    · rw [if_neg h, if_neg h, sliding_spec, List.length_drop]
      by_cases hl : ch < data.length
      · rw [if_pos (by omega), if_pos hl]
      · rw [if_neg (by omega), if_neg hl, sliding_spec, if_neg (by rw [List.length_take]; omega), sliding_spec,
          if_neg (by omega)]
        congr 1
        omega

/-- C228: the piece-wise fit writes all channels and nothing else, and every channel from a window in the data that has it. -/
theorem pieceWise_spec (chunk : Nat) (hc : 1 < chunk) (hn : 1 < data.length) (out : Nat → Option K) (ch : Nat) :
    (data.length ≤ ch → pieceWiseFit fit chunk data out ch = out ch) ∧
    (ch < data.length → ∃ pos, pos ≤ ch ∧ ch < pos + min chunk data.length ∧ pos + min chunk data.length ≤ data.length ∧
      pieceWiseFit fit chunk data out ch = (data[ch]?).bind fun s =>
        (fit ((List.range (min chunk data.length)).filterMap fun j => data[pos + j]?)).map fun p => p.1 + p.2 * s.nu) := by
  unfold pieceWiseFit
  dsimp only
  rw [min_comm data.length chunk, if_neg (by omega)]
  have hle : min chunk data.length ≤ data.length := by omega
  have hs : 1 < min chunk data.length := by omega
  generalize min chunk data.length = size at hs hle ⊢
  have hstep : ∀ k, (if k * size > data.length - size then data.length - size else k * size) + size ≤ data.length := by
    intro k
    split_ifs <;> omega
  have hchunk : ∀ (pos : Nat), pos + size ≤ data.length → ∀ o : Nat → Option K,
      (ch < pos ∨ pos + size ≤ ch → fitChunk fit data size pos o ch = o ch) ∧
      (pos ≤ ch → ch < pos + size → fitChunk fit data size pos o ch =
        (data[ch]?).bind fun s => (fit ((List.range size).filterMap fun j => data[pos + j]?)).map fun p => p.1 + p.2 * s.nu) := by
    intro pos hp o
    have h := foldl_write fit data size (List.range size) (fun _ => pos) (fun k => k + pos) o ch
    unfold fitChunk
    constructor
    · intro hh
      exact h.1 (by intro k hk; rw [List.mem_range] at hk; omega)
    · intro h1 h2
      obtain ⟨k, _, _, hv⟩ := h.2 ⟨ch - pos, by rw [List.mem_range]; omega, by omega⟩
      rw [hv, window_eq data pos size hp, evaluate_eq data _ ch (by omega)]
  have hfold : ∀ (l : List Nat) (o : Nat → Option K),
      ((∀ k ∈ l, ch < (if k * size > data.length - size then data.length - size else k * size) ∨
        (if k * size > data.length - size then data.length - size else k * size) + size ≤ ch) →
        (l.foldl (fun o k => fitChunk fit data size (if k * size > data.length - size then data.length - size else k * size) o)
          o) ch = o ch) ∧
      ((∃ k ∈ l, (if k * size > data.length - size then data.length - size else k * size) ≤ ch ∧
        ch < (if k * size > data.length - size then data.length - size else k * size) + size) →
        ∃ pos, pos ≤ ch ∧ ch < pos + size ∧ pos + size ≤ data.length ∧
        (l.foldl (fun o k => fitChunk fit data size (if k * size > data.length - size then data.length - size else k * size) o)
          o) ch = (data[ch]?).bind fun s =>
            (fit ((List.range size).filterMap fun j => data[pos + j]?)).map fun p => p.1 + p.2 * s.nu) := by
    intro l o
    induction l using List.reverseRecOn with
    | nil => simp
    | append_singleton l e ih =>
      rw [List.foldl_append, List.foldl_cons, List.foldl_nil]
      obtain ⟨hc1, hc2⟩ := hchunk _ (hstep e) (l.foldl (fun o k => fitChunk fit data size
        (if k * size > data.length - size then data.length - size else k * size) o) o)
      by_cases he : (if e * size > data.length - size then data.length - size else e * size) ≤ ch ∧
        ch < (if e * size > data.length - size then data.length - size else e * size) + size
      · constructor
        · intro h
          have := h e (by simp)
          omega
        · intro _
          exact ⟨_, he.1, he.2, hstep e, hc2 he.1 he.2⟩
      · constructor
        · intro h
          rw [hc1 (by omega)]
          exact ih.1 fun k hk => h k (by simp [hk])
        · rintro ⟨k, hk, hk1⟩
          have hk' : k ∈ l := by
            rcases List.mem_append.mp hk with h | h
            · exact h
            · rw [List.mem_singleton.mp h] at hk1
              exact absurd hk1 he
          rw [hc1 (by omega)]
          exact ih.2 ⟨k, hk', hk1⟩
  constructor
  · intro h
    apply (hfold _ _).1
    intro k _
    have := hstep k
    omega
  · intro h
    apply (hfold _ _).2
    refine ⟨ch / size, ?_, ?_⟩
    · rw [List.mem_range, Nat.lt_iff_add_one_le, Nat.le_div_iff_mul_le (by omega), Nat.add_mul]
      have := Nat.div_mul_le_self ch size
      omega
    · have h1 := Nat.div_mul_le_self ch size
      have h2 := Nat.lt_div_mul_add (a := ch) (b := size) (by omega)
      split_ifs <;> omega

/-! ## Examples -/

-- A fit that gives the number of samples as the offset and the first phase as the slope.
example : (List.range 7).map (slidingFit (fun l => some ((l.length : ℚ), (l.map Sample.phase).headD 0)) 3
    (([0, 1, 2, 3, 4, 5] : List ℚ).map fun i => ⟨1, i, 1⟩) fun _ => none) = [some 3, some 3, some 4, some 5, some 6, some 6, none] := by
  decide +kernel

example : (List.range 7).map (pieceWiseFit (fun l => some ((l.length : ℚ), (l.map Sample.phase).headD 0)) 4
    (([0, 1, 2, 3, 4, 5] : List ℚ).map fun i => ⟨1, i, 1⟩) fun _ => none) = [some 4, some 4, some 6, some 6, some 6, some 6, none] := by
  decide +kernel

-- The largest distance to the lines is at the step of the phases.
example : (slidingFitWithBreak (fun l => some ((l.map Sample.phase).headD 0, 0)) 2
    (([0, 0, 5, 5] : List ℚ).map fun i => ⟨1, i, 1⟩) fun _ => none).2 = 2 := by
  norm_num [slidingFitWithBreak, breakPoint, distance, slidingFit, List.range_succ, List.range', write, window, evaluate,
    Function.update]
  have e : 1 + 1 + 1 + 1 - 2 = 2 := rfl
  simp only [e]
  norm_num

end DP3.PhaseSlope
