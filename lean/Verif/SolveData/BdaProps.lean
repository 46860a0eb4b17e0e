import Verif.SolveData.Props
import Mathlib.Tactic.FieldSimp
import Mathlib.Tactic.Positivity

/-!
# Properties of SolveData for BDA data and of the channel blocks (C66, C67)
-/

namespace DP3.SolveData

set_option linter.unusedSectionVars false

variable {V X W : Type} {F : Type} [Field F] [LinearOrder F] [FloorRing F]

/-! ## C66 -/

/-- Whether a row is a cross-correlation. -/
def rowCross (d : Bda F V) (row : Row F V) : Bool :=
  decide (d.ants1.getD row.bl 0 ≠ d.ants2.getD row.bl 0)

/-- The rows and channels that belong to a channel block. -/
def rowChannels (d : Bda F V) (k : Nat) : List (Row F V × Nat) :=
  (d.rows.filter (rowCross d)).flatMap fun row =>
    ((List.range row.nCh).filter fun c =>
      decide (channelBegin row.nCh d.nBlocks k ≤ c ∧ c < channelBegin row.nCh d.nBlocks (k + 1))).map
      fun c => (row, c)

/-- What has to be stored for a channel of a row. -/
def bdaCellOf (conv : V → X) (d : Bda F V) (x : Row F V × Nat) : Cell X W :=
  { vis := conv (x.1.vis x.2)
    ant1 := d.ants1.getD x.1.bl 0
    ant2 := d.ants2.getD x.1.bl 0
    weight := none
    model := (List.range d.nSol.length).map fun i =>
      (conv (x.1.model i x.2),
       bdaSolutionIndex d.start d.duration x.1.time (min (d.nSol.getD i 0) d.rows.length)
         (((d.nSol.map fun n => min n d.rows.length).take i).sum)) }

private theorem startIndices_eq : ∀ (l : List Nat) (s : Nat),
    startIndices l s = (List.range l.length).map fun d => s + (l.take d).sum
  | [], s => rfl
  | n :: l, s => by
    rw [startIndices, startIndices_eq l (s + n), List.length_cons, List.range_succ_eq_map,
      List.map_cons, List.map_map]
    simp [Function.comp_def, Nat.add_assoc]

private theorem bdaDirections_eq (conv : V → X) (d : Bda F V) (row : Row F V) (c : Nat) :
    bdaDirections conv d row c = (List.range d.nSol.length).map fun i =>
      (conv (row.model i c),
       bdaSolutionIndex d.start d.duration row.time (min (d.nSol.getD i 0) d.rows.length)
         (((d.nSol.map fun n => min n d.rows.length).take i).sum)) := by
  rw [bdaDirections]
  simp only [startIndices_eq, limitNSolutions]
  apply List.ext_getElem
  · simp
  · intro i h1 h2
    simp only [List.length_map, List.length_range] at h2
    simp [List.getElem?_eq_getElem h2]

private theorem mapM_rowPair (d : Bda F V) : ∀ l : List (Row F V),
    (∀ row ∈ l, row.bl < d.ants1.length ∧ row.bl < d.ants2.length) →
    (l.mapM fun row => (rowPair d row).map fun p => (row, p)) =
      some (l.map fun row => (row, (d.ants1.getD row.bl 0, d.ants2.getD row.bl 0)))
  | [], _ => rfl
  | row :: l, h => by
    obtain ⟨h1, h2⟩ := h row (by simp)
    have hp : rowPair d row = some (d.ants1.getD row.bl 0, d.ants2.getD row.bl 0) := by
      rw [rowPair, List.getElem?_eq_getElem h1, List.getElem?_eq_getElem h2]
      simp [List.getElem?_eq_getElem h1, List.getElem?_eq_getElem h2]
    rw [List.mapM_cons, hp, mapM_rowPair d l fun x hx => h x (List.mem_cons_of_mem _ hx)]
    rfl

private theorem crossRows_eq (d : Bda F V) (l : List (Row F V)) :
    crossRows (l.map fun row => (row, (d.ants1.getD row.bl 0, d.ants2.getD row.bl 0))) =
      (l.filter (rowCross d)).map fun row =>
        (row, (d.ants1.getD row.bl 0, d.ants2.getD row.bl 0)) := by
  rw [crossRows, List.filter_map]
  rfl

/-- **C66, partial.**  Without weights, channel block `k` holds for every cross-correlation row of
the interval, in order, exactly the channels of the block with their visibility, antennas and model
visibilities; no place remains unwritten and nothing is written outside.  Missing: data with
weights, for which the code reads outside of an array (`bda_weights`). -/
theorem bda_partial (conv : V → X) (d : Bda F V) (hb : 0 < d.nBlocks)
    (hrows : ∀ row ∈ d.rows, row.bl < d.ants1.length ∧ row.bl < d.ants2.length) :
    bda (W := W) conv d false = some ((List.range d.nBlocks).map fun k =>
      { cells := (rowChannels d k).map fun x => some (bdaCellOf conv d x)
        next := (rowChannels d k).length }) := by
  rw [bda, if_neg (by omega), mapM_rowPair d d.rows hrows, Option.bind_some]
  simp only [Bool.false_and, Bool.false_eq_true, if_false]
  rw [crossRows_eq, List.map_map]
  have hmono := fun n => (channels_partition n d.nBlocks hb).2.2.1
  rw [writeAll_allocate]
  · congr 1
    apply List.map_congr_left
    intro k hk
    have hk := List.mem_range.1 hk
    have hcells : (((d.rows.filter (rowCross d)).map ((fun p : Row F V × (Nat × Nat) =>
        bdaStep (W := W) conv d p.1 p.2.1 p.2.2) ∘ fun row =>
          (row, (d.ants1.getD row.bl 0, d.ants2.getD row.bl 0)))).flatMap fun f => f k) =
        (rowChannels d k).map (bdaCellOf conv d) := by
      rw [List.flatMap_map, rowChannels, List.map_flatMap]
      apply List.flatMap_congr
      intro row _
      have hend : channelBegin row.nCh d.nBlocks (k + 1) ≤ row.nCh := by
        have : channelBegin row.nCh d.nBlocks (k + 1) ≤ channelBegin row.nCh d.nBlocks d.nBlocks :=
          Nat.div_le_div_right (Nat.mul_le_mul_right _ hk)
        rwa [(channels_partition row.nCh d.nBlocks hb).2.1] at this
      rw [filter_range _ _ _ (hmono row.nCh k) hend, List.map_map, List.map_map]
      show bdaStep conv d row _ _ k = _
      rw [bdaStep]
      apply List.map_congr_left
      intro i _
      simp only [Function.comp_apply, bdaCellOf, bdaDirections_eq]
    simp only [hcells, List.map_map, List.length_map]
    rfl
  · intro k
    rw [bdaCount, crossRows_eq, List.map_map, List.map_map]
    congr 1
    apply List.map_congr_left
    intro row _
    simp [bdaStep]

/-- **C66 fails with weights.**  As soon as there is a cross-correlation with a channel, the
constructor reads outside of the shape of the weights. -/
theorem bda_weights (conv : V → X) (d : Bda F V) (hb : 0 < d.nBlocks)
    (hrows : ∀ row ∈ d.rows, row.bl < d.ants1.length ∧ row.bl < d.ants2.length)
    (hex : ∃ row ∈ d.rows, rowCross d row = true ∧ 0 < row.nCh) :
    bda (W := W) conv d true = none := by
  rw [bda, if_neg (by omega), mapM_rowPair d d.rows hrows, Option.bind_some]
  rw [if_pos]
  rw [crossRows_eq, Bool.true_and, List.any_map, List.any_eq_true]
  obtain ⟨row, h1, h2, h3⟩ := hex
  exact ⟨row, List.mem_filter.2 ⟨h1, h2⟩, by simpa using h3⟩

variable [IsStrictOrderedRing F]

/-- **C66.**  For a row with its central time in the interval, the solution used for a direction is
one of the `n` solutions of that direction, namely the one whose part of the interval contains the
time. -/
theorem bdaSolutionIndex_spec (start duration time : F) (n first : Nat) (hn : 0 < n)
    (hd : 0 < duration) (h1 : start ≤ time) (h2 : time < start + duration) :
    ∃ s, s < n ∧ bdaSolutionIndex start duration time n first = first + s ∧
      start + (s : F) * (duration / n) ≤ time ∧ time < start + ((s : F) + 1) * (duration / n) := by
  have hnF : (0 : F) < n := by exact_mod_cast hn
  have hx0 : 0 ≤ (time - start) * n / duration := by
    apply div_nonneg _ hd.le
    apply mul_nonneg _ hnF.le
    linarith
  have hxn : (time - start) * n / duration < n := by
    rw [div_lt_iff₀ hd]
    have := mul_lt_mul_of_pos_right (show time - start < duration by linarith) hnF
    linarith [mul_comm duration (n : F)]
  have hf0 : 0 ≤ ⌊(time - start) * n / duration⌋ := Int.floor_nonneg.2 hx0
  have hfn : ⌊(time - start) * n / duration⌋ < n := by
    rw [Int.floor_lt]; exact_mod_cast hxn
  have hle := Int.floor_le ((time - start) * n / duration)
  have hlt := Int.lt_floor_add_one ((time - start) * n / duration)
  refine ⟨⌊(time - start) * n / duration⌋.toNat, by omega, ?_, ?_, ?_⟩
  · rw [bdaSolutionIndex]; omega
  · have hc : ((⌊(time - start) * n / duration⌋.toNat : Nat) : F) =
        ((⌊(time - start) * n / duration⌋ : Int) : F) := by
      rw [← Int.cast_natCast, Int.toNat_of_nonneg hf0]
    rw [hc]
    rw [le_div_iff₀ hd] at hle
    have : (⌊(time - start) * n / duration⌋ : F) * (duration / n) ≤ time - start := by
      rw [← mul_div_assoc, div_le_iff₀ hnF]
      exact hle
    linarith
  · have hc : ((⌊(time - start) * n / duration⌋.toNat : Nat) : F) =
        ((⌊(time - start) * n / duration⌋ : Int) : F) := by
      rw [← Int.cast_natCast, Int.toNat_of_nonneg hf0]
    rw [hc]
    rw [div_lt_iff₀ hd] at hlt
    have : time - start < ((⌊(time - start) * n / duration⌋ : F) + 1) * (duration / n) := by
      rw [← mul_div_assoc, lt_div_iff₀ hnF]
      exact hlt
    linarith

end DP3.SolveData

namespace DP3.SolveData

set_option linter.unusedSectionVars false

/-- One row of two channels for baseline 1 and one for the autocorrelation 0. -/
def smallBda : Bda ℚ (Nat × Nat) where
  rows := [⟨1, 0, 2, fun c => (0, c), fun d c => (d, c)⟩, ⟨5, 1, 2, fun c => (1, c), fun d c => (d, c)⟩]
  nBlocks := 2
  ants1 := [0, 0]
  ants2 := [0, 1]
  nSol := [1, 2]
  start := 0
  duration := 8

example : (bda (W := Nat) (fun v => v) smallBda false).map (fun bs => bs.map fun b =>
      b.cells.map fun c => c.map fun c => c.vis :: c.model.map Prod.fst) =
    some [[some [(1, 0), (0, 0), (1, 0)]], [some [(1, 1), (0, 1), (1, 1)]]] := by
  decide +kernel

example : (bda (W := Nat) (fun v => v) smallBda false).map (fun bs => bs.map fun b =>
      b.cells.map fun c => c.map fun c => c.model.map Prod.snd) =
    some [[some [0, 2]], [some [0, 2]]] := by
  decide +kernel

example : (bda (W := Nat) (fun v => v) smallBda true).isNone = true := by decide +kernel

/-- As `smallBda`, but with a single row and two solutions for both directions. -/
def oneRow : Bda ℚ (Nat × Nat) where
  rows := [⟨5, 1, 2, fun c => (1, c), fun d c => (d, c)⟩]
  nBlocks := 1
  ants1 := [0, 0]
  ants2 := [0, 1]
  nSol := [2, 2]
  start := 0
  duration := 8

/-- **C66 fails with few rows.**  With fewer rows in the interval than requested solutions, the
numbers of solutions are reduced and the second direction uses solution 1, which in the list of
requested solutions belongs to the first direction. -/
theorem bda_limited :
    (bda (W := Nat) (fun v => v) oneRow false).map (fun bs => bs.map fun b =>
      b.cells.map fun c => c.map fun c => c.model.map Prod.snd) = some [[some [0, 1], some [0, 1]]] ∧
    (oneRow.nSol.take 1).sum = 2 := by
  decide +kernel

/-! ## C67 -/

section Blocks

variable {F : Type} [Field F] [LinearOrder F] [IsStrictOrderedRing F]

/-- Frequency of channel `c` of a row with `n` channels over a band of `nchan` channels of the given
width, relative to the start of the band. -/
def chanFreq (nchan n : Nat) (width : F) (c : Nat) : F :=
  ((c : F) + 1 / 2) * ((nchan : F) * width / n)

private theorem blockStarts_eq (nchan nBlocks : Nat) (hb : 0 < nBlocks) (width : F) :
    ∀ k, blockStarts nchan nBlocks width k = (channelBegin nchan nBlocks k : F) * width
  | 0 => by simp [blockStarts, channelBegin]
  | k + 1 => by
    rw [blockStarts, blockStarts_eq nchan nBlocks hb width k,
      Nat.cast_sub ((channels_partition nchan nBlocks hb).2.2.1 k)]
    ring

private theorem advance_spec (nBlocks : Nat) (starts : Nat → F) (freq : F)
    (hlast : freq ≤ starts nBlocks) : ∀ (fuel block : Nat), nBlocks < block + fuel →
      starts block < freq → block ≤ nBlocks →
      ∃ b, advance nBlocks starts freq fuel block = some b ∧ b < nBlocks ∧ starts b < freq ∧
        freq ≤ starts (b + 1)
  | 0, block, hf, _, hle => by omega
  | fuel + 1, block, hf, hlt, hle => by
    have hne : block ≠ nBlocks := by
      rintro rfl
      exact absurd hlt (not_lt.2 hlast)
    rw [advance, if_pos (by omega)]
    by_cases h : starts (block + 1) < freq
    · rw [if_pos h]
      exact advance_spec nBlocks starts freq hlast fuel (block + 1) (by omega) h (by omega)
    · rw [if_neg h]
      exact ⟨block, rfl, by omega, hlt, not_lt.1 h⟩

private theorem applyBlocks_spec (nBlocks : Nat) (starts : Nat → F) : ∀ (freqs : List F)
    (block : Nat), freqs.Pairwise (· < ·) → (∀ f ∈ freqs, starts block < f ∧ f ≤ starts nBlocks) →
      block ≤ nBlocks →
      ∃ bs, applyBlocks nBlocks starts block freqs = some bs ∧ bs.length = freqs.length ∧
        ∀ i (h1 : i < bs.length) (h2 : i < freqs.length),
          bs[i] < nBlocks ∧ starts bs[i] < freqs[i] ∧ freqs[i] ≤ starts (bs[i] + 1)
  | [], block, _, _, _ => ⟨[], rfl, rfl, by intro i h1; simp at h1⟩
  | f :: freqs, block, hp, hf, hle => by
    obtain ⟨h1, h2⟩ := hf f (by simp)
    obtain ⟨b, hb, hbn, hb1, hb2⟩ := advance_spec nBlocks starts f h2 (nBlocks + 1) block (by omega)
      h1 hle
    rw [List.pairwise_cons] at hp
    obtain ⟨bs, g1, g2, g3⟩ := applyBlocks_spec nBlocks starts freqs b hp.2
      (fun x hx => ⟨lt_trans hb1 (hp.1 x hx), (hf x (List.mem_cons_of_mem _ hx)).2⟩) hbn.le
    refine ⟨b :: bs, by rw [applyBlocks, hb, Option.bind_some, g1, Option.map_some], by simp [g2], ?_⟩
    intro i i1 i2
    cases i with
    | zero => exact ⟨hbn, hb1, hb2⟩
    | succ i => exact g3 i (by simpa using i1) (by simpa using i2)

/-- **C67, partial.**  If the row is not averaged in frequency, or if the number of channel blocks
divides both the number of channels of the row and of the band, `ApplySolutions` uses for every
channel of a row the solutions of the channel block in which `SolveData` has put that channel.
Missing: other averaging, for which the two differ (`blocks_differ`). -/
theorem applyBlocks_partial (nchan n nBlocks : Nat) (width : F) (hw : 0 < width) (hb : 0 < nBlocks)
    (hn : 0 < n) (hN : 0 < nchan) (hcase : n = nchan ∨ (nBlocks ∣ n ∧ nBlocks ∣ nchan)) :
    ∃ bs, applyBlocks nBlocks (blockStarts nchan nBlocks width) 0
        ((List.range n).map (chanFreq nchan n width)) = some bs ∧ bs.length = n ∧
      ∀ c (hc : c < bs.length), bs[c] < nBlocks ∧
        channelBegin n nBlocks bs[c] ≤ c ∧ c < channelBegin n nBlocks (bs[c] + 1) := by
  have hnF : (0 : F) < n := by exact_mod_cast hn
  have hNF : (0 : F) < nchan := by exact_mod_cast hN
  have hstep : 0 < (nchan : F) * width / n := div_pos (mul_pos hNF hw) hnF
  have hfreq : ∀ c d : Nat, c < d → chanFreq nchan n width c < chanFreq nchan n width d := by
    intro c d h
    apply mul_lt_mul_of_pos_right _ hstep
    have : (c : F) < d := by exact_mod_cast h
    linarith
  have hpw : ((List.range n).map (chanFreq nchan n width)).Pairwise (· < ·) := by
    rw [List.pairwise_map]
    exact List.pairwise_lt_range.imp fun h => hfreq _ _ h
  have hend : ∀ c, c < n → chanFreq nchan n width c ≤ blockStarts nchan nBlocks width nBlocks := by
    intro c hc
    rw [blockStarts_eq nchan nBlocks hb, (channels_partition nchan nBlocks hb).2.1, chanFreq]
    have h1 : ((c : F) + 1 / 2) ≤ n := by
      have : ((c + 1 : Nat) : F) ≤ n := by exact_mod_cast hc
      push_cast at this
      linarith
    calc ((c : F) + 1 / 2) * ((nchan : F) * width / n)
        ≤ n * ((nchan : F) * width / n) := mul_le_mul_of_nonneg_right h1 hstep.le
      _ = nchan * width := by field_simp
  obtain ⟨bs, g1, g2, g3⟩ := applyBlocks_spec nBlocks (blockStarts nchan nBlocks width)
    ((List.range n).map (chanFreq nchan n width)) 0 hpw (by
      intro f hf
      obtain ⟨c, hc, rfl⟩ := List.mem_map.1 hf
      refine ⟨?_, hend c (List.mem_range.1 hc)⟩
      rw [blockStarts, chanFreq]
      apply mul_pos _ hstep
      positivity) (Nat.zero_le _)
  refine ⟨bs, g1, by simpa using g2, ?_⟩
  intro c hc
  have hcn : c < n := by rw [g2] at hc; simpa using hc
  obtain ⟨hk, h1, h2⟩ := g3 c hc (by simpa using hcn)
  generalize bs[c] = k at *
  simp only [List.getElem_map, List.getElem_range] at h1 h2
  rw [blockStarts_eq nchan nBlocks hb, chanFreq] at h1 h2
  -- comparisons of twice the numbers of channels
  have e : ((c : F) + 1 / 2) * ((nchan : F) * width / n) * (2 * n) =
      (((2 * c + 1) * nchan : Nat) : F) * width := by
    push_cast; field_simp
  have h2n : (0 : F) < 2 * n := by linarith
  have h1' : 2 * n * channelBegin nchan nBlocks k < (2 * c + 1) * nchan := by
    have := mul_lt_mul_of_pos_right h1 h2n
    rw [e, show (channelBegin nchan nBlocks k : F) * width * (2 * n) =
      ((2 * n * channelBegin nchan nBlocks k : Nat) : F) * width by push_cast; ring] at this
    exact_mod_cast lt_of_mul_lt_mul_right this hw.le
  have h2' : (2 * c + 1) * nchan ≤ 2 * n * channelBegin nchan nBlocks (k + 1) := by
    have := mul_le_mul_of_nonneg_right h2 h2n.le
    rw [e, show (channelBegin nchan nBlocks (k + 1) : F) * width * (2 * n) =
      ((2 * n * channelBegin nchan nBlocks (k + 1) : Nat) : F) * width by push_cast; ring] at this
    exact_mod_cast le_of_mul_le_mul_right this hw
  refine ⟨hk, ?_⟩
  rcases hcase with rfl | ⟨⟨m, hm⟩, ⟨M, hM⟩⟩
  · generalize channelBegin n nBlocks k = A at *
    generalize channelBegin n nBlocks (k + 1) = B at *
    constructor
    · by_contra hc'
      have := Nat.mul_le_mul_left (2 * n) (show c + 1 ≤ A by omega)
      nlinarith
    · by_contra hc'
      have := Nat.mul_le_mul_left (2 * n) (show B ≤ c by omega)
      nlinarith
  · have hbeg : ∀ j, channelBegin n nBlocks j = j * m := by
      intro j
      rw [channelBegin, hm, ← Nat.mul_assoc, Nat.mul_comm j, Nat.mul_assoc,
        Nat.mul_div_cancel_left _ hb]
    have hbegN : ∀ j, channelBegin nchan nBlocks j = j * M := by
      intro j
      rw [channelBegin, hM, ← Nat.mul_assoc, Nat.mul_comm j, Nat.mul_assoc,
        Nat.mul_div_cancel_left _ hb]
    rw [hbegN] at h1' h2'
    rw [hbeg, hbeg]
    have hM0 : 0 < M := by
      rcases Nat.eq_zero_or_pos M with h | h
      · rw [h, Nat.mul_zero] at hM; omega
      · exact h
    have hpos : 0 < nBlocks * M := Nat.mul_pos hb hM0
    rw [hm, hM] at h1' h2'
    have h1'' : (2 * (k * m)) * (nBlocks * M) < (2 * c + 1) * (nBlocks * M) := by
      calc (2 * (k * m)) * (nBlocks * M) = 2 * (nBlocks * m) * (k * M) := by ring
        _ < _ := h1'
    have h2'' : (2 * c + 1) * (nBlocks * M) ≤ (2 * ((k + 1) * m)) * (nBlocks * M) := by
      calc _ ≤ 2 * (nBlocks * m) * ((k + 1) * M) := h2'
        _ = _ := by ring
    have := Nat.lt_of_mul_lt_mul_right h1''
    have := Nat.le_of_mul_le_mul_right h2'' hpos
    omega

end Blocks

/-- **C67, partial.**  If the number of channel blocks divides the number of channels, the weights
of a channel are added for the channel block in which `SolveData` has put it.  Missing: other
numbers of channels (`blocks_differ`). -/
theorem chanBlockIndex_partial (c n nBlocks : Nat) (hb : 0 < nBlocks) (hc : c < n)
    (hdiv : nBlocks ∣ n) :
    ∃ k, chanBlockIndex c n nBlocks = some k ∧ k < nBlocks ∧
      channelBegin n nBlocks k ≤ c ∧ c < channelBegin n nBlocks (k + 1) := by
  obtain ⟨m, rfl⟩ := hdiv
  have hm : 0 < m := by
    rcases Nat.eq_zero_or_pos m with h | h
    · rw [h, Nat.mul_zero] at hc; omega
    · exact h
  have hbeg : ∀ j, channelBegin (nBlocks * m) nBlocks j = j * m := by
    intro j
    rw [channelBegin, ← Nat.mul_assoc, Nat.mul_comm j, Nat.mul_assoc, Nat.mul_div_cancel_left _ hb]
  have hidx : c * nBlocks / (nBlocks * m) = c / m := by
    rw [Nat.mul_comm c, Nat.mul_div_mul_left _ _ hb]
  refine ⟨c / m, ?_, ?_, ?_, ?_⟩
  · rw [chanBlockIndex, if_neg, hidx]
    have := Nat.le_mul_of_pos_right nBlocks hm
    omega
  · rw [Nat.div_lt_iff_lt_mul hm]; exact hc
  · rw [hbeg]; exact Nat.div_mul_le_self c m
  · rw [hbeg, Nat.mul_comm]; exact Nat.lt_mul_div_succ c hm

/-- A rejected row: fewer channels than channel blocks. -/
example : chanBlockIndex 0 1 2 = none := by decide

example : applyBlocks 2 (blockStarts 8 2 (1 : ℚ)) 0 ((List.range 4).map (chanFreq 8 4 1)) =
    some [0, 0, 1, 1] ∧ (List.range 3).map (channelBegin 4 2) = [0, 2, 4] := by decide +kernel

/-- **C67 fails.**  With ten channels in three blocks (3, 3 and 4 channels) and a row averaged by
two, `SolveData` puts channel 1 into block 1 and channel 3 into block 2, but `ApplySolutions` and
`GetChanBlockIndex` use blocks 0 and 1 for channel 1, respectively 3. -/
theorem blocks_differ :
    (List.range 4).map (channelBegin 5 3) = [0, 1, 3, 5] ∧
    applyBlocks 3 (blockStarts 10 3 (1 : ℚ)) 0 ((List.range 5).map (chanFreq 10 5 1)) =
      some [0, 0, 1, 2, 2] ∧
    (List.range 5).map (fun c => chanBlockIndex c 5 3) =
      [some 0, some 0, some 1, some 1, some 2] := by
  decide +kernel

end DP3.SolveData
