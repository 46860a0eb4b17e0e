import Verif.Aartfaac.Model
import Verif.BaselineIndices.Props
import Mathlib.Tactic.Ring
import Mathlib.Tactic.Linarith
import Mathlib.Tactic.LinearCombination
import Mathlib.Tactic.FieldSimp
import Mathlib.Algebra.Field.Rat
import Mathlib.Algebra.Order.Ring.Rat

/-!
# Properties of the reader of AARTFAAC files
-/

namespace DP3.Aartfaac
set_option linter.unusedSimpArgs false
set_option linter.unusedSectionVars false

/-! ## Blocks -/

section Blocks
variable {α : Type}

/-- The bytes of a file: blocks with a header of 1536 bytes and data of `B` bytes, and `tail` bytes that are no whole block. -/
structure IsFile (bytes : List α) (B : Nat) (blocks : List (List α × List α)) (tail : List α) : Prop where
  bytes_eq : bytes = (blocks.map fun b => b.1 ++ b.2).flatten ++ tail
  sizes : ∀ b ∈ blocks, b.1.length = 1536 ∧ b.2.length = B
  tail_lt : tail.length < 1536 + B

theorem flatten_drop (B : Nat) (blocks : List (List α × List α)) (tail : List α)
    (hs : ∀ b ∈ blocks, b.1.length = 1536 ∧ b.2.length = B) (k : Nat) (hk : k ≤ blocks.length) :
    ((blocks.map fun b => b.1 ++ b.2).flatten ++ tail).drop (k * (1536 + B)) =
      ((blocks.drop k).map fun b => b.1 ++ b.2).flatten ++ tail := by
  induction k generalizing blocks with
  | zero => simp
  | succ k ih =>
    cases blocks with
    | nil => simp at hk
    | cons b bs =>
      have h1 := hs b (by simp)
      have hl : (b.1 ++ b.2).length = 1536 + B := by simp [h1.1, h1.2]
      have : (k + 1) * (1536 + B) = (b.1 ++ b.2).length + k * (1536 + B) := by rw [hl]; ring
      rw [this]
      simp only [List.map_cons, List.flatten_cons, List.append_assoc]
      rw [← List.append_assoc b.1 b.2, ← List.drop_drop, List.drop_left]
      rw [ih bs (fun x hx => hs x (by simp [hx])) (by simpa using hk)]
      simp

theorem flatten_length (B : Nat) (blocks : List (List α × List α))
    (hs : ∀ b ∈ blocks, b.1.length = 1536 ∧ b.2.length = B) :
    ((blocks.map fun b => b.1 ++ b.2).flatten).length = blocks.length * (1536 + B) := by
  induction blocks with
  | nil => simp
  | cons b bs ih =>
    have h1 := hs b (by simp)
    simp only [List.map_cons, List.flatten_cons, List.length_append, List.length_cons]
    rw [ih fun x hx => hs x (by simp [hx]), h1.1, h1.2]
    ring

/-- The position in the stream is that of the block to be read. -/
def AtBlock (bytes : List α) (B : Nat) (f : File α) : Prop :=
  f.bytes = bytes ∧ f.blockSize = B ∧ f.offset = f.blockPosition * (1536 + B)

theorem at_open (bytes : List α) (B : Nat) : AtBlock bytes B (openFile bytes B) := by
  simp [AtBlock, openFile]

theorem readBytes_keeps (f g : File α) (n : Nat) (l : List α) (h : readBytes f n = some (l, g)) :
    g = { f with offset := f.offset + n } := by
  simp only [readBytes] at h
  split at h
  · simp only [Option.some.injEq, Prod.mk.injEq] at h; exact h.2.symm
  · simp at h

theorem at_step (bytes : List α) (B : Nat) (f g : File α) (op : Op) (l : List α) (hf : AtBlock bytes B f)
    (h : step f op = some (l, g)) : AtBlock bytes B g := by
  obtain ⟨h1, h2, h3⟩ := hf
  cases op with
  | skip n =>
    simp only [step, skip, Option.some.injEq, Prod.mk.injEq] at h
    obtain ⟨-, rfl⟩ := h
    refine ⟨h1, h2, ?_⟩
    simp only [headerSize, h2, h3]; ring
  | seek n =>
    simp only [step, seek, Option.some.injEq, Prod.mk.injEq] at h
    obtain ⟨-, rfl⟩ := h
    exact ⟨h1, h2, by simp [headerSize, h2]⟩
  | read =>
    simp only [step, Option.map_eq_some_iff, readTimestep] at h
    obtain ⟨⟨⟨a, b⟩, f2⟩, h, he⟩ := h
    simp only [Prod.mk.injEq] at he
    obtain ⟨-, rfl⟩ := he
    cases hr : readBytes f headerSize with
    | none => simp [hr] at h
    | some r =>
      obtain ⟨l1, f1⟩ := r
      have k1 := readBytes_keeps _ _ _ _ hr
      simp only [hr] at h
      cases hr2 : readBytes f1 f1.blockSize with
      | none => simp [hr2] at h
      | some r2 =>
        obtain ⟨l2, f3⟩ := r2
        have k2 := readBytes_keeps _ _ _ _ hr2
        simp only [hr2, Option.some.injEq, Prod.mk.injEq] at h
        obtain ⟨-, rfl⟩ := h
        subst k2; subst k1
        refine ⟨h1, h2, ?_⟩
        simp only [headerSize, h2, h3]; ring
  | metadata =>
    simp only [step, readMetadata] at h
    cases hr : readBytes f headerSize with
    | none => simp [hr] at h
    | some r =>
      obtain ⟨l1, f1⟩ := r
      have k1 := readBytes_keeps _ _ _ _ hr
      simp only [hr, Option.some.injEq, Prod.mk.injEq] at h
      obtain ⟨-, rfl⟩ := h
      subst k1
      exact ⟨h1, h2, by simp [seek, headerSize, h2]⟩

theorem at_run (bytes : List α) (B : Nat) (ops : List Op) (f g : File α) (l : List (List α)) (hf : AtBlock bytes B f)
    (h : run f ops = some (l, g)) : AtBlock bytes B g := by
  induction ops generalizing f l with
  | nil =>
    simp only [run, Option.some.injEq, Prod.mk.injEq] at h
    exact h.2 ▸ hf
  | cons op ops ih =>
    simp only [run] at h
    cases hs : step f op with
    | none => simp [hs] at h
    | some r =>
      simp only [hs, Option.map_eq_some_iff] at h
      obtain ⟨r2, h2, h3⟩ := h
      simp only [Prod.mk.injEq] at h3
      obtain ⟨-, rfl⟩ := h3
      exact ih r.2 r2.1 (at_step bytes B f r.2 op r.1 hf hs) h2

theorem read_at {bytes : List α} {B : Nat} {blocks : List (List α × List α)} {tail : List α}
    (hfile : IsFile bytes B blocks tail) (f : File α) (hf : AtBlock bytes B f) (b : List α × List α)
    (hb : blocks[f.blockPosition]? = some b) :
    readTimestep f = some (b, { f with offset := (f.blockPosition + 1) * (1536 + B), blockPosition := f.blockPosition + 1 }) := by
  obtain ⟨h1, h2, h3⟩ := hf
  obtain ⟨hk, hb'⟩ := List.getElem?_eq_some_iff.mp hb
  have hd : bytes.drop f.offset = b.1 ++ (b.2 ++ (((blocks.drop (f.blockPosition + 1)).map fun b => b.1 ++ b.2).flatten ++ tail)) := by
    rw [hfile.bytes_eq, h3, flatten_drop B blocks tail hfile.sizes _ (by omega), List.drop_eq_getElem_cons hk, hb']
    simp
  have hsz := hfile.sizes b (List.mem_of_getElem? hb)
  have hd2 : bytes.drop (f.offset + 1536) = b.2 ++ (((blocks.drop (f.blockPosition + 1)).map fun b => b.1 ++ b.2).flatten ++ tail) := by
    rw [← List.drop_drop, hd, ← hsz.1, List.drop_left]
  have r1 : readBytes f headerSize = some (b.1, { f with offset := f.offset + 1536 }) := by
    simp only [readBytes, h1, hd, headerSize]
    rw [← hsz.1, List.take_left]
    simp
  have r2 : readBytes { f with offset := f.offset + 1536 } B =
      some (b.2, { f with offset := f.offset + 1536 + B }) := by
    simp only [readBytes, h1, hd2]
    rw [← hsz.2, List.take_left]
    simp
  rw [h2] at r2
  simp only [readTimestep, r1, h2, r2]
  have : f.offset + 1536 + B = (f.blockPosition + 1) * (1536 + B) := by rw [h3]; ring
  rw [this]

theorem read_past {bytes : List α} {B : Nat} {blocks : List (List α × List α)} {tail : List α}
    (hfile : IsFile bytes B blocks tail) (f : File α) (hf : AtBlock bytes B f) (hb : blocks.length ≤ f.blockPosition) :
    readTimestep f = none := by
  obtain ⟨h1, h2, h3⟩ := hf
  have hlen : (bytes.drop f.offset).length < 1536 + B := by
    rw [List.length_drop, hfile.bytes_eq, List.length_append, flatten_length B blocks hfile.sizes, h3]
    have := hfile.tail_lt
    have := Nat.mul_le_mul_right (1536 + B) hb
    omega
  have hlen' : bytes.length - f.offset < 1536 + B := by simpa using hlen
  simp only [readTimestep]
  cases hr : readBytes f headerSize with
  | none => rfl
  | some r =>
    obtain ⟨l1, f1⟩ := r
    have k1 := readBytes_keeps _ _ _ _ hr
    have hge : 1536 ≤ bytes.length - f.offset := by
      by_contra hc
      simp only [readBytes] at hr
      rw [if_neg (by simp [h1, headerSize]; omega)] at hr
      simp at hr
    subst k1
    have : readBytes { f with offset := f.offset + headerSize } f.blockSize = none := by
      simp only [readBytes, headerSize, h2]
      rw [if_neg]
      simp [h1]; omega
    simp [this]

/-- C237: after any calls, `ReadTimestep` returns header and data of the block of which `BlockPos` is the number and goes to the next
one, and throws exactly when there is no such block. -/
theorem read_block {bytes : List α} {B : Nat} {blocks : List (List α × List α)} {tail : List α}
    (hfile : IsFile bytes B blocks tail) (ops : List Op) (l : List (List α)) (f : File α)
    (h : run (openFile bytes B) ops = some (l, f)) :
    (∀ b, blocks[f.blockPosition]? = some b →
      ∃ g, readTimestep f = some (b, g) ∧ g.blockPosition = f.blockPosition + 1) ∧
      (blocks.length ≤ f.blockPosition → readTimestep f = none) := by
  have ha := at_run bytes B ops _ f l (at_open bytes B) h
  exact ⟨fun b hb => ⟨_, read_at hfile f ha b hb, rfl⟩, read_past hfile f ha⟩

/-- C237: after any calls, `ReadMetadata` returns the header of the block that is read next, and does not change what is read next. -/
theorem metadata_block {bytes : List α} {B : Nat} {blocks : List (List α × List α)} {tail : List α}
    (hfile : IsFile bytes B blocks tail) (ops : List Op) (l : List (List α)) (f : File α)
    (h : run (openFile bytes B) ops = some (l, f)) (b : List α × List α) (hb : blocks[f.blockPosition]? = some b) :
    readMetadata f = some (b.1, f) := by
  have ha := at_run bytes B ops _ f l (at_open bytes B) h
  have hr := read_at hfile f ha b hb
  simp only [readTimestep] at hr
  simp only [readMetadata]
  cases hh : readBytes f headerSize with
  | none => simp [hh] at hr
  | some r =>
    obtain ⟨l1, f1⟩ := r
    have k1 := readBytes_keeps _ _ _ _ hh
    simp only [hh] at hr
    cases h2 : readBytes f1 f1.blockSize with
    | none => simp [h2] at hr
    | some r2 =>
      simp only [h2, Option.some.injEq, Prod.mk.injEq] at hr
      have : l1 = b.1 := by rw [← hr.1]
      subst k1
      obtain ⟨h1', h2', h3'⟩ := ha
      simp only [seek, this, Option.some.injEq, Prod.mk.injEq, true_and]
      cases f
      simp only at h2' h3' ⊢
      subst h2'
      simp [headerSize, h3']

/-- A file with two blocks and 5 more bytes. -/
example : IsFile (List.replicate (2 * 1544 + 5) 'a') 8
    [(List.replicate 1536 'a', List.replicate 8 'a'), (List.replicate 1536 'a', List.replicate 8 'a')] (List.replicate 5 'a') where
  bytes_eq := by
    simp only [List.map_cons, List.map_nil, List.flatten_cons, List.flatten_nil, List.append_nil, List.replicate_append_replicate]
  sizes := by
    intro b hb
    simp only [List.mem_cons, List.not_mem_nil, or_false, or_self] at hb
    rw [hb]
    exact ⟨List.length_replicate, List.length_replicate⟩
  tail_lt := by rw [List.length_replicate]; norm_num

/-! ## All blocks -/

theorem readAll_spec {bytes : List α} {B : Nat} {blocks : List (List α × List α)} {tail : List α} (hB : 0 < B)
    (hfile : IsFile bytes B blocks tail) (nTimes : Nat) (fuel : Nat) (f : File α) (hf : AtBlock bytes B f)
    (hpos : f.blockPosition ≤ blocks.length) (hn : nTimes = 0 ∨ f.blockPosition ≤ nTimes)
    (hfuel : blocks.length < f.blockPosition + fuel) :
    readAll nTimes fuel f.blockPosition f =
      (((if nTimes = 0 then blocks else blocks.take nTimes).drop f.blockPosition),
        if (nTimes = 0 ∨ blocks.length < nTimes) ∧ B ≤ 1536 * blocks.length + tail.length then .throws else .finished) := by
  induction fuel generalizing f with
  | zero => omega
  | succ fuel ih =>
    have hlen : bytes.length = blocks.length * (1536 + B) + tail.length := by
      rw [hfile.bytes_eq, List.length_append, flatten_length B blocks hfile.sizes]
    have hdiv : bytes.length / B = blocks.length + (1536 * blocks.length + tail.length) / B := by
      rw [hlen]
      have : blocks.length * (1536 + B) + tail.length = (1536 * blocks.length + tail.length) + B * blocks.length := by ring
      rw [this, Nat.add_mul_div_left _ _ hB]; omega
    simp only [readAll]
    have hmore : hasMore f = decide (f.blockPosition < blocks.length + (1536 * blocks.length + tail.length) / B) := by
      simp [hasMore, hf.1, hf.2.1, hdiv]
    have hge : (0 < (1536 * blocks.length + tail.length) / B) ↔ B ≤ 1536 * blocks.length + tail.length := by
      rw [Nat.div_pos_iff]; omega
    by_cases hlt : f.blockPosition < blocks.length
    · by_cases hlim : f.blockPosition < nTimes ∨ nTimes = 0
      · rw [if_pos ⟨by rw [hmore, decide_eq_true_iff]; exact Nat.lt_add_right _ hlt, hlim⟩]
        have hb : blocks[f.blockPosition]? = some blocks[f.blockPosition] := List.getElem?_eq_getElem hlt
        rw [read_at hfile f hf _ hb]
        simp only
        have hg : AtBlock bytes B { f with offset := (f.blockPosition + 1) * (1536 + B), blockPosition := f.blockPosition + 1 } :=
          ⟨hf.1, hf.2.1, rfl⟩
        have := ih _ hg (by simp only; omega) (by simp only; omega) (by simp only; omega)
        simp only at this
        rw [this]
        simp only [Prod.mk.injEq, and_true]
        by_cases h0 : nTimes = 0
        · simp only [h0, if_true]
          rw [← List.drop_eq_getElem_cons hlt]
        · simp only [h0, if_false]
          have hl : f.blockPosition < (blocks.take nTimes).length := by
            rw [List.length_take]; omega
          rw [List.drop_eq_getElem_cons hl]
          simp
      · rw [if_neg (fun h => hlim h.2)]
        have h0 : nTimes ≠ 0 := fun h => hlim (Or.inr h)
        have he : f.blockPosition = nTimes := by omega
        rw [if_neg (by omega : ¬ ((nTimes = 0 ∨ blocks.length < nTimes) ∧ _)), if_neg h0]
        simp [he]
    · have he : f.blockPosition = blocks.length := by omega
      have hdrop : (if nTimes = 0 then blocks else blocks.take nTimes).drop f.blockPosition = [] := by
        rw [List.drop_eq_nil_iff]
        split
        · omega
        · rw [List.length_take]; omega
      rw [hdrop]
      by_cases hc : (nTimes = 0 ∨ blocks.length < nTimes) ∧ B ≤ 1536 * blocks.length + tail.length
      · rw [if_pos ⟨by rw [hmore]; simp; have := hge.mpr hc.2; omega, by omega⟩, read_past hfile f hf (by omega), if_pos hc]
      · rw [if_neg, if_neg hc]
        rintro ⟨h1, h2⟩
        rw [hmore] at h1
        simp at h1
        exact hc ⟨by omega, hge.mp (by omega)⟩

/-- C238, for a number of time steps that is in the file, and for files of which the data of one block are larger than all headers and
the remaining bytes together: the blocks are sent in order, and the run finishes. -/
theorem all_blocks_partial {bytes : List α} {B : Nat} {blocks : List (List α × List α)} {tail : List α} (hB : 0 < B)
    (hfile : IsFile bytes B blocks tail) (nTimes : Nat)
    (h : (0 < nTimes ∧ nTimes ≤ blocks.length) ∨ 1536 * blocks.length + tail.length < B) :
    readAll nTimes (blocks.length + 1) 0 (openFile bytes B) =
      (if nTimes = 0 then blocks else blocks.take nTimes, .finished) := by
  have := readAll_spec hB hfile nTimes (blocks.length + 1) (openFile bytes B) (at_open bytes B) (by simp [openFile])
    (by simp [openFile]) (by simp [openFile])
  have h0 : (openFile bytes B).blockPosition = 0 := rfl
  rw [h0] at this
  rw [this, if_neg (c := (nTimes = 0 ∨ blocks.length < nTimes) ∧ _) (by omega)]
  simp

/-- C238 is false: in all other cases the reader sends all blocks, and then throws instead of finishing. -/
theorem all_blocks_wrong {bytes : List α} {B : Nat} {blocks : List (List α × List α)} {tail : List α} (hB : 0 < B)
    (hfile : IsFile bytes B blocks tail) (nTimes : Nat) (hn : nTimes = 0 ∨ blocks.length < nTimes)
    (h : B ≤ 1536 * blocks.length + tail.length) :
    readAll nTimes (blocks.length + 1) 0 (openFile bytes B) = (blocks, .throws) := by
  have := readAll_spec hB hfile nTimes (blocks.length + 1) (openFile bytes B) (at_open bytes B) (by simp [openFile])
    (by simp [openFile]) (by simp [openFile])
  have h0 : (openFile bytes B).blockPosition = 0 := rfl
  rw [h0] at this
  rw [this, if_pos (c := (nTimes = 0 ∨ blocks.length < nTimes) ∧ _) ⟨hn, h⟩]
  split
  · simp
  · simp only [List.drop_zero, Prod.mk.injEq, and_true]
    exact List.take_of_length_le (by omega)

/-- C238: `NTimesteps` is the number of blocks exactly for the files that are read without an exception. -/
theorem nTimesteps_iff {bytes : List α} {B : Nat} {blocks : List (List α × List α)} {tail : List α} (hB : 0 < B)
    (hfile : IsFile bytes B blocks tail) :
    nTimesteps (openFile bytes B) = blocks.length ↔ 1536 * blocks.length + tail.length < B := by
  have hlen : bytes.length = blocks.length * (1536 + B) + tail.length := by
    rw [hfile.bytes_eq, List.length_append, flatten_length B blocks hfile.sizes]
  have : blocks.length * (1536 + B) + tail.length = (1536 * blocks.length + tail.length) + B * blocks.length := by ring
  simp only [nTimesteps, openFile, hlen, this]
  rw [Nat.add_mul_div_left _ _ hB]
  rw [← Nat.div_eq_zero_iff_lt hB]
  constructor
  · intro h; exact Nat.add_eq_right.mp h
  · intro h; rw [h]; simp

/-- One antenna with 8 channels and 4 polarizations: already one block of 256 bytes is too small. With 576 antennas and 64 channels a
block has 340 MB, and 221567 blocks can be read. -/
example : blockSize (⟨magicTag, 1, 4, 15, 0, 1, 8, 0, 1⟩ : Header ℚ) = 256 ∧ 256 ≤ 1536 * 1 + 0 ∧
    blockSize (⟨magicTag, 576, 4, 15, 0, 1, 64, 0, 1⟩ : Header ℚ) = 340328448 ∧ 1536 * 221567 + 0 < 340328448 := by
  decide +kernel

end Blocks

/-! ## The header -/

section Head
variable {K : Type}

/-- C239, for the correlation mode: a file with another mode than 15 is refused. -/
theorem mode_checked_partial (h : Header K) : check h = .ok ↔ h.correlationMode = 15 := by
  simp only [check, Header.getMagic]
  by_cases h1 : h.correlationMode = 15 <;> simp [h1]

/-- C239 is false: no file is refused because of its first bytes. -/
theorem magic_not_checked (h : Header K) : check h ≠ .magicError := by
  simp only [check, Header.getMagic]
  by_cases h1 : h.correlationMode = 15 <;> simp [h1]

/-- A file that starts with zeros is accepted. -/
example : check (⟨0, 2, 4, 15, 0, 1, 8, 0, 1⟩ : Header ℚ) = .ok ∧ (0 : Nat) ≠ magicTag ∧
    check (⟨magicTag, 2, 4, 5, 0, 1, 8, 0, 1⟩ : Header ℚ) = .correlationModeError := by decide

end Head

/-! ## Meta data -/

section Meta
variable {K : Type} [Field K] [CharZero K]

theorem infoFrequency (h : Header K) (ch : Nat) (hc : ch < h.channels) :
    (infoFrequencies h)[ch]? = some (h.firstFrequency + h.bandwidth * ((ch : K) + 1)) := by
  simp only [infoFrequencies, List.getElem?_map, List.getElem?_range hc, Option.map_some, Option.some.injEq]
  field_simp
  ring

/-- C240 is false: the frequencies that later steps get are one channel width above the ones in the table of the spectral window. -/
theorem frequencies_shifted (h : Header K) (ch : Nat) (hc : ch < h.channels) :
    ∃ f, (tableFrequencies h)[ch]? = some f ∧ (infoFrequencies h)[ch]? = some (f + h.bandwidth) := by
  refine ⟨h.firstFrequency + h.bandwidth * (ch : K), ?_, ?_⟩
  · simp [tableFrequencies, List.getElem?_map, List.getElem?_range hc]
  · rw [infoFrequency h ch hc]
    congr 1; ring

/-- C240, for differences: the distance of two channels is the same in both. -/
theorem frequency_step_partial (h : Header K) (a b : Nat) (ha : a < h.channels) (hb : b < h.channels) :
    ∃ fa fb ta tb, (infoFrequencies h)[a]? = some fa ∧ (infoFrequencies h)[b]? = some fb ∧
      (tableFrequencies h)[a]? = some ta ∧ (tableFrequencies h)[b]? = some tb ∧
      fa - fb = ta - tb ∧ fa - fb = h.bandwidth * ((a : K) - (b : K)) := by
  obtain ⟨ta, h1, h2⟩ := frequencies_shifted h a ha
  obtain ⟨tb, h3, h4⟩ := frequencies_shifted h b hb
  refine ⟨_, _, _, _, h2, h4, h1, h3, by ring, ?_⟩
  rw [infoFrequency h a ha, Option.some.injEq] at h2
  rw [infoFrequency h b hb, Option.some.injEq] at h4
  rw [← h2, ← h4]; ring

/-- C240 is false for times: the first time in the meta data differs by 40587 days from that of the first buffer. -/
theorem times_shifted (first last : Header K) :
    (bufferTime first).1 = (infoTimes first last).1 + 40587 * 86400 ∧ (bufferTime first).1 ≠ (infoTimes first last).1 := by
  have h : (bufferTime first).1 = (infoTimes first last).1 + 40587 * 86400 := rfl
  refine ⟨h, ?_⟩
  rw [h]
  intro h2
  have : (40587 * 86400 : K) = 0 := by linear_combination h2
  norm_num at this

/-- C240: the exposure of a buffer is the integration time in its header, and the weight is its product with the channel width. -/
theorem exposure_weight (first h : Header K) :
    (bufferTime h).2 = h.endTime - h.startTime ∧
      bufferWeight first h = (h.endTime - h.startTime) * first.bandwidth := by
  simp only [bufferWeight, bufferTime, timeToCasa]
  constructor <;> ring

example : infoFrequencies (⟨magicTag, 2, 4, 15, 0, 1, 3, 60, 2⟩ : Header ℚ) = [62, 64, 66] ∧
    tableFrequencies (⟨magicTag, 2, 4, 15, 0, 1, 3, 60, 2⟩ : Header ℚ) = [60, 62, 64] := by decide +kernel

/-! ## Data -/

theorem sumParts_isNone (l : List (Option K)) : (sumParts l).isNone = true ↔ none ∈ l := by
  induction l with
  | nil => simp [sumParts]
  | cons a l ih =>
    cases a with
    | none => simp [sumParts]
    | some x =>
      cases h : sumParts l with
      | none => simp [sumParts, h] at ih ⊢; exact ih
      | some y => simp [sumParts, h] at ih ⊢; exact ih

/-- C241, for real parts: all polarizations of a channel are flagged exactly when the real part of one of them is not finite. -/
theorem flag_iff_partial (c s : K) (vis : List (Vis K)) :
    (channelOut c s vis).1 = true ↔ ∃ v ∈ vis, v.re = none := by
  simp only [channelOut, channelFlag, sumParts_isNone, List.mem_map]

/-- C241: flagged data are zero. -/
theorem flagged_zero (c s : K) (vis : List (Vis K)) (h : (channelOut c s vis).1 = true) :
    ∀ v ∈ (channelOut c s vis).2, v = ⟨some 0, some 0⟩ := by
  intro v hv
  simp only [channelOut] at h
  simp only [channelOut, clearFlagged, h, if_true, List.map_map, List.mem_map, Function.comp_apply] at hv
  obtain ⟨-, -, rfl⟩ := hv
  simp [rotate, combine]

/-- C241 is false for imaginary parts: when only one of these is not finite, the channel is not flagged, and both parts of that
visibility are not finite in the buffer. -/
theorem imaginary_not_flagged (c s : K) (vis : List (Vis K)) (hre : ∀ v ∈ vis, v.re ≠ none) (i : Nat) (x : K)
    (hv : vis[i]? = some ⟨some x, none⟩) :
    (channelOut c s vis).1 = false ∧ (channelOut c s vis).2[i]? = some ⟨none, none⟩ := by
  have hf : (channelOut c s vis).1 = false := by
    rw [← Bool.not_eq_true, flag_iff_partial]
    rintro ⟨v, h1, h2⟩
    exact hre v h1 h2
  refine ⟨hf, ?_⟩
  simp only [channelOut] at hf
  simp [channelOut, clearFlagged, hf, List.getElem?_map, hv, rotate, combine]

/-- C241: the delay correction keeps the amplitude of visibilities that are finite, and is undone by the opposite angle. -/
theorem delay_keeps (c s : K) (hcs : c * c + s * s = 1) (vis : List (Vis K)) (h : (channelOut c s vis).1 = false) (i : Nat)
    (x y : K) (hv : vis[i]? = some ⟨some x, some y⟩) :
    ∃ p q, (channelOut c s vis).2[i]? = some ⟨some p, some q⟩ ∧ p * p + q * q = x * x + y * y ∧
      rotate c (-s) ⟨some p, some q⟩ = ⟨some x, some y⟩ := by
  simp only [channelOut] at h
  refine ⟨x * c + y * (-s), x * s + y * c, ?_, ?_, ?_⟩
  · simp [channelOut, clearFlagged, h, List.getElem?_map, hv, rotate, combine]
  · linear_combination (x * x + y * y) * hcs
  · simp only [rotate, combine, Vis.mk.injEq, Option.some.injEq, neg_neg]
    constructor
    · linear_combination x * hcs
    · linear_combination y * hcs

example : channelOut (3 / 5) (4 / 5) [⟨some 1, some 2⟩, ⟨some 1, none⟩] =
      (false, [⟨some (-1 : ℚ), some 2⟩, ⟨none, none⟩]) ∧
    channelOut (3 / 5) (4 / 5) [⟨some 1, some 2⟩, ⟨none, some 1⟩] =
      (true, [⟨some (0 : ℚ), some 0⟩, ⟨some 0, some 0⟩]) := by decide +kernel

/-! ## Arrays -/

/-- C242 is false: the arrays are large enough only when data, flags and UVW are all asked for (for a file with visibilities). -/
theorem fields_needed (h : Header K) (r : Fields) (hv : 0 < visPerTimestep h) :
    inBounds h r = true ↔ r.data = true ∧ r.flags = true ∧ r.uvw = true := by
  have hb : 0 < nBaselines h := by
    rcases Nat.eq_zero_or_pos (nBaselines h) with h0 | h0
    · simp [visPerTimestep, h0] at hv
    · exact h0
  rcases r with ⟨d, f, w, u⟩
  cases d <;> cases f <;> cases u <;> simp [inBounds, sizes] <;> omega

theorem nBaselines_eq (h : Header K) : nBaselines h = BaselineIndices.nBaselines h.receivers := by
  have := BaselineIndices.two_nBaselines h.receivers
  simp only [nBaselines]
  apply Nat.div_eq_of_eq_mul_left (by norm_num)
  linarith

/-- C242: the meta data for later steps have all pairs of antennas, each with the smaller number first, in the order of the file. -/
theorem output_info_partial (s : StepInfo K) (info : Info K) (h : Header K) (i : Nat) (hi : i < nBaselines h) :
    ∃ a b, (updateInfo s info h).output.ant1[i]? = some a ∧ (updateInfo s info h).output.ant2[i]? = some b ∧
      a ≤ b ∧ b < h.receivers ∧ i = b * (b + 1) / 2 + a := by
  have hb := BaselineIndices.baselineIndex_baseline (nBaselines_eq h ▸ hi) .columnMajor
  refine ⟨(BaselineIndices.baseline i h.receivers .columnMajor).1, (BaselineIndices.baseline i h.receivers .columnMajor).2, ?_, ?_, ?_⟩
  · simp [updateInfo, datasetInfo, List.getElem?_map, List.getElem?_range hi]
  · simp [updateInfo, datasetInfo, List.getElem?_map, List.getElem?_range hi]
  · exact ⟨hb.1, hb.2.1, by
      have h3 := hb.2.2
      simp only [BaselineIndices.baselineIndex, min_eq_left hb.1, max_eq_right hb.1] at h3
      exact h3.symm⟩

theorem mapM_none {β γ : Type} (l : List β) (f : β → Option γ) (b : β) (hb : b ∈ l) (h : f b = none) : l.mapM f = none := by
  induction l with
  | nil => simp at hb
  | cons a l ih =>
    rw [List.mapM_cons]
    rcases List.mem_cons.mp hb with rfl | hb
    · simp [h]
    · cases ha : f a with
      | none => simp
      | some x => simp [ih hb]

/-- C242 is false: the reader never sets the meta data of its input, but looks up antennas there. For every file with an antenna the
first block already makes it read past the end of an empty vector. -/
theorem process_undefined (info : Info K) (h : Header K) (hr : 0 < h.receivers) :
    lookupAll (updateInfo ⟨emptyInfo, emptyInfo⟩ info h) h = none := by
  have hb : 0 < nBaselines h := by
    simp only [nBaselines]
    apply Nat.div_pos _ (by norm_num)
    nlinarith
  exact mapM_none _ _ 0 (by simpa using hb) (by simp [lookupBaseline, updateInfo, emptyInfo])

example : (datasetInfo (⟨magicTag, 2, 4, 15, 0, 1, 1, 60, 2⟩ : Header ℚ)).ant1 = [0, 0, 1] ∧
    (datasetInfo (⟨magicTag, 2, 4, 15, 0, 1, 1, 60, 2⟩ : Header ℚ)).ant2 = [0, 1, 1] := by decide +kernel

end Meta

end DP3.Aartfaac
