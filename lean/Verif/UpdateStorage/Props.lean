import Verif.UpdateStorage.Model
import Mathlib.Tactic.SplitIfs

/-! Properties of the columns that an update adds. -/

namespace DP3.UpdateStorage

variable {V : Type}

theorem mask_length (bad : V) (fs : List Bool) (vs : List V) (h : fs.length ≤ vs.length) : (mask bad fs vs).length = vs.length := by
  induction fs generalizing vs with
  | nil => rfl
  | cons f fs ih =>
    cases vs with
    | nil => simp at h
    | cons v vs => simp only [mask, List.length_cons, ih vs (by simpa using h)]

theorem mask_get (bad : V) (fs : List Bool) (vs : List V) (i : Nat) :
    (mask bad fs vs)[i]? = vs[i]?.map fun v => if fs[i]? = some true then bad else v := by
  induction fs generalizing vs i with
  | nil => simp [mask]
  | cons f fs ih =>
    cases vs with
    | nil => simp [mask]
    | cons v vs =>
      cases i with
      | zero => simp [mask]
      | succ i => simp only [mask, List.getElem?_cons_succ, ih]

/-- C269: when a column is stored with Dysco after an update. -/
theorem compressed_iff (keys : Keys) (kind : Kind) (ms : Ms) :
    addColumn keys kind ms = some .dysco ↔ ms.existing = some .dysco ∨
      (ms.existing = none ∧ keys.name = "dysco" ∧ keys.dataBitRate ≠ 0 ∧ kind ≠ .flags) ∨
      (ms.existing = none ∧ keys.name ≠ "stokes_i" ∧ kind = .flags ∧ ms.flagManager = .dysco) := by
  obtain ⟨name, rate, wrate⟩ := keys
  obtain ⟨ex, dm, fm, all⟩ := ms
  cases ex with
  | some m => simp [addColumn]
  | none =>
    by_cases h1 : name = "sisco"
    · subst h1; cases kind <;> cases all <;> cases dm <;> simp [addColumn]
    · by_cases h2 : name = "stokes_i"
      · subst h2; simp [addColumn]
      · by_cases h3 : name = "dysco"
        · subst h3; by_cases h4 : rate = 0 <;> cases kind <;> cases dm <;> simp [addColumn, h4]
        · cases kind <;> cases dm <;> simp [addColumn, h1, h2, h3]

/-- C269: a new column is not compressed without being asked for, whatever DATA is stored with, as far as Dysco is concerned; and flags
are stored like FLAG, unless only Stokes I is stored. -/
theorem not_asked (keys : Keys) (kind : Kind) (ms : Ms) (he : ms.existing = none) (hk : keys.name = "") :
    addColumn keys kind ms = some (if kind = .flags then ms.flagManager else if ms.dataManager = .dysco then .tiled else ms.dataManager) := by
  obtain ⟨name, rate, wrate⟩ := keys
  simp only at hk
  subst hk
  simp only [addColumn, he]
  cases kind <;> simp <;> split_ifs <;> rfl

/-- C269, what is proved: in a new column of data or weights the flagged values are replaced exactly if it is compressed, and all others are
those of the buffer. Needed: the bit rate is not zero, and some step reads the flags. -/
theorem replaced_partial (bad : V) (keys : Keys) (kind : Kind) (ms : Ms) (hk : kind ≠ .flags) (he : ms.existing = none)
    (hr : keys.dataBitRate ≠ 0) (writesFlags otherStep : Bool) (hf : writesFlags = true ∨ otherStep = true) (flags : List Bool)
    (values : List V) (i : Nat) :
    (written bad keys (bufferFlags writesFlags otherStep flags) values)[i]? =
      values[i]?.map fun v => if flags[i]? = some true ∧ addColumn keys kind ms = some .dysco then bad else v := by
  have hb : bufferFlags writesFlags otherStep flags = flags := by
    rcases hf with h | h <;> simp [bufferFlags, needsFlags, h]
  have hc : addColumn keys kind ms = some .dysco ↔ keys.name = "dysco" := by
    rw [compressed_iff, he]; simp [hr, hk]
  rw [hb, written]
  simp only [hc]
  by_cases hn : keys.name = "dysco"
  · rw [if_pos hn, mask_get]; simp [hn]
  · rw [if_neg hn]; simp [hn]

/-- C269 is violated: if the column exists already, or the bit rate is zero, the flagged values are lost though the column is not compressed. -/
theorem replaced_uncompressed (bad : V) (keys : Keys) (kind : Kind) (ms : Ms) (hk : kind ≠ .flags) (hn : keys.name = "dysco")
    (he : ms.existing = some .tiled ∨ (ms.existing = none ∧ keys.dataBitRate = 0)) (writesFlags otherStep : Bool)
    (hf : writesFlags = true ∨ otherStep = true) (flags : List Bool) (values : List V) (i : Nat) (v : V) (hv : values[i]? = some v)
    (hi : flags[i]? = some true) :
    addColumn keys kind ms ≠ some .dysco ∧ (written bad keys (bufferFlags writesFlags otherStep flags) values)[i]? = some bad := by
  have hb : bufferFlags writesFlags otherStep flags = flags := by
    rcases hf with h | h <;> simp [bufferFlags, needsFlags, h]
  constructor
  · rw [Ne, compressed_iff]
    rcases he with he | ⟨he, hr⟩
    · simp [he]
    · simp [he, hr, hk]
  · rw [hb, written, if_pos hn, mask_get, hv]; simp [hi]

/-- C269 is violated: if no step needs the flags, or the column is compressed already and no manager is named, the flagged values are kept. -/
theorem kept_compressed (bad : V) (keys : Keys) (kind : Kind) (ms : Ms) (flags : List Bool) (values : List V) (writesFlags otherStep : Bool)
    (h : (ms.existing = none ∧ keys.name = "dysco" ∧ keys.dataBitRate ≠ 0 ∧ kind ≠ .flags ∧ writesFlags = false ∧ otherStep = false) ∨
      (ms.existing = some .dysco ∧ keys.name ≠ "dysco")) :
    addColumn keys kind ms = some .dysco ∧ written bad keys (bufferFlags writesFlags otherStep flags) values = values := by
  rw [compressed_iff]
  rcases h with ⟨h1, h2, h3, h4, h5, h6⟩ | ⟨h1, h2⟩
  · refine ⟨Or.inr (Or.inl ⟨h1, h2, h3, h4⟩), ?_⟩
    simp [written, bufferFlags, needsFlags, h2, h5, h6, mask]
  · exact ⟨Or.inl h1, by simp [written, h2]⟩

/-- C270, what is proved: a new column of data is compressed exactly if Dysco is asked for and the bit rate is not zero, with that rate. -/
theorem data_rate (keys : Keys) (ms : Ms) (he : ms.existing = none) :
    (addColumn keys .data ms = some .dysco ↔ keys.name = "dysco" ∧ keys.dataBitRate ≠ 0) ∧
    (keys.dataBitRate ≠ 0 → bits keys .data = keys.dataBitRate) := by
  constructor
  · rw [compressed_iff, he]; simp
  · intro h; simp [bits, h]

/-- C270 is violated: whether a new column of weights is compressed depends on the bit rate of the data. With a bit rate of 0 for the weights
they get 16 bits, and with a bit rate of 0 for the data they are not compressed. -/
theorem weight_rate (keys : Keys) (ms : Ms) (he : ms.existing = none) (hn : keys.name = "dysco") :
    (keys.dataBitRate ≠ 0 → addColumn keys .weights ms = some .dysco ∧ (keys.weightBitRate = 0 → bits keys .weights = 16)) ∧
    (keys.dataBitRate = 0 → addColumn keys .weights ms ≠ some .dysco) := by
  refine ⟨fun h => ⟨?_, ?_⟩, fun h => ?_⟩
  · rw [compressed_iff, he]; simp [hn, h]
  · intro h0; simp [bits, h0]
  · rw [Ne, compressed_iff, he]; simp [hn, h]

/-- C270 is violated: a storage manager with an unknown name is not refused, and as if none was asked for. -/
theorem unknown_manager (keys : Keys) (kind : Kind) (ms : Ms) (h1 : keys.name ≠ "sisco") (h2 : keys.name ≠ "stokes_i")
    (h3 : keys.name ≠ "dysco") : addColumn keys kind ms = addColumn { keys with name := "" } kind ms := by
  simp [addColumn, h1, h2, h3]

example : addColumn ⟨"dysco", 10, 0⟩ .weights ⟨none, .tiled, .other, true⟩ = some .dysco ∧
    addColumn ⟨"dysko", 10, 12⟩ .data ⟨none, .tiled, .other, true⟩ = some .tiled := by decide

/-- A new compressed column: the second value is flagged. -/
example : addColumn ⟨"dysco", 10, 12⟩ .data ⟨none, .tiled, .other, true⟩ = some .dysco ∧
    written 0 ⟨"dysco", 10, 12⟩ (bufferFlags true false [false, true]) [5, 6] = [5, 0] ∧
    written 0 ⟨"dysco", 10, 12⟩ (bufferFlags false false [false, true]) [5, 6] = [5, 6] ∧
    addColumn ⟨"dysco", 0, 12⟩ .data ⟨none, .tiled, .other, true⟩ = some .tiled ∧
    addColumn ⟨"", 10, 12⟩ .weights ⟨none, .dysco, .other, true⟩ = some .tiled ∧
    addColumn ⟨"", 10, 12⟩ .weights ⟨none, .sisco, .other, true⟩ = some .sisco ∧
    addColumn ⟨"sisco", 10, 12⟩ .data ⟨none, .tiled, .other, false⟩ = none := by decide

end DP3.UpdateStorage
