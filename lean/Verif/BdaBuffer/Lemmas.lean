import Verif.BdaBuffer.Model

namespace DP3.BdaBuffer

variable {V W : Type}

/-- Sum of the sizes of a list of rows. -/
def totalSize (rows : List Row) : Nat := (rows.map Row.dataSize).sum

/-- Bookkeeping invariant without the offsets. -/
structure SizeInv (b : Buffer V W) : Prop where
  cap : b.remainingCapacity ≤ b.originalCapacity
  total : totalSize b.rows = b.numberOfElements
  dataLen : ∀ p ∈ b.data, p.2.length = b.numberOfElements
  flagsLen : (b.flagsCapacity = 0 → b.flags = []) ∧
    (b.flagsCapacity > 0 → b.flags.length = b.numberOfElements)
  weightsLen : (b.weightsCapacity = 0 → b.weights = []) ∧
    (b.weightsCapacity > 0 → b.weights.length = b.numberOfElements)

/-- Offsets are the sums of the sizes of the rows before. -/
def OffsetsFrom : Nat → List Row → Prop
  | _, [] => True
  | o, r :: rs => r.offset = o ∧ OffsetsFrom (o + r.dataSize) rs

theorem offsetsFrom_append (o : Nat) (rs : List Row) (r : Row) :
    OffsetsFrom o (rs ++ [r]) ↔ OffsetsFrom o rs ∧ r.offset = o + totalSize rs := by
  induction rs generalizing o with
  | nil => simp [OffsetsFrom, totalSize]
  | cons x rs ih =>
    simp only [List.cons_append, OffsetsFrom, ih, totalSize, List.map_cons, List.sum_cons]
    constructor
    · rintro ⟨h1, h2, h3⟩; exact ⟨⟨h1, h2⟩, by omega⟩
    · rintro ⟨⟨h1, h2⟩, h3⟩; exact ⟨h1, h2, by omega⟩

theorem offsetsFrom_getElem {o : Nat} {rs : List Row} (h : OffsetsFrom o rs) (i : Nat)
    (hi : i < rs.length) : rs[i].offset = o + totalSize (rs.take i) := by
  induction rs generalizing o i with
  | nil => simp at hi
  | cons x rs ih =>
    cases i with
    | zero => simpa [totalSize] using h.1
    | succ i =>
      have := ih h.2 i (by simpa using hi)
      simp only [List.getElem_cons_succ, this, List.take_succ_cons, totalSize, List.map_cons,
        List.sum_cons]
      omega

@[simp] theorem length_resize {X : Type} (l : List X) (n : Nat) (fill : Nat → X) :
    (resize l n fill).length = n := by
  simp [resize]; omega

theorem resize_same {X : Type} (l : List X) (fill : Nat → X) : resize l l.length fill = l := by
  simp [resize]

@[simp] theorem length_elements {X : Type} (n : Nat) (p : Option (Nat → X)) (d : X) :
    (elements n p d).length = n := by
  simp [elements]

theorem mem_assignPool {data : List (String × List V)} {name : String} {pool : List V}
    {p : String × List V} (h : p ∈ assignPool data name pool) : p ∈ data ∨ p.2 = pool := by
  unfold assignPool at h
  split at h
  · obtain ⟨q, hq, rfl⟩ := List.mem_map.1 h
    split
    · exact Or.inr rfl
    · exact Or.inl hq
  · rcases List.mem_append.1 h with h | h
    · exact Or.inl h
    · simp only [List.mem_singleton] at h; exact Or.inr (by rw [h])

theorem assignPool_ne_nil (data : List (String × List V)) (name : String) (pool : List V) :
    assignPool data name pool ≠ [] := by
  unfold assignPool
  split
  · rename_i h
    intro h'
    rw [List.map_eq_nil_iff] at h'
    simp [h'] at h
  · simp

theorem mem_of_findPool {data : List (String × List V)} {name : String} {pool : List V}
    (h : findPool data name = some pool) : ∃ p ∈ data, p.2 = pool := by
  unfold findPool at h
  rw [Option.map_eq_some_iff] at h
  obtain ⟨p, hp, rfl⟩ := h
  exact ⟨p, List.mem_of_find?_eq_some hp, rfl⟩

theorem sizeInv_init (n : Nat) (f : FieldSet) : SizeInv (Buffer.init n f : Buffer V W) where
  cap := Nat.le_refl _
  total := by simp [Buffer.init, totalSize, Buffer.numberOfElements]
  dataLen := by
    intro p hp
    simp only [Buffer.init] at hp
    split at hp <;> simp_all [Buffer.numberOfElements, Buffer.init]
  flagsLen := by simp [Buffer.init, Buffer.numberOfElements]
  weightsLen := by simp [Buffer.init, Buffer.numberOfElements]

theorem totalSize_append (rs : List Row) (r : Row) :
    totalSize (rs ++ [r]) = totalSize rs + r.dataSize := by
  simp [totalSize]

theorem sizeInv_addRow {b : Buffer V W} (h : SizeInv b) (z : V) (zw : W) (a : RowArgs)
    (d : Option (Nat → V)) (f : Option (Nat → Bool)) (w : Option (Nat → W)) :
    SizeInv (b.addRow z zw a d f w).1 := by
  unfold Buffer.addRow
  split
  · exact h
  · simp only
    split
    · exact h
    · rename_i hn
      have hcap := h.cap
      have hne : b.originalCapacity - (b.remainingCapacity - a.nChannels * a.nCorrelations) =
          b.numberOfElements + a.nChannels * a.nCorrelations := by
        unfold Buffer.numberOfElements; omega
      constructor
      · simp only; omega
      · simp only [totalSize_append, h.total, Buffer.numberOfElements, Row.dataSize] at *
        omega
      · intro p hp
        simp only [List.mem_map] at hp
        obtain ⟨q, hq, rfl⟩ := hp
        simp only [List.length_append, length_elements, h.dataLen q hq, Buffer.numberOfElements] at *
        omega
      · refine ⟨?_, ?_⟩
        · intro h0
          simp only at h0 ⊢
          simp [h0, h.flagsLen.1 h0]
        · intro h0
          simp only [gt_iff_lt] at h0 ⊢
          simp only [h0, if_true, List.length_append, length_elements, h.flagsLen.2 h0,
            Buffer.numberOfElements] at *
          omega
      · refine ⟨?_, ?_⟩
        · intro h0
          simp only at h0 ⊢
          simp [h0, h.weightsLen.1 h0]
        · intro h0
          simp only [gt_iff_lt] at h0 ⊢
          simp only [h0, if_true, List.length_append, length_elements, h.weightsLen.2 h0,
            Buffer.numberOfElements] at *
          omega

theorem sizeInv_step {b : Buffer V W} (h : SizeInv b) (z : V) (zw : W) (op : Op V W) :
    SizeInv (b.step z zw op) := by
  cases op with
  | addRow a d f w => exact sizeInv_addRow h z zw a d f w
  | addData name fill =>
    refine ⟨h.cap, h.total, ?_, h.flagsLen, h.weightsLen⟩
    intro p hp
    rcases mem_assignPool hp with hp | hp
    · exact h.dataLen p hp
    · rw [hp]; simp; rfl
  | removeData name =>
    refine ⟨h.cap, h.total, ?_, h.flagsLen, h.weightsLen⟩
    intro p hp
    exact h.dataLen p (List.mem_filter.1 hp).1
  | moveIn name values =>
    refine ⟨h.cap, h.total, ?_, h.flagsLen, h.weightsLen⟩
    intro p hp
    rcases mem_assignPool hp with hp | hp
    · exact h.dataLen p hp
    · rw [hp]; simp; rfl
  | rename s t =>
    simp only [Buffer.step, Buffer.rename]
    split
    · exact h
    · split
      · exact h
      · rename_i pool hpool
        refine ⟨h.cap, h.total, ?_, h.flagsLen, h.weightsLen⟩
        intro p hp
        rcases mem_assignPool (List.mem_filter.1 hp).1 with hp | hp
        · exact h.dataLen p hp
        · obtain ⟨q, hq, hq'⟩ := mem_of_findPool hpool
          have hl := h.dataLen q hq
          rw [hq', ← hp] at hl
          exact hl
  | clear =>
    refine ⟨Nat.le_refl _, ?_, ?_, ?_, ?_⟩
    · simp [Buffer.step, Buffer.clear, totalSize, Buffer.numberOfElements]
    · intro p hp
      simp only [Buffer.step, Buffer.clear, List.mem_map] at hp
      obtain ⟨q, _, rfl⟩ := hp
      simp [Buffer.step, Buffer.clear, Buffer.numberOfElements]
    · simp [Buffer.step, Buffer.clear, Buffer.numberOfElements]
    · simp [Buffer.step, Buffer.clear, Buffer.numberOfElements]
  | copy f d fl w =>
    refine ⟨Nat.zero_le _, ?_, ?_, ?_, ?_⟩
    · have := h.total
      simpa [Buffer.step, Buffer.copy, Buffer.numberOfElements] using this
    · intro p hp
      simp only [Buffer.step, Buffer.copy] at hp
      split at hp
      · obtain ⟨q, _, rfl⟩ := List.mem_map.1 hp
        simp [Buffer.step, Buffer.copy, Buffer.numberOfElements]
      · simp at hp
    · simp only [Buffer.step, Buffer.copy, Buffer.numberOfElements, Nat.sub_zero]
      cases f.flags
      · simp
      · constructor
        · intro h0
          simp only [if_true] at h0 ⊢
          rw [← List.length_eq_zero_iff, length_resize]; exact h0
        · simp
    · simp only [Buffer.step, Buffer.copy, Buffer.numberOfElements, Nat.sub_zero]
      cases f.weights
      · simp
      · constructor
        · intro h0
          simp only [if_true] at h0 ⊢
          rw [← List.length_eq_zero_iff, length_resize]; exact h0
        · simp

theorem sizeInv_run {b : Buffer V W} (h : SizeInv b) (z : V) (zw : W) (ops : List (Op V W)) :
    SizeInv (b.run z zw ops) := by
  induction ops generalizing b with
  | nil => exact h
  | cons op ops ih => exact ih (sizeInv_step h z zw op)

/-- With at least one pool, the offset for a new row is the number of elements. -/
theorem nextOffset_eq {b : Buffer V W} (h : SizeInv b)
    (hp : b.data ≠ [] ∨ b.flagsCapacity > 0 ∨ b.weightsCapacity > 0 ∨ b.numberOfElements = 0) :
    b.nextOffset = b.numberOfElements := by
  unfold Buffer.nextOffset
  have hd : ∀ p, b.data.getLast? = some p → p.2.length = b.numberOfElements :=
    fun p hp => h.dataLen p (List.mem_of_getLast? hp)
  have hf := h.flagsLen
  have hw := h.weightsLen
  cases hl : b.data.getLast? with
  | none =>
    rw [List.getLast?_eq_none_iff] at hl
    simp only [hl, ne_eq, not_true_eq_false, false_or] at hp
    simp only [Option.map_none, Option.getD_none, if_true]
    by_cases hf0 : b.flagsCapacity > 0
    · simp only [hf0, if_true, hf.2 hf0]
      split
      · split
        · rename_i h1 _; exact hw.2 h1
        · rfl
      · rfl
    · simp only [hf0, if_false]
      split
      · rename_i h1; simp [hw.2 h1]
      · rename_i h1
        simp only [hf0, h1, false_or] at hp
        exact hp.symm
  | some p =>
    simp only [Option.map_some, Option.getD_some, hd p hl]
    by_cases hz : b.numberOfElements = 0
    · simp only [hz, if_true]
      have h1 : b.flagsCapacity > 0 → b.flags.length = 0 := fun hh => by rw [hf.2 hh, hz]
      have h2 : b.weightsCapacity > 0 → b.weights.length = 0 := fun hh => by rw [hw.2 hh, hz]
      split <;> split <;> simp_all
    · simp [hz]

end DP3.BdaBuffer
