import Verif.BdaBuffer.Lemmas

/-! Properties C06 and C07 of `BdaBuffer`. -/

namespace DP3.BdaBuffer

variable {V W : Type}

/-! ### C06 -/

/-- The elements of row `i` are `[offset, offset + dataSize)`; the rows lie one
after the other from 0 on and end at `GetNumberOfElements`. -/
def Consecutive (b : Buffer V W) : Prop :=
  (∀ i (h : i < b.rows.length), b.rows[i].offset = ((b.rows.take i).map Row.dataSize).sum) ∧
    (b.rows.map Row.dataSize).sum = b.numberOfElements

/-- Some memory pool is enabled. -/
def Buffer.hasPool (b : Buffer V W) : Prop :=
  b.data ≠ [] ∨ b.flagsCapacity > 0 ∨ b.weightsCapacity > 0

/-- Every `AddRow` in the history happens while some pool is enabled, or while
the buffer is still empty. -/
def PoolAtEveryAddRow (zero : V) (zeroWeight : W) (b : Buffer V W) (ops : List (Op V W)) : Prop :=
  ∀ before a d f w after, ops = before ++ Op.addRow a d f w :: after →
    (b.run zero zeroWeight before).hasPool ∨ (b.run zero zeroWeight before).numberOfElements = 0

private theorem offsets_step {b : Buffer V W} (h : SizeInv b) (ho : OffsetsFrom 0 b.rows)
    (z : V) (zw : W) (op : Op V W)
    (hp : ∀ a d f w, op = .addRow a d f w → b.hasPool ∨ b.numberOfElements = 0) :
    OffsetsFrom 0 (b.step z zw op).rows := by
  cases op with
  | addRow a d f w =>
    simp only [Buffer.step, Buffer.addRow]
    split
    · exact ho
    · split
      · exact ho
      · simp only [offsetsFrom_append]
        refine ⟨ho, ?_⟩
        rw [nextOffset_eq h, h.total, Nat.zero_add]
        rcases hp a d f w rfl with (h1 | h1 | h1) | h1 <;> simp [h1]
  | addData => exact ho
  | removeData => exact ho
  | moveIn => exact ho
  | rename s t =>
    simp only [Buffer.step, Buffer.rename]
    split
    · exact ho
    · split <;> exact ho
  | clear => trivial
  | copy => exact ho

private theorem offsets_run (z : V) (zw : W) (ops : List (Op V W)) : ∀ {b : Buffer V W}, SizeInv b →
    OffsetsFrom 0 b.rows → PoolAtEveryAddRow z zw b ops → OffsetsFrom 0 (b.run z zw ops).rows := by
  induction ops with
  | nil => exact fun _ ho _ => ho
  | cons op ops ih =>
    intro b h ho hp
    refine ih (b := b.step z zw op) (sizeInv_step h z zw op) (offsets_step h ho z zw op ?_) ?_
    · rintro a d f w rfl
      exact hp [] a d f w ops rfl
    · intro before a d f w after heq
      exact hp (op :: before) a d f w after (by rw [heq]; rfl)

private theorem consecutive_of {b : Buffer V W} (h : SizeInv b) (ho : OffsetsFrom 0 b.rows) :
    Consecutive b :=
  ⟨fun i hi => by rw [offsetsFrom_getElem ho i hi, Nat.zero_add]; rfl, h.total⟩

/-- C06, bookkeeping: for every history the used elements plus the remaining
capacity are the capacity, and every enabled pool has exactly the used size. -/
theorem capacity_and_pool_sizes (zero : V) (zeroWeight : W) (poolSize : Nat) (fields : FieldSet)
    (ops : List (Op V W)) :
    let b := (Buffer.init poolSize fields).run zero zeroWeight ops
    b.numberOfElements + b.remainingCapacity = b.originalCapacity ∧
      (b.rows.map Row.dataSize).sum = b.numberOfElements ∧
      (∀ p ∈ b.data, p.2.length = b.numberOfElements) ∧
      (b.flagsCapacity > 0 → b.flags.length = b.numberOfElements) ∧
      (b.weightsCapacity > 0 → b.weights.length = b.numberOfElements) := by
  intro b
  have h : SizeInv b := sizeInv_run (sizeInv_init poolSize fields) _ _ ops
  refine ⟨?_, h.total, h.dataLen, h.flagsLen.2, h.weightsLen.2⟩
  have := h.cap
  unfold Buffer.numberOfElements
  omega

/-- C06: without copying, the capacity stays what was given at construction. -/
theorem capacity_constant (zero : V) (zeroWeight : W) (poolSize : Nat) (fields : FieldSet)
    (ops : List (Op V W)) (hc : ∀ op ∈ ops, ∀ f d fl w, op ≠ .copy f d fl w) :
    ((Buffer.init poolSize fields).run zero zeroWeight ops : Buffer V W).originalCapacity
      = poolSize := by
  suffices h : ∀ b : Buffer V W, b.originalCapacity = poolSize →
      (b.run zero zeroWeight ops).originalCapacity = poolSize from h _ rfl
  induction ops with
  | nil => exact fun b h => h
  | cons op ops ih =>
    intro b hb
    refine ih (fun o ho => hc o (List.mem_cons_of_mem _ ho)) _ ?_
    cases op with
    | addRow a d f w =>
      simp only [Buffer.step, Buffer.addRow]
      split
      · exact hb
      · split <;> exact hb
    | rename s t =>
      simp only [Buffer.step, Buffer.rename]
      split
      · exact hb
      · split <;> exact hb
    | addData => exact hb
    | removeData => exact hb
    | moveIn => exact hb
    | clear => exact hb
    | copy f d fl w => exact absurd rfl (hc _ List.mem_cons_self f d fl w)

/-- C06: an `AddRow` that does not fit is refused and changes nothing; one that
fits and is properly ordered is accepted. -/
theorem addRow_refused_iff (b : Buffer V W) (zero : V) (zeroWeight : W) (a : RowArgs)
    (d : Option (Nat → V)) (f : Option (Nat → Bool)) (w : Option (Nat → W)) :
    ((b.addRow zero zeroWeight a d f w).2 = .refused ↔
        b.misordered a = false ∧ b.remainingCapacity < a.nChannels * a.nCorrelations) ∧
      ((b.addRow zero zeroWeight a d f w).2 ≠ .added → (b.addRow zero zeroWeight a d f w).1 = b) := by
  unfold Buffer.addRow
  by_cases hm : b.misordered a
  · simp [hm]
  · by_cases hn : b.remainingCapacity < a.nChannels * a.nCorrelations <;> simp [hm, hn]

/-- C06 does not hold in general: in a buffer without any enabled pool all rows
get offset 0; when a visibility pool is added afterwards, two rows share the
same elements. -/
theorem rows_overlap_without_pool :
    ¬ ∀ (poolSize : Nat) (fields : FieldSet) (ops : List (Op Nat Nat)),
      Consecutive ((Buffer.init poolSize fields).run 0 0 ops) := by
  intro h
  have h1 := (h 4 ⟨false, false, false⟩
    [.addRow ⟨0, 1, 0, 2, 1⟩ none none none, .addRow ⟨0, 1, 1, 2, 1⟩ none none none,
     .addData "" fun i => i]).1 1 (by decide +kernel)
  revert h1
  decide +kernel

/-- C06: for every history in which some pool is enabled whenever a row is added
(or the buffer holds no elements yet), the rows are consecutive and fill exactly
the used elements.  Missing: histories that add rows to a buffer without any
pool, where the claim is false (above). -/
theorem rows_consecutive_partial (zero : V) (zeroWeight : W) (poolSize : Nat) (fields : FieldSet)
    (ops : List (Op V W)) (hp : PoolAtEveryAddRow zero zeroWeight (Buffer.init poolSize fields) ops) :
    Consecutive ((Buffer.init poolSize fields).run zero zeroWeight ops) :=
  consecutive_of (sizeInv_run (sizeInv_init _ _) _ _ _)
    (offsets_run zero zeroWeight ops (sizeInv_init _ _) trivial hp)

/-- C06: a buffer created with flags or weights enabled and never copied always
satisfies the condition of `rows_consecutive_partial`, so its rows are
consecutive for every history. -/
theorem rows_consecutive_of_flags_or_weights (zero : V) (zeroWeight : W) (poolSize : Nat)
    (fields : FieldSet) (hf : fields.flags = true ∨ fields.weights = true) (ops : List (Op V W))
    (hc : ∀ op ∈ ops, ∀ f d fl w, op ≠ .copy f d fl w) :
    Consecutive ((Buffer.init poolSize fields).run zero zeroWeight ops) := by
  apply rows_consecutive_partial
  intro before a d f w after heq
  have hcb : ∀ op ∈ before, ∀ f d fl w, op ≠ Op.copy (V := V) (W := W) f d fl w :=
    fun op ho => hc op (by rw [heq]; exact List.mem_append_left _ ho)
  have hcap := capacity_constant zero zeroWeight poolSize fields before hcb
  have hi := sizeInv_run (V := V) (W := W) (sizeInv_init poolSize fields) zero zeroWeight before
  have hcaps : ∀ (ops : List (Op V W)), (∀ op ∈ ops, ∀ f d fl w, op ≠ Op.copy f d fl w) →
      ∀ b : Buffer V W, (b.run zero zeroWeight ops).flagsCapacity = b.flagsCapacity ∧
        (b.run zero zeroWeight ops).weightsCapacity = b.weightsCapacity := by
    intro ops
    induction ops with
    | nil => exact fun _ _ => ⟨rfl, rfl⟩
    | cons op ops ih =>
      intro hc b
      have := ih (fun o ho => hc o (List.mem_cons_of_mem _ ho)) (b.step zero zeroWeight op)
      have hs : (b.step zero zeroWeight op).flagsCapacity = b.flagsCapacity ∧
          (b.step zero zeroWeight op).weightsCapacity = b.weightsCapacity := by
        cases op with
        | addRow a d f w =>
          simp only [Buffer.step, Buffer.addRow]
          split
          · exact ⟨rfl, rfl⟩
          · split <;> exact ⟨rfl, rfl⟩
        | rename s t =>
          simp only [Buffer.step, Buffer.rename]
          split
          · exact ⟨rfl, rfl⟩
          · split <;> exact ⟨rfl, rfl⟩
        | addData => exact ⟨rfl, rfl⟩
        | removeData => exact ⟨rfl, rfl⟩
        | moveIn => exact ⟨rfl, rfl⟩
        | clear => exact ⟨rfl, rfl⟩
        | copy f d fl w => exact absurd rfl (hc _ List.mem_cons_self f d fl w)
      exact ⟨this.1.trans hs.1, this.2.trans hs.2⟩
  have hcs := hcaps before hcb (Buffer.init poolSize fields)
  by_cases h0 : poolSize = 0
  · right
    unfold Buffer.numberOfElements
    omega
  · left
    rcases hf with hf | hf
    · exact Or.inr (Or.inl (by rw [hcs.1]; simp [Buffer.init, hf]; omega))
    · exact Or.inr (Or.inr (by rw [hcs.2]; simp [Buffer.init, hf]; omega))

/-- C06: in a consecutive buffer different rows have disjoint elements, all
within the used part. -/
theorem consecutive_disjoint {b : Buffer V W} (h : Consecutive b) :
    (∀ i j (hi : i < b.rows.length) (hj : j < b.rows.length), i < j →
      b.rows[i].offset + b.rows[i].dataSize ≤ b.rows[j].offset) ∧
    (∀ i (hi : i < b.rows.length), b.rows[i].offset + b.rows[i].dataSize ≤ b.numberOfElements) := by
  have hmono : ∀ i (hi : i < b.rows.length) (k : Nat), i < k →
      ((b.rows.take i).map Row.dataSize).sum + b.rows[i].dataSize ≤
        ((b.rows.take k).map Row.dataSize).sum := by
    intro i hi k hk
    have hsplit : b.rows.take k = b.rows.take i ++ b.rows[i] :: (b.rows.take k).drop (i + 1) := by
      apply List.ext_getElem?
      intro n
      rcases Nat.lt_trichotomy n i with hn | hn | hn
      · rw [List.getElem?_append_left (by simp; omega)]
        simp [List.getElem?_take, hn]; omega
      · subst hn
        rw [List.getElem?_append_right (by simp; omega)]
        simp [hk, Nat.min_eq_left (Nat.le_of_lt hi)]
      · rw [List.getElem?_append_right (by simp; omega)]
        have : n - (b.rows.take i).length = (n - i - 1) + 1 := by simp; omega
        rw [this]
        simp only [List.getElem?_cons_succ, List.getElem?_drop]
        congr 1
        omega
    rw [hsplit]
    simp only [List.map_append, List.map_cons, List.sum_append, List.sum_cons]
    omega
  constructor
  · intro i j hi hj hij
    rw [h.1 i hi, h.1 j hj]
    exact hmono i hi j hij
  · intro i hi
    rw [h.1 i hi, ← h.2]
    have := hmono i hi b.rows.length hi
    simpa using this

/-- A history with rows of different sizes, a refused row, an added and a removed pool. -/
def exampleOps : List (Op Nat Nat) :=
  [.addRow ⟨0, 1, 0, 2, 2⟩ (some fun i => 10 + i) (some fun i => i == 1) none,
   .addData "model" fun _ => 7,
   .addRow ⟨0, 1, 1, 3, 1⟩ (some fun i => 20 + i) none (some fun i => i),
   .addRow ⟨1, 1, 0, 9, 9⟩ none none none,
   .removeData "model",
   .addRow ⟨1, 1, 0, 1, 2⟩ (some fun i => 30 + i) none none]

example : ((⟨true, true, false⟩ : FieldSet).flags = true ∨ (⟨true, true, false⟩ : FieldSet).weights = true) ∧
    (((Buffer.init 10 ⟨true, true, false⟩).run 0 0 exampleOps).rows.map Row.offset) = [0, 4, 7] ∧
    ((Buffer.init 10 ⟨true, true, false⟩).run 0 0 exampleOps).remainingCapacity = 1 := by
  decide +kernel

/-! ### C07 -/

/-- Calls that give other contents to, or drop, the visibility pool `name`. -/
def Op.touches (name : String) : Op V W → Bool
  | .removeData n => n == name
  | .moveIn n _ => n == name
  | .rename s t => s == name || t == name
  | .clear => true
  | .copy f _ _ _ => !f.data
  | _ => false

private theorem slice_append {X : Type} {pool extra : List X} {r : Row}
    (h : r.offset + r.dataSize ≤ pool.length) (hne : pool ≠ []) :
    slice (pool ++ extra) r = slice pool r := by
  unfold slice
  cases pool with
  | nil => exact absurd rfl hne
  | cons x xs =>
    simp only [List.cons_append, List.isEmpty_cons, Bool.false_eq_true, if_false, Option.some.injEq]
    rw [← List.cons_append, List.drop_append_of_le_length (by omega)]
    rw [List.take_append_of_le_length]
    simp only [List.length_drop]
    omega

private theorem rows_prefix_step {b : Buffer V W} (z : V) (zw : W) (op : Op V W) (hc : op ≠ .clear) :
    ∃ more, (b.step z zw op).rows = b.rows ++ more := by
  cases op with
  | addRow a d f w =>
    simp only [Buffer.step, Buffer.addRow]
    split
    · exact ⟨[], by simp⟩
    · split
      · exact ⟨[], by simp⟩
      · exact ⟨_, rfl⟩
  | rename s t =>
    refine ⟨[], ?_⟩
    simp only [Buffer.step, Buffer.rename]
    split
    · simp
    · split <;> simp
  | addData => exact ⟨[], by simp [Buffer.step, Buffer.addData]⟩
  | removeData => exact ⟨[], by simp [Buffer.step, Buffer.removeData]⟩
  | moveIn => exact ⟨[], by simp [Buffer.step, Buffer.moveIn]⟩
  | clear => exact absurd rfl hc
  | copy => exact ⟨[], by simp [Buffer.step, Buffer.copy]⟩

private theorem findPool_map (data : List (String × List V)) (g : String × List V → List V)
    (name : String) :
    findPool (data.map fun p => (p.1, g p)) name =
      (data.find? fun p => p.1 == name).map g := by
  induction data with
  | nil => rfl
  | cons p ps ih =>
    simp only [findPool, List.map_cons, List.find?_cons] at ih ⊢
    cases hb : p.1 == name
    · simpa using ih
    · simp

private theorem findPool_assign_other {data : List (String × List V)} {n name : String}
    (hn : (n == name) = false) (pool : List V) :
    findPool (assignPool data n pool) name = findPool data name := by
  have hne : n ≠ name := by simpa using hn
  unfold assignPool
  split
  · rename_i hany
    clear hany
    induction data with
    | nil => rfl
    | cons p ps ih =>
      simp only [findPool, List.map_cons, List.find?_cons] at ih ⊢
      by_cases h1 : p.1 = n
      · have h2 : (p.1 == name) = false := by simp [h1, hne]
        simp only [h1, beq_self_eq_true, if_true] at h2 ⊢
        simp only [h2]
        exact ih
      · have h1' : (p.1 == n) = false := by simpa using h1
        simp only [h1', Bool.false_eq_true, if_false]
        cases hb : p.1 == name
        · exact ih
        · rfl
  · simp only [findPool, List.find?_append]
    cases h : data.find? fun p => p.1 == name
    · simp [hn]
    · simp

private theorem findPool_filter_other {data : List (String × List V)} {n name : String}
    (hn : (n == name) = false) :
    findPool (data.filter fun p => !(p.1 == n)) name = findPool data name := by
  have hne : n ≠ name := by simpa using hn
  induction data with
  | nil => rfl
  | cons p ps ih =>
    simp only [findPool, List.filter_cons, List.find?_cons] at ih ⊢
    by_cases h1 : p.1 = n
    · have h2 : (p.1 == name) = false := by simp [h1, hne]
      simp only [h1, beq_self_eq_true, Bool.not_true, Bool.false_eq_true, if_false] at h2 ⊢
      simp only [h2]
      exact ih
    · have h1' : (p.1 == n) = false := by simpa using h1
      simp only [h1', Bool.not_false, if_true, List.find?_cons]
      cases hb : p.1 == name
      · exact ih
      · rfl

private theorem findPool_assign_self {data : List (String × List V)} {name : String} {pool : List V}
    (h : findPool data name = some pool) : findPool (assignPool data name pool) name = some pool := by
  unfold assignPool
  split
  · rename_i hany
    clear hany
    induction data with
    | nil => simp [findPool] at h
    | cons p ps ih =>
      simp only [findPool, List.map_cons, List.find?_cons] at ih h ⊢
      cases hb : p.1 == name
      · simp only [hb, Bool.false_eq_true, if_false] at h ⊢
        exact ih h
      · simp [hb]
  · rename_i hn
    obtain ⟨p, hp⟩ : ∃ p, data.find? (fun p => p.1 == name) = some p := by
      unfold findPool at h
      rw [Option.map_eq_some_iff] at h
      exact ⟨_, h.choose_spec.1⟩
    exfalso
    apply hn
    have := List.find?_some hp
    exact List.any_eq_true.2 ⟨p, List.mem_of_find?_eq_some hp, this⟩

/-- A call that does not touch a pool only appends to it. -/
private theorem pool_prefix_step {b : Buffer V W} (h : SizeInv b) (z : V) (zw : W) {op : Op V W}
    {name : String} (ht : op.touches name = false) {pool : List V}
    (hf : findPool b.data name = some pool) :
    ∃ extra, findPool (b.step z zw op).data name = some (pool ++ extra) := by
  have hlen : pool.length = b.numberOfElements := by
    obtain ⟨p, hp, rfl⟩ := mem_of_findPool hf
    exact h.dataLen p hp
  cases op with
  | addRow a d f w =>
    simp only [Buffer.step, Buffer.addRow]
    split
    · exact ⟨[], by simpa using hf⟩
    · split
      · exact ⟨[], by simpa using hf⟩
      · simp only [findPool_map b.data (fun p => p.2 ++ elements (a.nChannels * a.nCorrelations)
          (if p.1 == "" then d else none) z) name]
        unfold findPool at hf
        rw [Option.map_eq_some_iff] at hf
        obtain ⟨p, hp, rfl⟩ := hf
        rw [hp]
        exact ⟨_, rfl⟩
  | addData n fill =>
    refine ⟨[], ?_⟩
    simp only [Buffer.step, Buffer.addData, List.append_nil]
    cases hb : n == name
    · rw [findPool_assign_other hb]; exact hf
    · have : n = name := by simpa using hb
      subst this
      simp only [hf, Option.getD_some]
      rw [← hlen, resize_same]
      exact findPool_assign_self hf
  | removeData n =>
    refine ⟨[], ?_⟩
    simp only [Buffer.step, Buffer.removeData, List.append_nil]
    rw [findPool_filter_other ht]; exact hf
  | moveIn n v =>
    refine ⟨[], ?_⟩
    simp only [Buffer.step, Buffer.moveIn, List.append_nil]
    rw [findPool_assign_other ht]; exact hf
  | rename s t =>
    refine ⟨[], ?_⟩
    simp only [Op.touches, Bool.or_eq_false_iff] at ht
    simp only [Buffer.step, Buffer.rename, List.append_nil]
    split
    · exact hf
    · split
      · exact hf
      · simp only
        rw [findPool_filter_other ht.1, findPool_assign_other ht.2]; exact hf
  | clear => simp [Op.touches] at ht
  | copy fs d fl w =>
    refine ⟨[], ?_⟩
    simp only [Op.touches, Bool.not_eq_false'] at ht
    simp only [Buffer.step, Buffer.copy, ht, if_true, List.append_nil]
    rw [findPool_map _ (fun p => resize p.2 (b.originalCapacity - b.remainingCapacity) d)]
    have hf' : findPool (assignPool b.data "" ((findPool b.data "").getD [])) name = some pool := by
      cases hb : "" == name
      · rw [findPool_assign_other hb]; exact hf
      · have : "" = name := by simpa using hb
        subst this
        simp only [hf, Option.getD_some]
        exact findPool_assign_self hf
    unfold findPool at hf'
    rw [Option.map_eq_some_iff] at hf'
    obtain ⟨p, hp, rfl⟩ := hf'
    simp only [findPool] at hp ⊢
    rw [hp]
    simp only [Option.map_some]
    have : b.originalCapacity - b.remainingCapacity = p.2.length := hlen.symm
    rw [this, resize_same]

private theorem touches_ne_clear {op : Op V W} {name : String} (h : op.touches name = false) :
    op ≠ .clear := by
  rintro rfl; simp [Op.touches] at h

private theorem getData_stable_core (zero : V) (zeroWeight : W) (later : List (Op V W))
    (name : String) (row : Nat) (values : List V) (hl : ∀ op ∈ later, op.touches name = false)
    (b : Buffer V W)
    (hr : ∀ r, b.rows[row]? = some r → r.offset + r.dataSize ≤ b.numberOfElements)
    (hg : b.getData row name = some values) (hb : SizeInv b) :
    (b.run zero zeroWeight later).getData row name = some values := by
  induction later generalizing b with
  | nil => exact hg
  | cons op later ih =>
    have ht := hl op List.mem_cons_self
    refine ih (fun o ho => hl o (List.mem_cons_of_mem _ ho)) (b.step zero zeroWeight op) ?_ ?_
      (sizeInv_step hb _ _ _)
    all_goals
      obtain ⟨more, hmore⟩ := rows_prefix_step (b := b) zero zeroWeight op (touches_ne_clear ht)
      unfold Buffer.getData at hg
      split at hg
      rotate_left
      · simp at hg
      rename_i pool r hpool hrow
      obtain ⟨extra, hex⟩ := pool_prefix_step hb zero zeroWeight ht hpool
      have hlt : row < b.rows.length := (List.getElem?_eq_some_iff.1 hrow).1
      have hrow' : (b.step zero zeroWeight op).rows[row]? = some r := by
        rw [hmore, List.getElem?_append_left hlt]; exact hrow
      have hlen : pool.length = b.numberOfElements := by
        obtain ⟨p, hp, rfl⟩ := mem_of_findPool hpool
        exact hb.dataLen p hp
      have hle := hr r hrow
    · intro r' hr'
      rw [hrow'] at hr'
      cases hr'
      have : (pool ++ extra).length = (b.step zero zeroWeight op).numberOfElements := by
        obtain ⟨p, hp, hp'⟩ := mem_of_findPool hex
        rw [← hp']; exact (sizeInv_step hb zero zeroWeight op).dataLen p hp
      simp only [List.length_append] at this
      omega
    · unfold Buffer.getData
      rw [hex, hrow']
      simp only
      rw [slice_append (by omega)]
      · exact hg
      · rintro rfl; simp [slice] at hg

/-- C07: after calls that do not touch the pool `name`, every row that existed
reads the same visibilities as before. -/
theorem getData_stable (zero : V) (zeroWeight : W) (poolSize : Nat) (fields : FieldSet)
    (ops later : List (Op V W)) (name : String) (hl : ∀ op ∈ later, op.touches name = false)
    (row : Nat) (values : List V) :
    let b := (Buffer.init poolSize fields).run zero zeroWeight ops
    (∀ r, b.rows[row]? = some r → r.offset + r.dataSize ≤ b.numberOfElements) →
    b.getData row name = some values →
    (b.run zero zeroWeight later).getData row name = some values := fun hr hg =>
  getData_stable_core zero zeroWeight later name row values hl _ hr hg
    (sizeInv_run (sizeInv_init _ _) _ _ _)

/-- C07: the visibilities passed to a successful `AddRow` (zeros for a null
pointer) are read back from the main pool of that row, and zeros from every other
pool, after any later calls that do not touch the pool. -/
theorem addRow_getData (zero : V) (zeroWeight : W) (poolSize : Nat) (fields : FieldSet)
    (ops later : List (Op V W)) (a : RowArgs) (d : Option (Nat → V)) (f : Option (Nat → Bool))
    (w : Option (Nat → W)) (name : String) :
    let b := (Buffer.init poolSize fields).run zero zeroWeight ops
    (b.addRow zero zeroWeight a d f w).2 = .added →
    (findPool b.data name).isSome →
    0 < a.nChannels * a.nCorrelations →
    (∀ op ∈ later, op.touches name = false) →
    ((b.addRow zero zeroWeight a d f w).1.run zero zeroWeight later).getData b.rows.length name =
      some ((List.range (a.nChannels * a.nCorrelations)).map ((if name = "" then d else none).getD fun _ => zero)) := by
  intro b hadd hsome hpos hl
  have hb : SizeInv b := sizeInv_run (sizeInv_init _ _) _ _ _
  obtain ⟨pool, hpool⟩ := Option.isSome_iff_exists.1 hsome
  have hlen : pool.length = b.numberOfElements := by
    obtain ⟨p, hp, rfl⟩ := mem_of_findPool hpool
    exact hb.dataLen p hp
  have hdata : b.data ≠ [] := by
    obtain ⟨p, hp, _⟩ := mem_of_findPool hpool
    exact List.ne_nil_of_mem hp
  have hoff := nextOffset_eq hb (Or.inl hdata)
  refine getData_stable_core zero zeroWeight later name _ _ hl _ ?_ ?_
    (sizeInv_addRow hb zero zeroWeight a d f w)
  all_goals
    revert hadd
    unfold Buffer.addRow
    by_cases hm : b.misordered a
    · simp [hm]
    by_cases hn : b.remainingCapacity < a.nChannels * a.nCorrelations
    · simp [hm, hn]
    simp only [hm, hn, Bool.false_eq_true, if_false, forall_const]
  · intro r hr
    rw [List.getElem?_append_right (Nat.le_refl _)] at hr
    simp only [Nat.sub_self, List.getElem?_cons_zero, Option.some.injEq] at hr
    subst hr
    have hcap := hb.cap
    simp only [Row.dataSize, hoff, Buffer.numberOfElements]
    omega
  · unfold Buffer.getData
    simp only
    rw [findPool_map b.data (fun p => p.2 ++ elements (a.nChannels * a.nCorrelations)
          (if p.1 == "" then d else none) zero) name]
    unfold findPool at hpool
    rw [Option.map_eq_some_iff] at hpool
    obtain ⟨p, hp, rfl⟩ := hpool
    rw [hp, List.getElem?_append_right (Nat.le_refl _)]
    have hkey : p.1 = name := by simpa using List.find?_some hp
    simp only [Option.map_some, Nat.sub_self, List.getElem?_cons_zero, hkey, beq_iff_eq]
    unfold slice
    have hne : (p.2 ++ elements (a.nChannels * a.nCorrelations) (if name = "" then d else none) zero).isEmpty = false := by
      rw [List.isEmpty_eq_false_iff, ← List.length_pos_iff]
      simp only [List.length_append, length_elements]; omega
    simp only [hne, Bool.false_eq_true, if_false, Row.dataSize, hoff, ← hlen]
    rw [List.drop_left' rfl, List.take_of_length_le (by simp)]
    rfl

example : (((Buffer.init 10 ⟨true, true, false⟩).run 0 0 (exampleOps.take 2)).addRow 0 0 ⟨0, 1, 1, 3, 1⟩
      (some fun i => 20 + i) none none).2 = .added ∧
    (∀ op ∈ exampleOps.drop 3, op.touches "" = false) ∧
    ((Buffer.init 10 ⟨true, true, false⟩).run 0 0 exampleOps).getData 1 "" = some [20, 21, 22] := by
  decide +kernel

/-- C07 for flags: what is passed to a successful `AddRow` (false for a null
pointer) is read back after any later calls except `Clear` and copies without flags. -/
theorem addRow_getFlags (zero : V) (zeroWeight : W) (poolSize : Nat) (fields : FieldSet)
    (ops later : List (Op V W)) (a : RowArgs) (d : Option (Nat → V)) (f : Option (Nat → Bool))
    (w : Option (Nat → W)) :
    let b := (Buffer.init poolSize fields).run zero zeroWeight ops
    (b.addRow zero zeroWeight a d f w).2 = .added →
    b.flagsCapacity > 0 →
    0 < a.nChannels * a.nCorrelations →
    (∀ op ∈ later, op ≠ .clear ∧ ∀ fs d fl w, op = .copy fs d fl w → fs.flags = true) →
    ((b.addRow zero zeroWeight a d f w).1.run zero zeroWeight later).getFlags b.rows.length =
      some ((List.range (a.nChannels * a.nCorrelations)).map (f.getD fun _ => false)) := by
  intro b hadd hcapf hpos hl
  have hb : SizeInv b := sizeInv_run (sizeInv_init _ _) _ _ _
  have hoff := nextOffset_eq hb (Or.inr (Or.inl hcapf))
  have hlen := hb.flagsLen.2 hcapf
  -- a later call keeps the row, its place and the beginning of the pool
  suffices hgen : ∀ c : Buffer V W, SizeInv c → c.flagsCapacity > 0 →
      (∃ r, c.rows[b.rows.length]? = some r ∧ r.offset + r.dataSize ≤ c.numberOfElements) →
      c.getFlags b.rows.length =
        some ((List.range (a.nChannels * a.nCorrelations)).map (f.getD fun _ => false)) →
      (c.run zero zeroWeight later).getFlags b.rows.length =
        some ((List.range (a.nChannels * a.nCorrelations)).map (f.getD fun _ => false)) by
    have hinv := sizeInv_addRow hb zero zeroWeight a d f w
    apply hgen _ hinv
    all_goals
      revert hadd
      unfold Buffer.addRow
      by_cases hm : b.misordered a
      · simp [hm]
      by_cases hn : b.remainingCapacity < a.nChannels * a.nCorrelations
      · simp [hm, hn]
      simp only [hm, hn, Bool.false_eq_true, if_false, forall_const]
    · exact hcapf
    · refine ⟨_, by rw [List.getElem?_append_right (Nat.le_refl _)]; simp; rfl, ?_⟩
      have hcap := hb.cap
      simp only [Row.dataSize, hoff, Buffer.numberOfElements]
      omega
    · unfold Buffer.getFlags
      simp only [hcapf, if_true]
      rw [List.getElem?_append_right (Nat.le_refl _)]
      simp only [Nat.sub_self, List.getElem?_cons_zero]
      unfold slice
      have hne : (b.flags ++ elements (a.nChannels * a.nCorrelations) f false).isEmpty = false := by
        rw [List.isEmpty_eq_false_iff, ← List.length_pos_iff]
        simp only [List.length_append, length_elements]; omega
      simp only [hne, Bool.false_eq_true, if_false, Row.dataSize, hoff, ← hlen]
      rw [List.drop_left' rfl, List.take_of_length_le (by simp)]
      rfl
  clear hadd
  induction later with
  | nil => exact fun c _ _ _ h => h
  | cons op later ih =>
    rintro c hc hcf ⟨r, hrow, hle⟩ hg
    have hop := hl op List.mem_cons_self
    have hstep : (c.step zero zeroWeight op).flagsCapacity > 0 ∧
        ∃ extra, (c.step zero zeroWeight op).flags = c.flags ++ extra := by
      cases op with
      | addRow a d f w =>
        simp only [Buffer.step, Buffer.addRow]
        split
        · exact ⟨hcf, [], by simp⟩
        · split
          · exact ⟨hcf, [], by simp⟩
          · simp only [hcf, true_and]; exact ⟨_, rfl⟩
      | rename s t =>
        simp only [Buffer.step, Buffer.rename]
        split
        · exact ⟨hcf, [], by simp⟩
        · split <;> exact ⟨hcf, [], by simp⟩
      | addData => exact ⟨hcf, [], by simp [Buffer.step, Buffer.addData]⟩
      | removeData => exact ⟨hcf, [], by simp [Buffer.step, Buffer.removeData]⟩
      | moveIn => exact ⟨hcf, [], by simp [Buffer.step, Buffer.moveIn]⟩
      | clear => exact absurd rfl hop.1
      | copy fs d fl w =>
        have hfs := hop.2 fs d fl w rfl
        have hlen' := hc.flagsLen.2 hcf
        simp only [Buffer.step, Buffer.copy, hfs, if_true]
        have hlenc : c.originalCapacity - c.remainingCapacity = c.flags.length := hlen'.symm
        rw [hlenc, resize_same]
        refine ⟨?_, [], by simp⟩
        have : c.flags ≠ [] := by
          rintro h0; unfold Buffer.getFlags at hg; rw [hrow] at hg; simp [slice, h0] at hg
        exact List.length_pos_iff.2 this
    obtain ⟨more, hmore⟩ := rows_prefix_step (b := c) zero zeroWeight op hop.1
    obtain ⟨hcf', extra, hex⟩ := hstep
    have hlt : b.rows.length < c.rows.length := (List.getElem?_eq_some_iff.1 hrow).1
    have hrow' : (c.step zero zeroWeight op).rows[b.rows.length]? = some r := by
      rw [hmore, List.getElem?_append_left hlt]; exact hrow
    have hinv := sizeInv_step hc zero zeroWeight op
    have hl1 := hc.flagsLen.2 hcf
    have hl2 := hinv.flagsLen.2 hcf'
    rw [hex, List.length_append] at hl2
    refine ih (fun o ho => hl o (List.mem_cons_of_mem _ ho)) (c.step zero zeroWeight op) hinv hcf'
      ⟨r, hrow', by omega⟩ ?_
    unfold Buffer.getFlags at hg ⊢
    rw [hrow] at hg
    rw [hrow', hex]
    simp only at hg ⊢
    rw [slice_append (by omega)]
    · exact hg
    · intro h0; simp [slice, h0] at hg

example : ((Buffer.init 10 ⟨true, true, false⟩).run 0 0 exampleOps).getFlags 0 =
      some [false, true, false, false] ∧
    ((Buffer.init 10 ⟨true, true, false⟩ : Buffer Nat Nat).flagsCapacity > 0) := by
  decide +kernel

/-- C07 for weights: what is passed to a successful `AddRow` (zero for a null
pointer) is read back after any later calls except `Clear` and copies without weights. -/
theorem addRow_getWeights (zero : V) (zeroWeight : W) (poolSize : Nat) (fields : FieldSet)
    (ops later : List (Op V W)) (a : RowArgs) (d : Option (Nat → V)) (f : Option (Nat → Bool))
    (w : Option (Nat → W)) :
    let b := (Buffer.init poolSize fields).run zero zeroWeight ops
    (b.addRow zero zeroWeight a d f w).2 = .added →
    b.weightsCapacity > 0 →
    0 < a.nChannels * a.nCorrelations →
    (∀ op ∈ later, op ≠ .clear ∧ ∀ fs d fl w, op = .copy fs d fl w → fs.weights = true) →
    ((b.addRow zero zeroWeight a d f w).1.run zero zeroWeight later).getWeights b.rows.length =
      some ((List.range (a.nChannels * a.nCorrelations)).map (w.getD fun _ => zeroWeight)) := by
  intro b hadd hcapf hpos hl
  have hb : SizeInv b := sizeInv_run (sizeInv_init _ _) _ _ _
  have hoff := nextOffset_eq hb (Or.inr (Or.inr (Or.inl hcapf)))
  have hlen := hb.weightsLen.2 hcapf
  -- a later call keeps the row, its place and the beginning of the pool
  suffices hgen : ∀ c : Buffer V W, SizeInv c → c.weightsCapacity > 0 →
      (∃ r, c.rows[b.rows.length]? = some r ∧ r.offset + r.dataSize ≤ c.numberOfElements) →
      c.getWeights b.rows.length =
        some ((List.range (a.nChannels * a.nCorrelations)).map (w.getD fun _ => zeroWeight)) →
      (c.run zero zeroWeight later).getWeights b.rows.length =
        some ((List.range (a.nChannels * a.nCorrelations)).map (w.getD fun _ => zeroWeight)) by
    have hinv := sizeInv_addRow hb zero zeroWeight a d f w
    apply hgen _ hinv
    all_goals
      revert hadd
      unfold Buffer.addRow
      by_cases hm : b.misordered a
      · simp [hm]
      by_cases hn : b.remainingCapacity < a.nChannels * a.nCorrelations
      · simp [hm, hn]
      simp only [hm, hn, Bool.false_eq_true, if_false, forall_const]
    · exact hcapf
    · refine ⟨_, by rw [List.getElem?_append_right (Nat.le_refl _)]; simp; rfl, ?_⟩
      have hcap := hb.cap
      simp only [Row.dataSize, hoff, Buffer.numberOfElements]
      omega
    · unfold Buffer.getWeights
      simp only [hcapf, if_true]
      rw [List.getElem?_append_right (Nat.le_refl _)]
      simp only [Nat.sub_self, List.getElem?_cons_zero]
      unfold slice
      have hne : (b.weights ++ elements (a.nChannels * a.nCorrelations) w zeroWeight).isEmpty = false := by
        rw [List.isEmpty_eq_false_iff, ← List.length_pos_iff]
        simp only [List.length_append, length_elements]; omega
      simp only [hne, Bool.false_eq_true, if_false, Row.dataSize, hoff, ← hlen]
      rw [List.drop_left' rfl, List.take_of_length_le (by simp)]
      rfl
  clear hadd
  induction later with
  | nil => exact fun c _ _ _ h => h
  | cons op later ih =>
    rintro c hc hcf ⟨r, hrow, hle⟩ hg
    have hop := hl op List.mem_cons_self
    have hstep : (c.step zero zeroWeight op).weightsCapacity > 0 ∧
        ∃ extra, (c.step zero zeroWeight op).weights = c.weights ++ extra := by
      cases op with
      | addRow a d f w =>
        simp only [Buffer.step, Buffer.addRow]
        split
        · exact ⟨hcf, [], by simp⟩
        · split
          · exact ⟨hcf, [], by simp⟩
          · simp only [hcf, true_and]; exact ⟨_, rfl⟩
      | rename s t =>
        simp only [Buffer.step, Buffer.rename]
        split
        · exact ⟨hcf, [], by simp⟩
        · split <;> exact ⟨hcf, [], by simp⟩
      | addData => exact ⟨hcf, [], by simp [Buffer.step, Buffer.addData]⟩
      | removeData => exact ⟨hcf, [], by simp [Buffer.step, Buffer.removeData]⟩
      | moveIn => exact ⟨hcf, [], by simp [Buffer.step, Buffer.moveIn]⟩
      | clear => exact absurd rfl hop.1
      | copy fs d fl w =>
        have hfs := hop.2 fs d fl w rfl
        have hlen' := hc.weightsLen.2 hcf
        simp only [Buffer.step, Buffer.copy, hfs, if_true]
        have hlenc : c.originalCapacity - c.remainingCapacity = c.weights.length := hlen'.symm
        rw [hlenc, resize_same]
        refine ⟨?_, [], by simp⟩
        have : c.weights ≠ [] := by
          rintro h0; unfold Buffer.getWeights at hg; rw [hrow] at hg; simp [slice, h0] at hg
        exact List.length_pos_iff.2 this
    obtain ⟨more, hmore⟩ := rows_prefix_step (b := c) zero zeroWeight op hop.1
    obtain ⟨hcf', extra, hex⟩ := hstep
    have hlt : b.rows.length < c.rows.length := (List.getElem?_eq_some_iff.1 hrow).1
    have hrow' : (c.step zero zeroWeight op).rows[b.rows.length]? = some r := by
      rw [hmore, List.getElem?_append_left hlt]; exact hrow
    have hinv := sizeInv_step hc zero zeroWeight op
    have hl1 := hc.weightsLen.2 hcf
    have hl2 := hinv.weightsLen.2 hcf'
    rw [hex, List.length_append] at hl2
    refine ih (fun o ho => hl o (List.mem_cons_of_mem _ ho)) (c.step zero zeroWeight op) hinv hcf'
      ⟨r, hrow', by omega⟩ ?_
    unfold Buffer.getWeights at hg ⊢
    rw [hrow] at hg
    rw [hrow', hex]
    simp only at hg ⊢
    rw [slice_append (by omega)]
    · exact hg
    · intro h0; simp [slice, h0] at hg

example : ((Buffer.init 10 ⟨true, false, true⟩).run 0 0 exampleOps).getWeights 1 = some [0, 1, 2] ∧
    ((Buffer.init 10 ⟨true, false, true⟩ : Buffer Nat Nat).weightsCapacity > 0) := by
  decide +kernel

end DP3.BdaBuffer
