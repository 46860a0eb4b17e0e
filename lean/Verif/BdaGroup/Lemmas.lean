import Verif.BdaGroup.Model
import Mathlib.Data.List.Basic
import Mathlib.Data.List.Perm.Basic
import Mathlib.Data.List.Nodup
import Mathlib.Data.List.Count

namespace DP3.BdaGroup

set_option linter.unusedSimpArgs false
set_option linter.unusedSectionVars false

variable {U D : Type}

/-! ### Groups -/

theorem setup_spec (c : Info) (n : Nat) :
    (∀ k, ((List.range n).foldl (addBaseline c) ⟨fun _ => [], []⟩).groups k =
      (List.range n).filter (fun b => key c b = k)) ∧
    ((List.range n).foldl (addBaseline c) ⟨fun _ => [], []⟩).index =
      (List.range n).map (fun b => (key c b, ((List.range b).filter (fun b' => key c b' = key c b)).length)) := by
  induction n with
  | zero => simp
  | succ n ih =>
    rw [List.range_succ, List.foldl_append, List.foldl_cons, List.foldl_nil]
    constructor
    · intro k
      simp only [addBaseline, ih.1, List.filter_append]
      by_cases h : k = key c n
      · subst h; simp
      · rw [if_neg h]
        have h' : ¬ key c n = k := fun e => h e.symm
        simp [h']
    · simp only [addBaseline, ih.1, ih.2, List.map_append, List.map_cons, List.map_nil]

theorem groups_eq (c : Info) (k : Key) :
    (setup c).groups k = (List.range c.nBl).filter (fun b => key c b = k) := (setup_spec c c.nBl).1 k

/-- The position of a baseline in its group. -/
def pos (c : Info) (bl : Nat) : Nat := ((List.range bl).filter (fun b => key c b = key c bl)).length

theorem index_eq (c : Info) {bl : Nat} (h : bl < c.nBl) :
    (setup c).index[bl]? = some (key c bl, pos c bl) := by
  unfold setup
  rw [(setup_spec c c.nBl).2]
  simp [h, pos]

theorem pos_range (c : Info) (k : Key) (n : Nat) :
    ((List.range n).filter (fun b => key c b = k)).map (pos c) =
      List.range ((List.range n).filter (fun b => key c b = k)).length := by
  induction n with
  | zero => simp
  | succ n ih =>
    rw [List.range_succ, List.filter_append, List.map_append, List.length_append, ih]
    by_cases h : key c n = k
    · subst h
      simp [List.range_succ, pos]
    · simp [h]

theorem group_pos (c : Info) (k : Key) :
    ((setup c).groups k).map (pos c) = List.range ((setup c).groups k).length := by
  rw [groups_eq]; exact pos_range c k c.nBl

/-! ### Rows of a stream -/

/-- A row with the number of its buffer and its position. -/
abbrev Item (U D : Type) := Nat × Row U D × Nat

/-- The rows of a buffer. -/
def items (b : Nat) (l : List (Row U D)) : List (Item U D) := l.zipIdx.map (fun x => (b, x))

/-- The rows of buffers `n`, `n + 1`, ... -/
def allItems : Nat → List (List (Row U D)) → List (Item U D)
  | _, [] => []
  | n, l :: ls => items n l ++ allItems (n + 1) ls

/-- The group of a row. -/
def ikey (c : Info) (x : Item U D) : Key := key c x.2.1.bl

/-- The time that is used for a row. -/
def itime (x : Item U D) : ℚ := x.2.1.time + x.2.1.interval / 2

/-- The place of a row. -/
def iid (x : Item U D) : Nat × Nat := (x.1, x.2.2)

theorem items_fst {b : Nat} {l : List (Row U D)} {x : Item U D} (h : x ∈ items b l) : x.1 = b := by
  simp only [items, List.mem_map] at h
  obtain ⟨y, _, rfl⟩ := h; rfl

theorem items_get {b : Nat} {l : List (Row U D)} {x : Item U D} (h : x ∈ items b l) :
    l[x.2.2]? = some x.2.1 := by
  simp only [items, List.mem_map] at h
  obtain ⟨y, hy, rfl⟩ := h
  exact List.mk_mem_zipIdx_iff_getElem?.1 hy

theorem items_nodup (b : Nat) (l : List (Row U D)) : ((items b l).map iid).Nodup := by
  have : (items b l).map iid = (List.range l.length).map (fun i => (b, i)) := by
    simp only [items, List.map_map]
    apply List.ext_getElem
    · simp
    · intro i h1 h2
      simp [iid]
  rw [this]
  exact (List.nodup_range).map (fun i j h => by simpa using h)

theorem items_length (b : Nat) (l : List (Row U D)) : (items b l).length = l.length := by simp [items]

end DP3.BdaGroup
