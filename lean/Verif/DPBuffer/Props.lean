import Verif.DPBuffer.Model
import Mathlib.Algebra.Group.Basic
import Mathlib.Algebra.Group.Int.Defs
import Mathlib.Data.List.Nodup
import Mathlib.Data.List.Sort
import Mathlib.Tactic.SplitIfs

/-!
# Properties of the buffers with named data (C99, C100)
-/

namespace DP3.DPBuffer

set_option linter.unusedSectionVars false
set_option linter.unusedSimpArgs false

section Map
variable {V : Type}

/-- The keys are in order and not empty. -/
def Valid (l : List (String × V)) : Prop := l.Pairwise (fun p q => p.1 < q.1) ∧ ∀ p ∈ l, p.1 ≠ ""

private theorem find_none (name : String) (l : List (String × V)) (h : ∀ p ∈ l, p.1 ≠ name) : find name l = none := by
  induction l with
  | nil => rfl
  | cons p l ih => rw [find, if_neg (h p (by simp)), ih fun q hq => h q (by simp [hq])]

private theorem find_isSome (name : String) (l : List (String × V)) :
    (find name l).isSome = true ↔ name ∈ l.map (·.1) := by
  induction l with
  | nil => simp [find]
  | cons p l ih =>
    rw [find]
    split
    · rename_i h; simp [h]
    · rename_i h; rw [ih]; simp [Ne.symm h]

private theorem find_assign (name n : String) (v : V) (l : List (String × V)) :
    find n (assign name v l) = if n = name then some v else find n l := by
  induction l with
  | nil =>
    simp only [assign, find]
    by_cases hn : n = name
    · simp [hn]
    · simp [hn, Ne.symm hn]
  | cons p l ih =>
    rw [assign]
    by_cases h1 : name < p.1
    · rw [if_pos h1, find]
      by_cases hn : n = name
      · simp [hn]
      · rw [if_neg (Ne.symm hn), if_neg hn]
    · rw [if_neg h1]
      by_cases h2 : name = p.1
      · rw [if_pos h2, find]
        by_cases hn : n = name
        · simp [hn]
        · rw [if_neg (Ne.symm hn), if_neg hn, find, if_neg (h2 ▸ Ne.symm hn)]
      · rw [if_neg h2, find, ih, find]
        by_cases hn : n = name
        · rw [if_neg (by rw [hn]; exact Ne.symm h2), if_pos hn, if_pos hn]
        · simp only [if_neg hn]

private theorem mem_assign (name : String) (v : V) (l : List (String × V)) (p : String × V)
    (h : p ∈ assign name v l) : p = (name, v) ∨ p ∈ l := by
  induction l with
  | nil => simp only [assign, List.mem_singleton] at h; exact .inl h
  | cons q l ih =>
    rw [assign] at h
    split_ifs at h
    · rcases List.mem_cons.mp h with h | h
      · exact .inl h
      · exact .inr h
    · rcases List.mem_cons.mp h with h | h
      · exact .inl h
      · exact .inr (List.mem_cons_of_mem _ h)
    · rcases List.mem_cons.mp h with h | h
      · exact .inr (by simp [h])
      · exact (ih h).imp_right (List.mem_cons_of_mem _)

private theorem sorted_assign (name : String) (v : V) (l : List (String × V))
    (h : l.Pairwise (fun p q => p.1 < q.1)) : (assign name v l).Pairwise (fun p q => p.1 < q.1) := by
  induction l with
  | nil => simp [assign]
  | cons p l ih =>
    have h0 := h
    rw [List.pairwise_cons] at h
    rw [assign]
    split_ifs with h1 h2
    · refine List.pairwise_cons.mpr ⟨fun q hq => ?_, h0⟩
      rcases List.mem_cons.mp hq with hq | hq
      · rw [hq]; exact h1
      · exact lt_trans h1 (h.1 q hq)
    · exact List.pairwise_cons.mpr ⟨fun q hq => by rw [h2]; exact h.1 q hq, h.2⟩
    · refine List.pairwise_cons.mpr ⟨fun q hq => ?_, ih h.2⟩
      rcases mem_assign name v l q hq with hq | hq
      · rw [hq]; exact lt_of_le_of_ne (le_of_not_gt h1) (Ne.symm h2)
      · exact h.1 q hq

private theorem valid_assign (name : String) (hne : name ≠ "") (v : V) (l : List (String × V)) (h : Valid l) :
    Valid (assign name v l) := by
  refine ⟨sorted_assign name v l h.1, fun p hp => ?_⟩
  rcases mem_assign name v l p hp with hp | hp
  · rw [hp]; exact hne
  · exact h.2 p hp

private theorem find_erase (name n : String) (l : List (String × V)) :
    find n (erase name l) = if n = name then none else find n l := by
  induction l with
  | nil => simp [erase, find]
  | cons p l ih =>
    unfold erase at ih ⊢
    rw [List.filter_cons]
    by_cases hp : p.1 = name
    · rw [if_neg (by simp [hp]), ih]
      by_cases hn : n = name
      · rw [if_pos hn, if_pos hn]
      · rw [if_neg hn, if_neg hn, find, if_neg (by rw [hp]; exact Ne.symm hn)]
    · rw [if_pos (by simp [hp]), find, ih, find]
      by_cases hn : n = name
      · rw [if_pos hn, if_pos hn, if_neg (by rw [hn]; exact hp)]
      · rw [if_neg hn, if_neg hn]

private theorem valid_erase (name : String) (l : List (String × V)) (h : Valid l) : Valid (erase name l) :=
  ⟨h.1.filter _, fun p hp => h.2 p (List.mem_filter.mp hp).1⟩

end Map

section Refine
variable {V : Type}

/-- The abstract state: for each buffer the data by name; the main data has the empty name. -/
abbrev View (V : Type) := Nat → String → Option V

/-- The abstract state of the buffers. -/
def view (w : World V) : View V := fun i name => if name = "" then some (w i).data else find name (w i).extra

/-- One name of one buffer is changed. -/
def View.set (s : View V) (i : Nat) (name : String) (v : Option V) : View V :=
  fun j n => if j = i ∧ n = name then v else s j n

/-- All names but the empty one are removed. -/
def View.clear (s : View V) (i : Nat) : View V := fun j n => if j = i ∧ n ≠ "" then none else s j n

/-- RemoveData on the abstract state. -/
def View.remove (s : View V) (i : Nat) (name : String) : View V :=
  if name = "" then s.clear i else s.set i name none

/-- The operations on the abstract state. -/
def View.step [Add V] [Sub V] (moved : V) (s : View V) : Op V → Except Err (View V)
  | .put i name v => if s i name = none then .error .throws else .ok (s.set i name (some v))
  | .add i name v =>
    if s i name = none then .ok (s.set i name (some v)) else .error .ub
  | .remove i name => .ok (s.remove i name)
  | .take i => .ok (s.set i "" (some moved))
  | .copyData dst src sn dn =>
    if s src sn = none ∨ dn = "" then .error .ub else .ok (s.set dst dn (s src sn))
  | .moveData dst src sn dn =>
    if s src sn = none ∨ dn = "" then .error .ub
    else .ok ((s.set dst dn (s src sn)).set src sn (if sn = "" then some moved else none))
  | .copy dst src f e =>
    .ok fun j n =>
      if j = dst ∧ (if n = "" then f.data = true else e = true) then s src n else s j n
  | .move dst src =>
    .ok fun j n =>
      if dst = src then s j n
      else if j = src then (if n = "" then some moved else none)
      else if j = dst then s src n
      else s j n
  | .combine subtract i name =>
    match s i "", s i name with
    | some x, some y => .ok ((s.set i "" (some (if subtract then x - y else x + y))).remove i name)
    | _, _ => .error .throws

private theorem view_isNone (w : World V) (i : Nat) (name : String) :
    view w i name = none ↔ hasData (w i) name = false := by
  unfold view hasData
  split
  · rename_i h; simp [h]
  · rename_i h; simp [h]

private theorem set_same (w : World V) (i : Nat) (b : Buffer V) : w.set i b i = b := by simp [World.set]

private theorem set_other (w : World V) (i j : Nat) (b : Buffer V) (h : j ≠ i) : w.set i b j = w j := by
  simp [World.set, h]

private theorem view_main (w : World V) (i : Nat) : view w i "" = some (w i).data := by simp [view]

private theorem view_named (w : World V) (i : Nat) (name : String) (h : name ≠ "") :
    view w i name = find name (w i).extra := by simp [view, h]

private theorem view_congr (w w' : World V) (i j : Nat) (n : String) (h : w i = w' j) : view w i n = view w' j n := by
  unfold view; rw [h]

private theorem view_set_extra (w : World V) (i : Nat) (b : Buffer V) (name : String) (hne : name ≠ "") (v : Option V)
    (hd : b.data = (w i).data) (he : ∀ n, find n b.extra = if n = name then v else find n (w i).extra) :
    view (w.set i b) = (view w).set i name v := by
  funext j n
  unfold View.set
  by_cases hj : j = i
  · subst hj
    by_cases hn : n = ""
    · subst hn
      rw [view_main, set_same, if_neg (fun h => hne h.2.symm), view_main, hd]
    · rw [view_named _ _ _ hn, view_named _ _ _ hn, set_same, he]
      by_cases h : n = name <;> simp [h]
  · rw [if_neg fun h => hj h.1]
    exact view_congr _ _ _ _ _ (set_other _ _ _ _ hj)

private theorem view_set_data (w : World V) (i : Nat) (v : V) :
    view (w.set i { w i with data := v }) = (view w).set i "" (some v) := by
  funext j n
  unfold View.set
  by_cases hj : j = i
  · subst hj
    by_cases hn : n = ""
    · subst hn
      rw [view_main, set_same, if_pos ⟨rfl, rfl⟩]
    · rw [view_named _ _ _ hn, view_named _ _ _ hn, set_same, if_neg fun h => hn h.2]
  · rw [if_neg fun h => hj h.1]
    exact view_congr _ _ _ _ _ (set_other _ _ _ _ hj)

private theorem view_assign (w : World V) (i : Nat) (name : String) (hne : name ≠ "") (v : V) :
    view (w.set i { w i with extra := assign name v (w i).extra }) = (view w).set i name (some v) :=
  view_set_extra w i _ name hne (some v) rfl fun n => find_assign name n v _

private theorem view_erase (w : World V) (i : Nat) (name : String) (hne : name ≠ "") :
    view (w.set i { w i with extra := erase name (w i).extra }) = (view w).set i name none :=
  view_set_extra w i _ name hne none rfl fun n => find_erase name n _

private theorem view_remove (w : World V) (i : Nat) (name : String) :
    view (w.set i (removeData (w i) name)) = (view w).remove i name := by
  unfold removeData View.remove
  split
  · funext j n
    unfold View.clear
    by_cases hj : j = i
    · subst hj
      by_cases hn : n = ""
      · subst hn
        rw [view_main, view_main, set_same, if_neg fun h => h.2 rfl]
      · rw [view_named _ _ _ hn, set_same, if_pos ⟨rfl, hn⟩]; rfl
    · rw [if_neg fun h => hj h.1]
      exact view_congr _ _ _ _ _ (set_other _ _ _ _ hj)
  · rename_i h
    exact view_set_extra w i _ name h none rfl fun n => find_erase name n _

private theorem set_set (w : World V) (i : Nat) (b b' : Buffer V) : (w.set i b).set i b' = w.set i b' := by
  funext j; simp only [World.set]; split <;> rfl

/-- All buffers are valid. -/
def ValidWorld (w : World V) : Prop := ∀ i, Valid (w i).extra

private theorem validWorld_set (w : World V) (h : ValidWorld w) (i : Nat) (b : Buffer V) (hb : Valid b.extra) :
    ValidWorld (w.set i b) := by
  intro j
  unfold World.set
  split
  · exact hb
  · exact h j

private theorem valid_nil : Valid ([] : List (String × V)) := ⟨.nil, by simp⟩

private theorem valid_remove (b : Buffer V) (h : Valid b.extra) (name : String) : Valid (removeData b name).extra := by
  unfold removeData
  split
  · exact valid_nil
  · exact valid_erase _ _ h

/-- C99. Every operation does to the buffers what it does to the abstract state: it fails in the same cases, and
otherwise the states agree. -/
theorem step_refines [Add V] [Sub V] (moved : V) (w : World V) (hw : ValidWorld w) (op : Op V) :
    match step moved w op with
    | .error e => (view w).step moved op = .error e
    | .ok w' => ValidWorld w' ∧ (view w).step moved op = .ok (view w') := by
  cases op with
  | put i name v =>
    simp only [step, putData, View.step]
    by_cases hn : name = ""
    · subst hn
      simp only [if_true, World.update]
      refine ⟨validWorld_set _ hw _ _ (hw i), ?_⟩
      rw [view_set_data, if_neg (by simp [view])]
    · simp only [if_neg hn, view_named w i name hn]
      cases hf : find name (w i).extra with
      | none => simp [World.update]
      | some x =>
        simp only [World.update]
        refine ⟨validWorld_set _ hw _ _ (valid_assign _ hn _ _ (hw i)), ?_⟩
        rw [if_neg (by simp), view_assign w i name hn]
  | add i name v =>
    simp only [step, addData, View.step]
    by_cases hn : name = ""
    · subst hn
      simp [World.update, view]
    · simp only [if_neg hn, view_named w i name hn]
      cases hf : find name (w i).extra with
      | some x => simp [World.update]
      | none =>
        simp only [World.update, Option.isSome_none, Bool.false_eq_true, if_false]
        refine ⟨validWorld_set _ hw _ _ (valid_assign _ hn _ _ (hw i)), ?_⟩
        rw [if_pos trivial, view_assign w i name hn]
  | remove i name =>
    simp only [step, View.step]
    exact ⟨validWorld_set _ hw _ _ (valid_remove _ (hw i) _), by rw [view_remove]⟩
  | take i =>
    simp only [step, View.step, takeData]
    exact ⟨validWorld_set _ hw _ _ (hw i), by rw [view_set_data]⟩
  | copyData dst src sn dn =>
    simp only [step, View.step, copyData]
    by_cases h1 : hasData (w src) sn = false
    · rw [if_pos h1, if_pos (.inl ((view_isNone w src sn).mpr h1))]
    · rw [if_neg h1]
      by_cases h2 : dn = ""
      · rw [if_pos h2, if_pos (.inr h2)]
      · have hv : ¬ view w src sn = none := fun h => h1 ((view_isNone w src sn).mp h)
        rw [if_neg h2, if_neg (by rintro (h | h); exacts [hv h, h2 h])]
        have : ∃ v, view w src sn = some v ∧ getData (w src) sn = .ok v := by
          unfold getData
          unfold view at hv ⊢
          split
          · exact ⟨_, rfl, rfl⟩
          · rename_i hs
            rw [if_neg hs] at hv
            cases hf : find sn (w src).extra with
            | none => exact absurd hf hv
            | some v => exact ⟨v, rfl, rfl⟩
        obtain ⟨v, hv1, hv2⟩ := this
        rw [hv2, hv1]
        simp only
        refine ⟨validWorld_set _ hw _ _ (valid_assign _ h2 _ _ (hw dst)), ?_⟩
        rw [view_assign w dst dn h2]
  | moveData dst src sn dn =>
    simp only [step, View.step]
    by_cases h1 : hasData (w src) sn = false
    · simp only [moveData, if_pos h1]
      rw [if_pos (.inl ((view_isNone w src sn).mpr h1))]
    · by_cases h2 : dn = ""
      · simp only [moveData, if_neg h1, if_pos h2]
        rw [if_pos (.inr h2)]
      · have hv : ¬ view w src sn = none := fun h => h1 ((view_isNone w src sn).mp h)
        rw [if_neg (by rintro (h | h); exacts [hv h, h2 h])]
        by_cases hs : sn = ""
        · subst hs
          simp only [moveData, if_neg h1, if_neg h2, if_true]
          have hw1 := validWorld_set w hw dst { w dst with extra := assign dn (w src).data (w dst).extra }
            (valid_assign _ h2 _ _ (hw dst))
          refine ⟨validWorld_set _ hw1 _ _ (hw1 src), ?_⟩
          rw [view_set_data, view_assign w dst dn h2, view_main]
        · rw [view_named w src sn hs] at hv ⊢
          cases hf : find sn (w src).extra with
          | none => exact absurd hf hv
          | some v =>
            simp only [moveData, if_neg h1, if_neg h2, if_neg hs, hf]
            have hw1 := validWorld_set w hw dst { w dst with extra := assign dn v (w dst).extra }
              (valid_assign _ h2 _ _ (hw dst))
            refine ⟨validWorld_set _ hw1 _ _ (valid_erase _ _ (hw1 src)), ?_⟩
            rw [view_erase _ src sn hs, view_assign w dst dn h2]
  | copy dst src f e =>
    simp only [step, View.step, DPBuffer.copy]
    by_cases hd : dst = src
    · subst hd
      rw [if_pos rfl]
      refine ⟨hw, ?_⟩
      congr 1
      funext j n
      by_cases h : j = dst ∧ (if n = "" then f.data = true else e = true)
      · rw [if_pos h, h.1]
      · rw [if_neg h]
    · rw [if_neg hd]
      refine ⟨validWorld_set _ hw _ _ ?_, ?_⟩
      · cases e
        · exact hw dst
        · exact hw src
      · congr 1
        funext j n
        unfold view
        by_cases hj : j = dst
        · subst hj
          rw [set_same]
          by_cases hn : n = ""
          · cases f.data <;> simp [hn]
          · cases e <;> simp [hn]
        · rw [set_other _ _ _ _ hj, if_neg fun h => hj h.1]
  | move dst src =>
    simp only [step, View.step, moveBuffer]
    by_cases hd : dst = src
    · simp only [if_pos hd]
      exact ⟨hw, trivial⟩
    · simp only [if_neg hd]
      refine ⟨validWorld_set _ (validWorld_set _ hw _ _ (hw src)) _ _ valid_nil, ?_⟩
      congr 1
      funext j n
      unfold view
      by_cases hj : j = src
      · subst hj
        rw [set_same, if_pos rfl]
        simp [find]
      · rw [set_other _ _ _ _ hj, if_neg hj]
        by_cases hj2 : j = dst
        · subst hj2; rw [set_same, if_pos rfl]
        · rw [set_other _ _ _ _ hj2, if_neg hj2]
  | combine subtract i name =>
    simp only [step, View.step, DPBuffer.combine]
    have hmain : view w i "" = some (w i).data := by simp [view]
    have key : ∀ y, view w i name = some y → getData (w i) name = .ok y := by
      intro y hy
      unfold view at hy
      unfold getData
      split
      · rename_i h; rw [if_pos h] at hy; rw [Option.some.inj hy]
      · rename_i h; rw [if_neg h] at hy; rw [hy]
    cases hy : view w i name with
    | none =>
      have : getData (w i) name = .error .throws := by
        unfold view at hy
        unfold getData
        split
        · rename_i h; rw [if_pos h] at hy; cases hy
        · rename_i h; rw [if_neg h] at hy; rw [hy]
      rw [this]
      simp only [World.update, hmain]
    | some y =>
      rw [key y hy]
      simp only [World.update, hmain]
      refine ⟨validWorld_set _ hw _ _ (by apply valid_remove; exact hw i), ?_⟩
      set x := if subtract then (w i).data - y else (w i).data + y with hx
      rw [← view_set_data, ← view_remove, set_set, set_same]

/-- C99. The same for all sequences of operations. -/
theorem run_refines [Add V] [Sub V] (moved : V) (w : World V) (hw : ValidWorld w) (ops : List (Op V)) :
    match run moved w ops with
    | .error e => ops.foldlM (View.step moved) (view w) = .error e
    | .ok w' => ValidWorld w' ∧ ops.foldlM (View.step moved) (view w) = .ok (view w') := by
  induction ops generalizing w with
  | nil => exact ⟨hw, rfl⟩
  | cons op ops ih =>
    have h := step_refines moved w hw op
    simp only [run, List.foldlM_cons]
    cases hs : step moved w op with
    | error e => rw [hs] at h; simp only at h ⊢; rw [h]; rfl
    | ok w' =>
      rw [hs] at h
      simp only at h ⊢
      rw [h.2]
      exact ih w' h.1

/-- C99. Copy gives the target exactly the fields that are asked for, and changes no other buffer. -/
theorem copy_fields (w : World V) (dst src : Nat) (f : Fields) (extra : Bool) :
    ((copy w dst src f extra dst).flags = if f.flags then (w src).flags else (w dst).flags) ∧
    ((copy w dst src f extra dst).weights = if f.weights then (w src).weights else (w dst).weights) ∧
    ((copy w dst src f extra dst).uvw = if f.uvw then (w src).uvw else (w dst).uvw) ∧
    ∀ j, j ≠ dst → copy w dst src f extra j = w j := by
  unfold copy
  by_cases h : dst = src
  · subst h; simp
  · rw [if_neg h, set_same]
    exact ⟨rfl, rfl, rfl, fun j hj => set_other _ _ _ _ hj⟩

/-- C99. GetDataNames gives all names of data that exist, in order and each once. -/
theorem dataNames_spec (b : Buffer V) (h : Valid b.extra) :
    (dataNames b).Pairwise (· < ·) ∧ ∀ name, name ∈ dataNames b ↔ hasData b name = true := by
  have hlt : ∀ s : String, s ≠ "" → "" < s := by
    intro s hs
    rcases lt_trichotomy "" s with h | h | h
    · exact h
    · exact absurd h.symm hs
    · exact absurd (String.lt_iff_toList_lt.mp h) (by simp)
  refine ⟨List.pairwise_cons.mpr ⟨fun n hn => ?_, ?_⟩, fun name => ?_⟩
  · obtain ⟨p, hp, rfl⟩ := List.mem_map.mp hn
    exact hlt _ (h.2 p hp)
  · rw [List.pairwise_map]
    exact h.1
  · simp only [dataNames, List.mem_cons, hasData, Bool.or_eq_true, decide_eq_true_eq, find_isSome]

/-- C99. Combine with named data: the main data get the sum or difference, the named data are gone, and all other
names, and the flags, weights and uvw, stay. -/
theorem combine_spec [Add V] [Sub V] (subtract : Bool) (b : Buffer V) (name : String) (hne : name ≠ "")
    (y : V) (hy : getData b name = .ok y) :
    ∃ b', combine subtract name b = .ok b' ∧ b'.data = (if subtract then b.data - y else b.data + y) ∧
      hasData b' name = false ∧ (∀ n, n ≠ "" → n ≠ name → find n b'.extra = find n b.extra) ∧
      b'.flags = b.flags ∧ b'.weights = b.weights ∧ b'.uvw = b.uvw := by
  unfold combine
  rw [hy]
  simp only [removeData, if_neg hne]
  refine ⟨_, rfl, rfl, ?_, fun n hn hnn => ?_, rfl, rfl, rfl⟩
  · simp only [hasData, decide_eq_false hne, Bool.false_or, find_erase, if_true, Option.isSome_none]
  · simp only [find_erase, if_neg hnn]

/-- C99. What was added can be subtracted again: with the same data under two names, the two combines restore the
data. -/
theorem combine_inverse [AddCommGroup V] (subtract : Bool) (b : Buffer V) (n1 n2 : String) (h1 : n1 ≠ "")
    (h2 : n2 ≠ "") (h12 : n1 ≠ n2) (y : V) (hy1 : getData b n1 = .ok y) (hy2 : getData b n2 = .ok y) :
    ∃ b' b'', combine subtract n1 b = .ok b' ∧ combine (!subtract) n2 b' = .ok b'' ∧ b''.data = b.data := by
  obtain ⟨b', e1, hd, -, ho, -⟩ := combine_spec subtract b n1 h1 y hy1
  have hg : getData b' n2 = .ok y := by
    unfold getData at hy2 ⊢
    rw [if_neg h2] at hy2 ⊢
    rw [ho n2 h2 (Ne.symm h12)]
    exact hy2
  obtain ⟨b'', e2, hd2, -⟩ := combine_spec (!subtract) b' n2 h2 y hg
  refine ⟨b', b'', e1, e2, ?_⟩
  rw [hd2, hd]
  cases subtract <;> simp

/-- C99. An empty buffer name is not refused: subtract then gives zero data, and all extra data are removed. -/
theorem combine_empty_name [AddCommGroup V] (b : Buffer V) :
    ∃ b', combine true "" b = .ok b' ∧ b'.data = 0 ∧ ∀ n, n ≠ "" → hasData b' n = false := by
  refine ⟨{ b with data := b.data - b.data, extra := [] }, rfl, sub_self _, fun n hn => ?_⟩
  simp [hasData, hn, find]

/-- C99. Moving data to the same name of the same buffer does not keep the data, but removes them. -/
theorem moveData_self_loses (moved : V) (w : World V) (i : Nat) (name : String) (hne : name ≠ "")
    (h : hasData (w i) name = true) :
    ∃ w', moveData moved w i i name name = .ok w' ∧ hasData (w' i) name = false := by
  unfold moveData
  rw [if_neg (by simp [h]), if_neg hne, if_neg hne]
  have : ∃ v, find name (w i).extra = some v := by
    simp only [hasData, decide_eq_false hne, Bool.false_or] at h
    exact Option.isSome_iff_exists.mp h
  obtain ⟨v, hv⟩ := this
  rw [hv]
  refine ⟨_, rfl, ?_⟩
  rw [set_same]
  simp only [hasData, decide_eq_false hne, Bool.false_or, find_erase, if_true, Option.isSome_none]

end Refine

section Solution
variable {V : Type}

private theorem set_names [Inhabited V] (m : List (String × Solution V)) (f : Nat → Solution V) (names : List String)
    (k : Nat) (name : String)
    (hm : m.Pairwise (fun p q => p.1 < q.1)) :
    ((names.zipIdx k).foldl (fun m p => assign p.1 (f p.2) m) m).Pairwise (fun p q => p.1 < q.1) ∧
    (name ∉ names → find name ((names.zipIdx k).foldl (fun m p => assign p.1 (f p.2) m) m) = find name m) ∧
    (∀ d, names[d]? = some name → (∀ d', d < d' → names[d']? ≠ some name) →
      find name ((names.zipIdx k).foldl (fun m p => assign p.1 (f p.2) m) m) = some (f (k + d))) := by
  induction names generalizing m k with
  | nil => exact ⟨hm, fun _ => rfl, fun d h => by simp at h⟩
  | cons x names ih =>
    rw [List.zipIdx_cons, List.foldl_cons]
    obtain ⟨h1, h2, h3⟩ := ih (assign x (f k) m) (k + 1) (sorted_assign x (f k) m hm)
    refine ⟨h1, fun hn => ?_, fun d hd hlast => ?_⟩
    · rw [List.mem_cons, not_or] at hn
      rw [h2 hn.2, find_assign, if_neg hn.1]
    · cases d with
      | zero =>
        simp only [List.getElem?_cons_zero, Option.some.injEq] at hd
        subst hd
        have : x ∉ names := by
          intro hx
          obtain ⟨j, hj⟩ := List.mem_iff_getElem?.mp hx
          exact hlast (j + 1) (by omega) (by simpa using hj)
        rw [h2 this, find_assign, if_pos rfl, Nat.add_zero]
      | succ d =>
        rw [List.getElem?_cons_succ] at hd
        rw [h3 d hd fun d' hd' => by have := hlast (d' + 1) (by omega); simpa using this]
        congr 2; omega

/-- C100. What SetSolution stored, GetSolution returns for each direction: for channel `ch`, antenna and polarization
the value at [antenna][direction][polarization]. Later directions with the same name replace earlier ones. -/
theorem solution_roundtrip [Inhabited V] (m : List (String × Solution V)) (hm : m.Pairwise (fun p q => p.1 < q.1))
    (solution : List (List V)) (nAntennas nPol : Nat) (names : List String) (dir : Nat) (name : String)
    (hd : names[dir]? = some name) (hlast : ∀ d, dir < d → names[d]? ≠ some name)
    (hlen : ∀ s ∈ solution, s.length = nAntennas * names.length * nPol) :
    ∃ out, getSolution (setSolution m solution nAntennas nPol names) name = .ok out ∧
      out.length = solution.length ∧ ∀ (ch : Nat) (sol : List V), solution[ch]? = some sol →
        ∃ o, out[ch]? = some o ∧ o.length = nAntennas * nPol ∧ ∀ ant < nAntennas, ∀ pol < nPol,
          o[ant * nPol + pol]? = sol[(ant * names.length + dir) * nPol + pol]? := by
  unfold getSolution setSolution
  rw [(set_names m (directionSolution solution nAntennas nPol names.length) names 0 name hm).2.2 dir hd hlast]
  simp only [Nat.zero_add, directionSolution]
  refine ⟨_, rfl, by simp, fun ch sol hch => ?_⟩
  obtain ⟨hlt, he⟩ := List.getElem?_eq_some_iff.mp hch
  rw [List.getElem?_map, List.getElem?_range hlt]
  refine ⟨_, rfl, by simp, fun ant hant pol hpol => ?_⟩
  have hi : ant * nPol + pol < nAntennas * nPol := by
    have : (ant + 1) * nPol ≤ nAntennas * nPol := Nat.mul_le_mul_right _ hant
    rw [Nat.succ_mul] at this; omega
  have hp0 : 0 < nPol := by omega
  have hdiv : (ant * nPol + pol) / nPol = ant := by
    rw [Nat.mul_comm, Nat.mul_add_div hp0, Nat.div_eq_of_lt hpol, Nat.add_zero]
  have hmod : (ant * nPol + pol) % nPol = pol := by
    rw [Nat.mul_comm, Nat.mul_add_mod, Nat.mod_eq_of_lt hpol]
  rw [List.getElem?_map, List.getElem?_range hi]
  simp only [Option.map_some, hdiv, hmod]
  have hdir : dir < names.length := (List.getElem?_eq_some_iff.mp hd).1
  have hidx : (ant * names.length + dir) * nPol + pol < sol.length := by
    rw [hlen sol (List.mem_of_getElem? hch)]
    have h1 : (ant + 1) * names.length ≤ nAntennas * names.length := Nat.mul_le_mul_right _ hant
    have h2 : ant * names.length + dir + 1 ≤ nAntennas * names.length := by rw [Nat.succ_mul] at h1; omega
    have h3 := Nat.mul_le_mul_right nPol h2
    rw [Nat.succ_mul] at h3
    omega
  have hs : solution.getD ch [] = sol := by simp [List.getD_eq_getElem?_getD, hch]
  rw [hs, List.getElem?_eq_getElem hidx, List.getD_eq_getElem?_getD, List.getElem?_eq_getElem hidx]
  rfl

/-- C100. A direction that was never stored gives an exception, and SetSolution keeps other directions. -/
theorem solution_other [Inhabited V] (m : List (String × Solution V)) (hm : m.Pairwise (fun p q => p.1 < q.1))
    (solution : List (List V)) (nAntennas nPol : Nat) (names : List String) (name : String) (h : name ∉ names) :
    getSolution (setSolution m solution nAntennas nPol names) name = getSolution m name := by
  unfold getSolution setSolution
  rw [(set_names m (directionSolution solution nAntennas nPol names.length) names 0 name hm).2.1 h]

end Solution

/-! ## Examples -/

section Examples

private def exBuffer : Buffer Int := ⟨7, [("a", 2), ("b", 3)], 0, 0, 0⟩

private def show' : Except Err (World Int) → Option (Int × List (String × Int))
  | .error _ => none
  | .ok w => some ((w 0).data, (w 0).extra)

/-- Of `step_refines`, `run_refines` and `dataNames_spec`. -/
example : show' (run (-1) (fun _ => exBuffer) [.add 0 "ab" 5, .moveData 0 1 "b" "c", .combine true 0 "b"]) =
    some (4, [("a", 2), ("ab", 5), ("c", 3)]) ∧
    show' (run (-1) (fun _ => exBuffer) [.moveData 0 1 "b" "c", .moveData 0 1 "b" "c"]) = none ∧
    show' (run (-1) (fun _ => exBuffer) [.remove 0 "", .copyData 0 1 "" "m"]) = some (7, [("m", 7)]) ∧
    dataNames exBuffer = ["", "a", "b"] := by
  decide +kernel

/-- Of `copy_fields`. -/
example : (copy (fun i => if i = 0 then exBuffer else ⟨1, [], 2, 3, 4⟩) 0 1 ⟨false, true, false, true⟩ false 0).flags = 2 ∧
    (copy (fun i => if i = 0 then exBuffer else ⟨1, [], 2, 3, 4⟩) 0 1 ⟨false, true, false, true⟩ false 0).weights = 0 := by
  decide +kernel

/-- Of `combine_spec`, `combine_inverse`, `combine_empty_name` and `moveData_self_loses`. -/
example : show' (run (-1) (fun _ => exBuffer) [.copyData 0 0 "a" "c", .combine true 0 "a", .combine false 0 "c"]) =
    some (7, [("b", 3)]) ∧
    show' (run (-1) (fun _ => exBuffer) [.combine true 0 ""]) = some (0, []) ∧
    show' (run (-1) (fun _ => exBuffer) [.moveData 0 0 "a" "a"]) = some (7, [("b", 3)]) := by
  decide +kernel

private def got : Except Err (List (List Int)) → Option (List (List Int))
  | .error _ => none
  | .ok l => some l

/-- Of `solution_roundtrip` and `solution_other`: one channel, two antennas, two directions, two polarizations. -/
example : got (getSolution (setSolution [] [[0, 1, 2, 3, 4, 5, 6, 7]] 2 2 ["z", "a"]) "a") = some [[2, 3, 6, 7]] ∧
    got (getSolution (setSolution [] [[0, 1, 2, 3, 4, 5, 6, 7]] 2 2 ["z", "a"]) "b") = none := by
  decide +kernel

end Examples

end DP3.DPBuffer
