import Verif.SkyModel.Spec

/-!
# Maps and the state of reading
-/

namespace DP3.SkyModel

set_option linter.unusedSimpArgs false

section Maps

variable {V : Type}

/-- Keys in strict order. -/
def Sorted (m : List (String × V)) : Prop := m.Pairwise fun a b => a.1 < b.1

theorem find_nil (k : String) : find ([] : List (String × V)) k = none := rfl

theorem find_cons (k k' : String) (v : V) (m : List (String × V)) : find ((k', v) :: m) k = if k = k' then some v else find m k := by
  unfold find
  rw [List.lookup_cons]
  by_cases h : k = k'
  · rw [if_pos h]; simp [h]
  · rw [if_neg h]
    have : (k == k') = false := by simpa using h
    rw [this]

theorem find_none_of_lt {k : String} {m : List (String × V)} (h : ∀ e ∈ m, k < e.1) : find m k = none := by
  induction m with
  | nil => rfl
  | cons e m ih =>
    obtain ⟨k', v⟩ := e
    rw [find_cons, if_neg (ne_of_lt (h (k', v) (by simp)))]
    exact ih (fun x hx => h x (List.mem_cons_of_mem _ hx))

theorem set_mem {k : String} {v : V} {m : List (String × V)} {e : String × V} (h : e ∈ set k v m) : e = (k, v) ∨ e ∈ m := by
  induction m with
  | nil =>
    rw [set, List.mem_singleton] at h
    exact Or.inl h
  | cons x m ih =>
    obtain ⟨k', v'⟩ := x
    rw [set] at h
    split at h
    · rcases List.mem_cons.mp h with h | h
      · exact Or.inl h
      · exact Or.inr h
    · split at h
      · rcases List.mem_cons.mp h with h | h
        · exact Or.inl h
        · exact Or.inr (List.mem_cons_of_mem _ h)
      · rcases List.mem_cons.mp h with h | h
        · exact Or.inr (by rw [h]; simp)
        · rcases ih h with h | h
          · exact Or.inl h
          · exact Or.inr (List.mem_cons_of_mem _ h)

theorem set_sorted {k : String} {v : V} {m : List (String × V)} (h : Sorted m) : Sorted (set k v m) := by
  induction m with
  | nil => simp [set, Sorted]
  | cons x m ih =>
    obtain ⟨k', v'⟩ := x
    unfold Sorted at h ih ⊢
    rw [List.pairwise_cons] at h
    rw [set]
    split
    · rename_i hlt
      rw [List.pairwise_cons, List.pairwise_cons]
      refine ⟨?_, h⟩
      intro e he
      rcases List.mem_cons.mp he with rfl | he
      · exact hlt
      · exact lt_trans hlt (h.1 e he)
    · rename_i hlt
      split
      · rename_i heq
        rw [List.pairwise_cons]
        refine ⟨?_, h.2⟩
        intro e he
        rw [heq]
        exact h.1 e he
      · rename_i hne
        rw [List.pairwise_cons]
        refine ⟨?_, ih h.2⟩
        intro e he
        rcases set_mem he with rfl | he
        · exact lt_of_le_of_ne (not_lt.mp hlt) (fun h => hne h.symm)
        · exact h.1 e he

theorem find_set {k : String} {v : V} {m : List (String × V)} (k' : String) :
    find (set k v m) k' = if k' = k then some v else find m k' := by
  induction m with
  | nil => rw [set, find_cons]
  | cons x m ih =>
    obtain ⟨k2, v2⟩ := x
    rw [set]
    split
    · rw [find_cons]
    · split
      · rename_i heq
        subst heq
        rw [find_cons, find_cons]
        split <;> rfl
      · rename_i hne
        rw [find_cons, ih, find_cons]
        by_cases h : k' = k
        · subst h
          simp only [if_neg hne, if_true]
        · simp only [if_neg h]

theorem insert_sorted {k : String} {v : V} {m : List (String × V)} (h : Sorted m) : Sorted (insert k v m) := by
  unfold insert
  split
  · exact h
  · exact set_sorted h

theorem find_insert {k : String} {v : V} {m : List (String × V)} (k' : String) :
    find (insert k v m) k' = if k' = k then some ((find m k).getD v) else find m k' := by
  unfold insert
  cases hf : find m k with
  | some w =>
    simp only
    split
    · rename_i h; rw [h, hf]; rfl
    · rfl
  | none =>
    simp only
    rw [find_set]
    rfl

theorem find_of_mem {m : List (String × V)} (h : Sorted m) {e : String × V} (he : e ∈ m) : find m e.1 = some e.2 := by
  induction m with
  | nil => simp at he
  | cons x m ih =>
    obtain ⟨k, v⟩ := x
    unfold Sorted at h ih
    rw [List.pairwise_cons] at h
    rw [find_cons]
    rcases List.mem_cons.mp he with rfl | he
    · simp
    · rw [if_neg (ne_of_gt (h.1 e he))]
      exact ih h.2 he

theorem mem_of_find {m : List (String × V)} {k : String} {v : V} (h : find m k = some v) : (k, v) ∈ m := by
  induction m with
  | nil => simp [find] at h
  | cons x m ih =>
    obtain ⟨k', v'⟩ := x
    rw [find_cons] at h
    split at h
    · rename_i hk
      injection h with h
      rw [hk, h]
      simp
    · exact List.mem_cons_of_mem _ (ih h)

theorem sorted_nodup {m : List (String × V)} (h : Sorted m) : (m.map Prod.fst).Nodup := by
  unfold Sorted at h
  rw [List.Nodup, List.pairwise_map]
  exact h.imp (fun h => ne_of_lt h)

end Maps

variable {D K S C : Type}

/-! ## The state after some lines -/

/-- The patch of a line that defines one. -/
def patchOfLine (l : Line D K S) : Option (PatchInfo D K) := (definition l).map fun p => own p l

/-- The number of definitions. -/
def nDefs (lines : List (Line D K S)) : Nat := (lines.filterMap patchOfLine).length

theorem nDefs_append (a b : List (Line D K S)) : nDefs (a ++ b) = nDefs a + nDefs b := by
  unfold nDefs
  rw [List.filterMap_append, List.length_append]

theorem nDefs_cons_of_some {l : Line D K S} {p : String} (h : definition l = some p) (b : List (Line D K S)) : nDefs (l :: b) = nDefs b + 1 := by
  unfold nDefs
  rw [List.filterMap_cons_some (b := own p l) (by unfold patchOfLine; rw [h]; rfl)]
  rfl

/-- The last definition of a patch is at this number. -/
def LastAt (p : String) (lines : List (Line D K S)) (i : Nat) : Prop :=
  ∃ a l b, lines = a ++ l :: b ∧ definition l = some p ∧ (∀ x ∈ b, definition x ≠ some p) ∧ i = nDefs a

/-- The first line for a patch only is at this number. -/
def FirstAt (p : String) (lines : List (Line D K S)) (i : Nat) : Prop :=
  ∃ a l b, lines = a ++ l :: b ∧ isPatchLine p l = true ∧ (∀ x ∈ a, isPatchLine p x = false) ∧ i = nDefs a

theorem patchLine_definition {p : String} {l : Line D K S} (h : isPatchLine p l = true) : definition l = some p := by
  unfold isPatchLine at h
  simp only [Bool.and_eq_true, beq_iff_eq] at h
  unfold definition
  rw [if_pos h.1, h.2]

theorem members_append (p : String) (a b : List (Line D K S)) : members p (a ++ b) = members p a ++ members p b := by
  unfold members
  rw [List.filter_append, List.map_append]

/-- What holds after some lines. -/
structure Inv (lines : List (Line D K S)) (s : State D K S) : Prop where
  patches : s.model.patches = lines.filterMap patchOfLine
  sources : s.model.sources = sourcesOf lines
  lutSorted : Sorted s.model.lut
  sumsSorted : Sorted s.sums
  lutSome : ∀ p i, find s.model.lut p = some i → LastAt p lines i
  lutNone : ∀ p, find s.model.lut p = none → ∀ l ∈ lines, definition l ≠ some p
  sumsSome : ∀ p i added, find s.sums p = some (i, added) → FirstAt p lines i ∧ added = members p lines
  sumsNone : ∀ p, find s.sums p = none → ∀ l ∈ lines, isPatchLine p l = false ∧ (p ≠ "" → isMember p l = false)
  noEmpty : ∀ l ∈ lines, isPatchLine "" l ≠ true

theorem LastAt.snoc {p : String} {lines : List (Line D K S)} {i : Nat} (h : LastAt p lines i) {l : Line D K S} (hl : definition l ≠ some p) :
    LastAt p (lines ++ [l]) i := by
  obtain ⟨a, x, b, h1, h2, h3, h4⟩ := h
  refine ⟨a, x, b ++ [l], by rw [h1]; simp, h2, ?_, h4⟩
  intro y hy
  rcases List.mem_append.mp hy with hy | hy
  · exact h3 y hy
  · rw [List.mem_singleton] at hy
    rw [hy]
    exact hl

theorem FirstAt.snoc {p : String} {lines : List (Line D K S)} {i : Nat} (h : FirstAt p lines i) (l : Line D K S) : FirstAt p (lines ++ [l]) i := by
  obtain ⟨a, x, b, h1, h2, h3, h4⟩ := h
  exact ⟨a, x, b ++ [l], by rw [h1]; simp, h2, h3, h4⟩

/-- What a line needs. -/
def Needs (before : List (Line D K S)) (l : Line D K S) : Prop :=
  (l.name ≠ "" ∨ l.patch ≠ "") ∧ (l.name ≠ "" → l.patch ≠ "" → ∃ x ∈ before, isPatchLine l.patch x = true)

theorem sourcesOf_snoc (lines : List (Line D K S)) (l : Line D K S) :
    sourcesOf (lines ++ [l]) = sourcesOf lines ++ (if l.name = "" then [] else [sourceOf l]) := by
  unfold sourcesOf
  rw [List.filter_append, List.map_append]
  by_cases h : l.name = ""
  · simp [h]
  · simp [h]

theorem inv_step {lines : List (Line D K S)} {s : State D K S} (h : Inv lines s) (l : Line D K S) :
    (Needs lines l → ∃ s', process s l = .ok s' ∧ Inv (lines ++ [l]) s') ∧ (¬ Needs lines l → ∃ e, process s l = .error e) := by
  have hlen : s.model.patches.length = nDefs lines := by rw [h.patches]; rfl
  by_cases hn : l.name = ""
  · by_cases hp : l.patch = ""
    · refine ⟨fun hneed => ?_, fun _ => ?_⟩
      · rcases hneed.1 with h' | h'
        · exact absurd hn h'
        · exact absurd hp h'
      · exact ⟨.noName, by unfold process; rw [if_pos hn, if_pos hp]⟩
    · have hd : definition l = some l.patch := by unfold definition; rw [if_pos hn]
      refine ⟨fun _ => ?_, fun hneed => absurd ⟨Or.inr hp, fun h' => absurd hn h'⟩ hneed⟩
      refine ⟨_, by unfold process; rw [if_pos hn, if_neg hp], ?_⟩
      have hpl : isPatchLine l.patch l = true := by unfold isPatchLine; simp [hn]
      have hpl' : ∀ p, p ≠ l.patch → isPatchLine p l = false := by
        intro p hne
        unfold isPatchLine
        simp [Ne.symm hne]
      have hmem : ∀ p, isMember p l = false := by intro p; unfold isMember; simp [hn]
      have hmembers : ∀ p, members p (lines ++ [l]) = members p lines := by
        intro p
        rw [members_append]
        unfold members
        simp [hmem p]
      constructor
      · show s.model.patches ++ [_] = _
        rw [h.patches, List.filterMap_append]
        congr 1
        unfold patchOfLine
        simp [hd, own]
      · show s.model.sources = _
        rw [sourcesOf_snoc, if_pos hn, List.append_nil, h.sources]
      · exact set_sorted h.lutSorted
      · exact insert_sorted h.sumsSorted
      · intro p i hf
        have hf : find (set l.patch s.model.patches.length s.model.lut) p = some i := hf
        rw [find_set] at hf
        split at hf
        · rename_i hpe
          injection hf with hf
          exact ⟨lines, l, [], rfl, by rw [hd, hpe], by simp, by rw [← hf, hlen]⟩
        · rename_i hpe
          exact (h.lutSome p i hf).snoc (by rw [hd]; intro e; injection e with e; exact hpe e.symm)
      · intro p hf
        have hf : find (set l.patch s.model.patches.length s.model.lut) p = none := hf
        rw [find_set] at hf
        split at hf
        · exact absurd hf (by simp)
        · rename_i hpe
          intro x hx
          rcases List.mem_append.mp hx with hx | hx
          · exact h.lutNone p hf x hx
          · rw [List.mem_singleton] at hx
            rw [hx, hd]
            intro e
            injection e with e
            exact hpe e.symm
      · intro p i added hf
        have hf : find (insert l.patch (s.model.patches.length, []) s.sums) p = some (i, added) := hf
        rw [hmembers]
        rw [find_insert] at hf
        split at hf
        · rename_i hpe
          rw [hpe]
          injection hf with hf
          cases hs : find s.sums l.patch with
          | some w =>
            obtain ⟨j, ad⟩ := w
            rw [hs] at hf
            simp only [Option.getD_some, Prod.mk.injEq] at hf
            have := h.sumsSome _ _ _ hs
            rw [← hf.1, ← hf.2]
            exact ⟨this.1.snoc l, this.2⟩
          | none =>
            rw [hs] at hf
            simp only [Option.getD_none, Prod.mk.injEq] at hf
            have hno := h.sumsNone _ hs
            refine ⟨⟨lines, l, [], rfl, hpl, fun x hx => (hno x hx).1, by rw [← hf.1, hlen]⟩, ?_⟩
            rw [← hf.2]
            unfold members
            rw [List.filter_eq_nil_iff.mpr (fun x hx => by rw [(hno x hx).2 hp]; simp)]
            rfl
        · have := h.sumsSome _ _ _ hf
          exact ⟨this.1.snoc l, this.2⟩
      · intro p hf
        have hf : find (insert l.patch (s.model.patches.length, []) s.sums) p = none := hf
        rw [find_insert] at hf
        split at hf
        · exact absurd hf (by simp)
        · rename_i hpe
          intro x hx
          rcases List.mem_append.mp hx with hx | hx
          · exact h.sumsNone p hf x hx
          · rw [List.mem_singleton] at hx
            rw [hx]
            exact ⟨hpl' p hpe, fun _ => hmem p⟩
      · intro x hx
        rcases List.mem_append.mp hx with hx | hx
        · exact h.noEmpty x hx
        · rw [List.mem_singleton] at hx
          rw [hx, hpl' _ (Ne.symm hp)]
          simp
  · have hpl : ∀ p, isPatchLine p l = false := by intro p; unfold isPatchLine; simp [hn]
    by_cases hp : l.patch = ""
    · have hd : definition l = some l.name := by unfold definition; rw [if_neg hn, if_pos hp]
      have hmem : ∀ p, p ≠ "" → isMember p l = false := by
        intro p hpe
        unfold isMember
        simp [hp, Ne.symm hpe]
      refine ⟨fun _ => ?_, fun hneed => absurd ⟨Or.inl hn, fun _ h' => absurd hp h'⟩ hneed⟩
      refine ⟨_, by unfold process; rw [if_neg hn, if_pos hp], ?_⟩
      have hne_of : ∀ p i added, find s.sums p = some (i, added) → p ≠ "" := by
        intro p i added hf hpe
        obtain ⟨⟨a, x, b, e1, e2, _⟩, _⟩ := h.sumsSome p i added hf
        exact h.noEmpty x (by rw [e1]; simp) (by rw [← hpe]; exact e2)
      constructor
      · show s.model.patches ++ [_] = _
        rw [h.patches, List.filterMap_append]
        congr 1
        unfold patchOfLine
        simp [hd, own]
      · show s.model.sources ++ [_] = _
        rw [sourcesOf_snoc, if_neg hn, h.sources]
        unfold sourceOf
        rw [if_pos hp]
      · exact set_sorted h.lutSorted
      · exact h.sumsSorted
      · intro p i hf
        have hf : find (set l.name s.model.patches.length s.model.lut) p = some i := hf
        rw [find_set] at hf
        split at hf
        · rename_i hpe
          injection hf with hf
          exact ⟨lines, l, [], rfl, by rw [hd, hpe], by simp, by rw [← hf, hlen]⟩
        · rename_i hpe
          exact (h.lutSome p i hf).snoc (by rw [hd]; intro e; injection e with e; exact hpe e.symm)
      · intro p hf
        have hf : find (set l.name s.model.patches.length s.model.lut) p = none := hf
        rw [find_set] at hf
        split at hf
        · exact absurd hf (by simp)
        · rename_i hpe
          intro x hx
          rcases List.mem_append.mp hx with hx | hx
          · exact h.lutNone p hf x hx
          · rw [List.mem_singleton] at hx
            rw [hx, hd]
            intro e
            injection e with e
            exact hpe e.symm
      · intro p i added hf
        have hpe := hne_of p i added hf
        have := h.sumsSome _ _ _ hf
        refine ⟨this.1.snoc l, ?_⟩
        rw [members_append, this.2]
        unfold members
        simp [hmem p hpe]
      · intro p hf x hx
        rcases List.mem_append.mp hx with hx | hx
        · exact h.sumsNone p hf x hx
        · rw [List.mem_singleton] at hx
          rw [hx]
          exact ⟨hpl p, hmem p⟩
      · intro x hx
        rcases List.mem_append.mp hx with hx | hx
        · exact h.noEmpty x hx
        · rw [List.mem_singleton] at hx
          rw [hx, hpl]
          simp
    · have hd : definition l = none := by unfold definition; rw [if_neg hn, if_neg hp]
      have hm : isMember l.patch l = true := by unfold isMember; simp [hn]
      have hm' : ∀ p, p ≠ l.patch → isMember p l = false := by
        intro p hpe
        unfold isMember
        simp [Ne.symm hpe]
      cases hs : find s.sums l.patch with
      | none =>
        have hno := h.sumsNone _ hs
        refine ⟨fun hneed => ?_, fun _ => ?_⟩
        · obtain ⟨x, hx, hxp⟩ := hneed.2 hn hp
          rw [(hno x hx).1] at hxp
          exact absurd hxp (by decide)
        · exact ⟨.patchNotDefined, by unfold process; rw [if_neg hn, if_neg hp]; simp only [hs]⟩
      | some w =>
        obtain ⟨id, added⟩ := w
        obtain ⟨⟨a, y, b, e1, e2, e3, e4⟩, hadd⟩ := h.sumsSome _ _ _ hs
        refine ⟨fun _ => ?_, fun hneed => absurd ⟨Or.inl hn, fun _ _ => ⟨y, by rw [e1]; simp, e2⟩⟩ hneed⟩
        refine ⟨_, by unfold process; rw [if_neg hn, if_neg hp]; simp only [hs]; rfl, ?_⟩
        constructor
        · show s.model.patches = _
          rw [h.patches, List.filterMap_append]
          unfold patchOfLine
          simp [hd]
        · show s.model.sources ++ [_] = _
          rw [sourcesOf_snoc, if_neg hn, h.sources]
          unfold sourceOf
          rw [if_neg hp]
        · exact h.lutSorted
        · exact set_sorted h.sumsSorted
        · intro p i hf
          exact (h.lutSome p i hf).snoc (by rw [hd]; simp)
        · intro p hf x hx
          rcases List.mem_append.mp hx with hx | hx
          · exact h.lutNone p hf x hx
          · rw [List.mem_singleton] at hx
            rw [hx, hd]
            simp
        · intro p i ad hf
          have hf : find (set l.patch (id, added ++ [(l.direction, l.flux)]) s.sums) p = some (i, ad) := hf
          rw [find_set] at hf
          split at hf
          · rename_i hpe
            simp only [Option.some.injEq, Prod.mk.injEq] at hf
            rw [hpe, ← hf.1, ← hf.2]
            refine ⟨(h.sumsSome _ _ _ hs).1.snoc l, ?_⟩
            rw [members_append, hadd]
            congr 1
            unfold members
            simp [hm]
          · rename_i hpe
            have := h.sumsSome _ _ _ hf
            refine ⟨this.1.snoc l, ?_⟩
            rw [members_append, this.2]
            unfold members
            simp [hm' p hpe]
        · intro p hf
          have hf : find (set l.patch (id, added ++ [(l.direction, l.flux)]) s.sums) p = none := hf
          rw [find_set] at hf
          split at hf
          · exact absurd hf (by simp)
          · rename_i hpe
            intro x hx
            rcases List.mem_append.mp hx with hx | hx
            · exact h.sumsNone p hf x hx
            · rw [List.mem_singleton] at hx
              rw [hx]
              exact ⟨hpl p, fun _ => hm' p hpe⟩
        · intro x hx
          rcases List.mem_append.mp hx with hx | hx
          · exact h.noEmpty x hx
          · rw [List.mem_singleton] at hx
            rw [hx, hpl]
            simp

end DP3.SkyModel
