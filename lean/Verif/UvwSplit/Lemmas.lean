import Verif.UvwSplit.Spec
import Mathlib.Data.Finset.Card
import Mathlib.Data.Finset.Range
import Mathlib.Data.Finset.Image
import Mathlib.Algebra.Group.Basic
import Mathlib.Tactic.Abel

/-!
# Lemmas on links and on the loops
-/

namespace DP3.UvwSplit

set_option linter.unusedSimpArgs false

variable {bs : List (Nat × Nat)} {used used' : List Nat} {a b c : Nat}

theorem Linked.trans (h1 : Linked bs used a b) (h2 : Linked bs used b c) : Linked bs used a c := by
  induction h2 with
  | refl => exact h1
  | step i hi h _ ih => exact .step i hi h ih
  | back i hi h _ ih => exact .back i hi h ih

theorem Linked.symm (h : Linked bs used a b) : Linked bs used b a := by
  induction h with
  | refl => exact .refl _
  | step i hi h _ ih => exact (Linked.back i hi h (.refl _)).trans ih
  | back i hi h _ ih => exact (Linked.step i hi h (.refl _)).trans ih

theorem Linked.mono (hu : ∀ i ∈ used, i ∈ used') (h : Linked bs used a b) : Linked bs used' a b := by
  induction h with
  | refl => exact .refl _
  | step i hi h _ ih => exact .step i (hu i hi) h ih
  | back i hi h _ ih => exact .back i (hu i hi) h ih

theorem Linked.one {i : Nat} (hi : i ∈ used) (h : bs[i]? = some (a, b)) : Linked bs used a b := .step i hi h (.refl _)

/-- Linked stations have the same difference in any coordinates that fit the baselines. -/
theorem Linked.diff {V : Type} [AddCommGroup V] {f g : Nat → V}
    (hu : ∀ i ∈ used, ∀ a b, bs[i]? = some (a, b) → f b - f a = g b - g a) (h : Linked bs used a b) : f b - f a = g b - g a := by
  induction h with
  | refl => simp
  | @step b c i hi h _ ih =>
    have := hu i hi _ _ h
    have e : f c - f a = (f c - f b) + (f b - f a) := by abel
    have e' : g c - g a = (g c - g b) + (g b - g a) := by abel
    rw [e, e', this, ih]
  | @back b c i hi h _ ih =>
    have := hu i hi _ _ h
    have e : f c - f a = -(f b - f c) + (f b - f a) := by abel
    have e' : g c - g a = -(g b - g c) + (g b - g a) := by abel
    rw [e, e', this, ih]

theorem set_same {α : Type} (f : Nat → α) (a : Nat) (x : α) : set f a x a = x := by simp [set]

theorem set_other {α : Type} (f : Nat → α) (a b : Nat) (x : α) (h : b ≠ a) : set f a x b = f b := by simp [set, h]

/-! ## The loops of the splitting -/

/-- What holds during the loops; `seen a i` says that baseline `i` was looked at for antenna `a`. -/
structure Inv (nant : Nat) (bs : List (Nat × Nat)) (seen : Nat → Nat → Prop) (s : State) : Prop where
  count : s.nset = ((Finset.range nant).filter fun a => s.known a = true).card
  range : ∀ a, s.known a = true → a < nant
  ends : ∀ idx ∈ s.uvwBl, ∃ a b, bs[baselineOf idx]? = some (a, b) ∧ s.known a = true ∧ s.known b = true
  proper : ∀ idx ∈ s.uvwBl, ∀ a, bs[baselineOf idx]? ≠ some (a, a)
  nodup : (s.uvwBl.map baselineOf).Nodup
  exact : ∀ (V : Type) [AddCommGroup V] (uvw : Nat → V), ∀ idx ∈ s.uvwBl, ∀ a b, bs[baselineOf idx]? = some (a, b) →
    splitUvw s.uvwBl bs uvw b - splitUvw s.uvwBl bs uvw a = uvw (baselineOf idx)
  closed : ∀ a i b, seen a i → (bs[i]? = some (a, b) ∨ bs[i]? = some (b, a)) → s.known b = true ∧ Linked bs (s.uvwBl.map baselineOf) a b
  memKnown : ∀ m ∈ s.members, s.known m = true
  memLinked : ∀ m ∈ s.members, ∀ m' ∈ s.members, Linked bs (s.uvwBl.map baselineOf) m m'
  memNodup : s.members.Nodup
  cover : ∀ a, s.known a = true → (∀ i, seen a i) ∨ a ∈ s.members

theorem baselineOf_nat (i : Nat) : baselineOf (i : Int) = i := by simp [baselineOf]

theorem baselineOf_neg (i : Nat) : baselineOf (-((i : Int) + 1)) = i := by
  unfold baselineOf
  rw [if_pos (by omega)]
  omega

private theorem card_set {nant : Nat} {known : Nat → Bool} {a : Nat} (ha : a < nant) (hk : known a = false) :
    ((Finset.range nant).filter fun x => set known a true x = true).card = ((Finset.range nant).filter fun x => known x = true).card + 1 := by
  have : ((Finset.range nant).filter fun x => set known a true x = true) = insert a ((Finset.range nant).filter fun x => known x = true) := by
    ext x
    simp only [Finset.mem_filter, Finset.mem_range, Finset.mem_insert]
    by_cases hx : x = a
    · subst hx
      simp [set_same, ha]
    · rw [set_other _ _ _ _ hx]
      simp [hx]
  rw [this, Finset.card_insert_of_notMem]
  simp [hk]

/-- A step that sets antenna `new` from the known antenna `old`. -/
private theorem inv_add {nant : Nat} {bs : List (Nat × Nat)} {seen : Nat → Nat → Prop} {s : State} (hi : Inv nant bs seen s) {old new k : Nat}
    (hold : old ∈ s.members) (hnew : s.known new = false) (hr : new < nant) (idx : Int) (hidx : baselineOf idx = k)
    (hb : bs[k]? = some (old, new) ∧ 0 ≤ idx ∨ bs[k]? = some (new, old) ∧ idx < 0) :
    Inv nant bs (fun a i => seen a i ∨ (a = old ∧ i = k))
      { uvwBl := s.uvwBl ++ [idx], members := s.members ++ [new], known := set s.known new true, nset := s.nset + 1 } := by
  have hknown : s.known old = true := hi.memKnown _ hold
  have hne : old ≠ new := by
    intro h
    rw [h, hnew] at hknown
    exact absurd hknown (by simp)
  have hmono : ∀ x, s.known x = true → set s.known new true x = true := by
    intro x hx
    unfold set
    split
    · rfl
    · exact hx
  have hsub : ∀ i ∈ s.uvwBl.map baselineOf, i ∈ (s.uvwBl ++ [idx]).map baselineOf := by
    intro i h
    rw [List.map_append]
    exact List.mem_append_left _ h
  have hkmem : k ∈ (s.uvwBl ++ [idx]).map baselineOf := by
    rw [List.map_append]
    apply List.mem_append_right
    simp [hidx]
  have hlink : Linked bs ((s.uvwBl ++ [idx]).map baselineOf) old new := by
    rcases hb with hb | hb
    · exact .one hkmem hb.1
    · exact (Linked.one hkmem hb.1).symm
  have hknew : k ∉ s.uvwBl.map baselineOf := by
    intro hm
    rw [List.mem_map] at hm
    obtain ⟨idx', hm, he⟩ := hm
    obtain ⟨x, y, h1, h2, h3⟩ := hi.ends idx' hm
    rw [he] at h1
    rcases hb with hb | hb
    · rw [hb.1] at h1
      injection h1 with h1
      rw [Prod.mk.injEq] at h1
      rw [← h1.2, hnew] at h3
      exact absurd h3 (by simp)
    · rw [hb.1] at h1
      injection h1 with h1
      rw [Prod.mk.injEq] at h1
      rw [← h1.1, hnew] at h2
      exact absurd h2 (by simp)
  have hgetD : ∀ p, bs[k]? = some p → bs.getD k (0, 0) = p := by
    intro p hp
    rw [List.getD_eq_getElem?_getD, hp, Option.getD_some]
  constructor
  · show s.nset + 1 = _
    rw [card_set hr hnew, hi.count]
  · intro a ha
    by_cases h : a = new
    · rw [h]; exact hr
    · exact hi.range a (by rw [← set_other s.known new a true h]; exact ha)
  · intro i hm
    rw [List.mem_append] at hm
    rcases hm with hm | hm
    · obtain ⟨a, b, h1, h2, h3⟩ := hi.ends i hm
      exact ⟨a, b, h1, hmono _ h2, hmono _ h3⟩
    · rw [List.mem_singleton] at hm
      subst hm
      rw [hidx]
      rcases hb with hb | hb
      · exact ⟨_, _, hb.1, hmono _ hknown, set_same _ _ _⟩
      · exact ⟨_, _, hb.1, set_same _ _ _, hmono _ hknown⟩
  · intro i hm a
    rw [List.mem_append] at hm
    rcases hm with hm | hm
    · exact hi.proper i hm a
    · rw [List.mem_singleton] at hm
      subst hm
      rw [hidx]
      intro h
      rcases hb with hb | hb
      · rw [hb.1] at h
        simp only [Option.some.injEq, Prod.mk.injEq] at h
        exact hne (h.1.trans h.2.symm)
      · rw [hb.1] at h
        simp only [Option.some.injEq, Prod.mk.injEq] at h
        exact hne (h.2.trans h.1.symm)
  · rw [List.map_append, List.nodup_append]
    refine ⟨hi.nodup, by simp, ?_⟩
    intro x hx y hy
    simp only [List.map_cons, List.map_nil, List.mem_singleton] at hy
    rw [hy, hidx]
    intro h
    rw [h] at hx
    exact hknew hx
  · intro V _ uvw i hm a b hab
    have hsplit : splitUvw (s.uvwBl ++ [idx]) bs uvw = splitStep bs uvw (splitUvw s.uvwBl bs uvw) idx := by
      unfold splitUvw
      rw [List.foldl_append]
      rfl
    rw [hsplit]
    have hstep : ∀ x, x ≠ new → splitStep bs uvw (splitUvw s.uvwBl bs uvw) idx x = splitUvw s.uvwBl bs uvw x := by
      intro x hx
      unfold splitStep
      unfold baselineOf at hidx
      rcases hb with hb | hb
      · rw [if_neg (by omega)] at hidx ⊢
        simp only [hidx, hgetD _ hb.1]
        exact set_other _ _ _ _ hx
      · rw [if_pos hb.2] at hidx ⊢
        simp only [hidx, hgetD _ hb.1]
        exact set_other _ _ _ _ hx
    have hstep' : splitStep bs uvw (splitUvw s.uvwBl bs uvw) idx new =
        if idx < 0 then splitUvw s.uvwBl bs uvw old - uvw k else splitUvw s.uvwBl bs uvw old + uvw k := by
      unfold splitStep
      unfold baselineOf at hidx
      rcases hb with hb | hb
      · rw [if_neg (by omega)] at hidx ⊢
        rw [if_neg (by omega)]
        simp only [hidx, hgetD _ hb.1]
        exact set_same _ _ _
      · rw [if_pos hb.2] at hidx ⊢
        rw [if_pos hb.2]
        simp only [hidx, hgetD _ hb.1]
        exact set_same _ _ _
    rw [List.mem_append] at hm
    rcases hm with hm | hm
    · obtain ⟨a', b', h1, h2, h3⟩ := hi.ends i hm
      rw [hab] at h1
      simp only [Option.some.injEq, Prod.mk.injEq] at h1
      rw [← h1.1] at h2
      rw [← h1.2] at h3
      rw [hstep a (by rintro rfl; rw [hnew] at h2; exact absurd h2 (by simp)),
        hstep b (by rintro rfl; rw [hnew] at h3; exact absurd h3 (by simp))]
      exact hi.exact V uvw i hm a b hab
    · rw [List.mem_singleton] at hm
      subst hm
      rw [hidx] at hab ⊢
      rcases hb with hb | hb
      · rw [hb.1] at hab
        simp only [Option.some.injEq, Prod.mk.injEq] at hab
        rw [← hab.1, ← hab.2, hstep', hstep old hne, if_neg (by omega)]
        abel
      · rw [hb.1] at hab
        simp only [Option.some.injEq, Prod.mk.injEq] at hab
        rw [← hab.1, ← hab.2, hstep', hstep old hne, if_pos hb.2]
        abel
  · intro x i y hseen hxy
    rcases hseen with hseen | ⟨rfl, rfl⟩
    · obtain ⟨h1, h2⟩ := hi.closed x i y hseen hxy
      exact ⟨hmono _ h1, h2.mono hsub⟩
    · have hy : y = new := by
        rcases hxy with h | h <;> rcases hb with hb | hb <;> rw [hb.1] at h <;>
          simp only [Option.some.injEq, Prod.mk.injEq] at h
        · exact h.2.symm
        · exact absurd h.1 (Ne.symm hne)
        · exact absurd h.2 (Ne.symm hne)
        · exact h.1.symm
      subst hy
      exact ⟨set_same _ _ _, hlink⟩
  · intro m hm
    rw [List.mem_append] at hm
    rcases hm with hm | hm
    · exact hmono _ (hi.memKnown m hm)
    · rw [List.mem_singleton] at hm
      rw [hm]
      exact set_same _ _ _
  · have hto : ∀ m ∈ s.members ++ [new], Linked bs ((s.uvwBl ++ [idx]).map baselineOf) old m := by
      intro m hm
      rw [List.mem_append] at hm
      rcases hm with hm | hm
      · exact (hi.memLinked old hold m hm).mono hsub
      · rw [List.mem_singleton] at hm
        rw [hm]
        exact hlink
    intro m hm m' hm'
    exact (hto m hm).symm.trans (hto m' hm')
  · show (s.members ++ [new]).Nodup
    rw [List.nodup_append]
    refine ⟨hi.memNodup, by simp, ?_⟩
    intro x hx y hy
    simp only [List.mem_singleton] at hy
    rw [hy]
    rintro rfl
    have := hi.memKnown _ hx
    rw [hnew] at this
    exact absurd this (by simp)
  · intro x hx
    by_cases h : x = new
    · right
      rw [h]
      simp
    · rcases hi.cover x (by rw [← set_other s.known new x true h]; exact hx) with hc | hc
      · exact Or.inl fun i => Or.inl (hc i)
      · exact Or.inr (List.mem_append_left _ hc)

theorem inv_step {nant : Nat} {bs : List (Nat × Nat)} (hv : Valid nant bs) {seen : Nat → Nat → Prop} {s : State} (hi : Inv nant bs seen s)
    {refst k : Nat} (hm : refst ∈ s.members) (hk : k < bs.length) :
    Inv nant bs (fun a i => seen a i ∨ (a = refst ∧ i = k)) (baselineStep bs refst s k) ∧
      (∃ l, (baselineStep bs refst s k).members = s.members ++ l) ∧ s.nset ≤ (baselineStep bs refst s k).nset := by
  obtain ⟨x, y, hxy⟩ : ∃ x y, bs[k] = (x, y) := ⟨_, _, rfl⟩
  have hb : bs[k]? = some (x, y) := by rw [List.getElem?_eq_getElem hk, hxy]
  have hgetD : bs.getD k (0, 0) = (x, y) := by rw [List.getD_eq_getElem?_getD, hb, Option.getD_some]
  have hrange := hv (x, y) (by rw [← hxy]; exact List.getElem_mem hk)
  have hknown := hi.memKnown _ hm
  have hkeep : (bs[k]? ≠ some (refst, x) ∧ bs[k]? ≠ some (refst, y) ∧ bs[k]? ≠ some (x, refst) ∧ bs[k]? ≠ some (y, refst)) ∨
      (s.known x = s.known y) →
      Inv nant bs (fun a i => seen a i ∨ (a = refst ∧ i = k)) s := by
    intro hno
    refine { hi with closed := ?_, cover := ?_ }
    · intro p i q hs hpq
      rcases hs with hs | ⟨rfl, rfl⟩
      · exact hi.closed p i q hs hpq
      · rw [hb] at hpq
        simp only [Option.some.injEq, Prod.mk.injEq] at hpq
        have hq : s.known q = true := by
          rcases hno with hno | hno
          · rw [hb] at hno
            rcases hpq with ⟨h1, h2⟩ | ⟨h1, h2⟩
            · subst h1 h2
              exact absurd rfl hno.2.1
            · subst h1 h2
              exact absurd rfl hno.2.2.1
          · rcases hpq with ⟨h1, h2⟩ | ⟨h1, h2⟩
            · rw [← h2, ← hno, h1]; exact hknown
            · rw [← h1, hno, h2]; exact hknown
        refine ⟨hq, ?_⟩
        rcases hi.cover q hq with hc | hc
        · have := hi.closed q i p (hc i) (by rw [hb]; rcases hpq with ⟨h1, h2⟩ | ⟨h1, h2⟩ <;> subst h1 h2 <;> simp)
          exact this.2.symm
        · exact hi.memLinked _ hm _ hc
    · intro p hp
      rcases hi.cover p hp with hc | hc
      · exact Or.inl fun i => Or.inl (hc i)
      · exact Or.inr hc
  unfold baselineStep
  rw [hgetD]
  by_cases hne : (s.known x != s.known y) = true
  · simp only [hne, if_true]
    by_cases h1 : x = refst
    · rw [if_pos h1]
      have hnew : s.known y = false := by
        rw [h1, hknown] at hne
        cases hy : s.known y
        · rfl
        · rw [hy] at hne; exact absurd hne (by simp)
      refine ⟨?_, ⟨[y], rfl⟩, by simp⟩
      exact inv_add hi hm hnew hrange.2 _ (baselineOf_nat k) (Or.inl ⟨by rw [hb, h1], by omega⟩)
    · rw [if_neg h1]
      by_cases h2 : y = refst
      · rw [if_pos h2]
        have hnew : s.known x = false := by
          rw [h2, hknown] at hne
          cases hy : s.known x
          · rfl
          · rw [hy] at hne; exact absurd hne (by simp)
        refine ⟨?_, ⟨[x], rfl⟩, by simp⟩
        exact inv_add hi hm hnew hrange.1 _ (baselineOf_neg k) (Or.inr ⟨by rw [hb, h2], by omega⟩)
      · rw [if_neg h2]
        refine ⟨hkeep (Or.inl ?_), ⟨[], by simp⟩, le_refl _⟩
        rw [hb]
        simp only [ne_eq, Option.some.injEq, Prod.mk.injEq, not_and]
        exact ⟨fun h => absurd h h1, fun h => absurd h h1, fun _ => h2, fun _ => h2⟩
  · have he : s.known x = s.known y := by simpa using hne
    simp only [he, bne_self_eq_false, Bool.false_eq_true, if_false]
    exact ⟨hkeep (Or.inr he), ⟨[], by simp⟩, le_refl _⟩

private theorem inv_weaken {nant : Nat} {bs : List (Nat × Nat)} {seen seen' : Nat → Nat → Prop} {s : State} (hi : Inv nant bs seen s)
    (h1 : ∀ a i, i < bs.length → seen' a i → seen a i) (h2 : ∀ a, s.known a = true → (∀ i, seen a i) → ∀ i, seen' a i) : Inv nant bs seen' s := by
  refine { hi with closed := ?_, cover := ?_ }
  · intro a i b hs hab
    have hl : i < bs.length := by
      rcases hab with h | h <;> exact (List.getElem?_eq_some_iff.mp h).1
    exact hi.closed a i b (h1 a i hl hs) hab
  · intro a ha
    rcases hi.cover a ha with h | h
    · exact Or.inl (h2 a ha h)
    · exact Or.inr h

private theorem loop_aux {nant : Nat} {bs : List (Nat × Nat)} (hv : Valid nant bs) {refst : Nat} (l : List Nat) (hl : ∀ k ∈ l, k < bs.length)
    {seen : Nat → Nat → Prop} {s : State} (hi : Inv nant bs seen s) (hm : refst ∈ s.members) :
    Inv nant bs (fun a i => seen a i ∨ (a = refst ∧ i ∈ l)) (l.foldl (baselineStep bs refst) s) ∧
      (∃ t, (l.foldl (baselineStep bs refst) s).members = s.members ++ t) ∧ s.nset ≤ (l.foldl (baselineStep bs refst) s).nset := by
  induction l generalizing seen s with
  | nil =>
    refine ⟨inv_weaken hi ?_ ?_, ⟨[], by simp⟩, le_refl _⟩
    · intro a i _ h
      rcases h with h | ⟨_, h⟩
      · exact h
      · exact absurd h (by simp)
    · intro a _ h i
      exact Or.inl (h i)
  | cons k ks ih =>
    obtain ⟨h1, ⟨t, h2⟩, h3⟩ := inv_step hv hi hm (hl k (by simp))
    obtain ⟨h1', ⟨t', h2'⟩, h3'⟩ := ih (fun k hk => hl k (List.mem_cons_of_mem _ hk)) h1 (by rw [h2]; exact List.mem_append_left _ hm)
    rw [List.foldl_cons]
    refine ⟨inv_weaken h1' ?_ ?_, ⟨t ++ t', by rw [h2', h2, List.append_assoc]⟩, h3.trans h3'⟩
    · intro a i _ h
      rcases h with h | ⟨h, h'⟩
      · exact Or.inl (Or.inl h)
      · rw [List.mem_cons] at h'
        rcases h' with h' | h'
        · exact Or.inl (Or.inr ⟨h, h'⟩)
        · exact Or.inr ⟨h, h'⟩
    · intro a _ h i
      rcases h i with (h | ⟨h, h'⟩) | ⟨h, h'⟩
      · exact Or.inl h
      · exact Or.inr ⟨h, by rw [h']; simp⟩
      · exact Or.inr ⟨h, List.mem_cons_of_mem _ h'⟩

theorem members_le {nant : Nat} {bs : List (Nat × Nat)} {seen : Nat → Nat → Prop} {s : State} (hi : Inv nant bs seen s) :
    s.members.length ≤ nant := by
  have h1 : s.members.toFinset.card = s.members.length := List.toFinset_card_of_nodup hi.memNodup
  have h2 : s.members.toFinset ⊆ Finset.range nant := by
    intro x hx
    rw [List.mem_toFinset] at hx
    exact Finset.mem_range.mpr (hi.range x (hi.memKnown x hx))
  have := Finset.card_le_card h2
  rw [h1, Finset.card_range] at this
  exact this

/-- What was looked at once the first `j` members of a group are done. -/
def Seen (old : Nat → Prop) (members : List Nat) (j : Nat) (a _i : Nat) : Prop := old a ∨ a ∈ members.take j

theorem memberLoop_inv {nant : Nat} {bs : List (Nat × Nat)} (hv : Valid nant bs) {old : Nat → Prop} (fuel j : Nat) (s : State)
    (hj : fuel + j = nant + 1) (hle : j ≤ s.members.length) (hi : Inv nant bs (Seen old s.members j) s) :
    ∃ s', memberLoop bs fuel j s = some s' ∧ Inv nant bs (fun a _ => s'.known a = true) s' ∧ s.nset ≤ s'.nset := by
  induction fuel generalizing j s with
  | zero =>
    have := members_le hi
    omega
  | succ fuel ih =>
    unfold memberLoop
    cases h : s.members[j]? with
    | none =>
      refine ⟨s, rfl, ?_, le_refl _⟩
      have hlen : s.members.length ≤ j := by simpa using h
      refine { hi with closed := ?_, cover := fun a ha => Or.inl fun _ => ha }
      intro a i b ha hab
      have htake : s.members.take j = s.members := List.take_of_length_le hlen
      apply hi.closed a i b _ hab
      rcases hi.cover a ha with hc | hc
      · exact hc i
      · right
        rw [htake]
        exact hc
    | some refst =>
      simp only
      have hm : refst ∈ s.members := List.mem_of_getElem? h
      obtain ⟨h1, ⟨t, h2⟩, h3⟩ := loop_aux hv (List.range bs.length) (fun k hk => List.mem_range.mp hk) hi hm
      have hlt : j < s.members.length := (List.getElem?_eq_some_iff.mp h).1
      have htake : (s.members ++ t).take (j + 1) = s.members.take j ++ [refst] := by
        rw [List.take_append_of_le_length hlt, List.take_add_one, h]
        rfl
      have h4 : Inv nant bs (Seen old (baselineLoop bs refst s).members (j + 1)) (baselineLoop bs refst s) := by
        refine inv_weaken h1 ?_ ?_
        · intro a i hlt' hs
          unfold Seen at hs ⊢
          unfold baselineLoop at hs
          rw [h2, htake, List.mem_append, List.mem_singleton] at hs
          rcases hs with hs | hs | hs
          · exact Or.inl (Or.inl hs)
          · exact Or.inl (Or.inr hs)
          · exact Or.inr ⟨hs, List.mem_range.mpr hlt'⟩
        · intro a _ hs i
          unfold Seen
          unfold baselineLoop
          rw [h2, htake, List.mem_append, List.mem_singleton]
          rcases hs i with (hs | hs) | hs
          · exact Or.inl hs
          · exact Or.inr (Or.inl hs)
          · exact Or.inr (Or.inr hs.1)
      obtain ⟨s', e1, e2, e3⟩ := ih (j + 1) (baselineLoop bs refst s) (by omega) (by unfold baselineLoop; rw [h2, List.length_append]; omega) h4
      exact ⟨s', e1, e2, h3.trans e3⟩

private theorem find_unknown {nant : Nat} {bs : List (Nat × Nat)} {seen : Nat → Nat → Prop} {s : State} (hi : Inv nant bs seen s)
    (hlt : s.nset < nant) : ∃ i, (List.range nant).find? (fun i => !s.known i) = some i ∧ i < nant ∧ s.known i = false := by
  cases h : (List.range nant).find? (fun i => !s.known i) with
  | some i =>
    have h1 := List.mem_of_find?_eq_some h
    have h2 := List.find?_some h
    exact ⟨i, rfl, List.mem_range.mp h1, by simpa using h2⟩
  | none =>
    exfalso
    rw [List.find?_eq_none] at h
    have hc := hi.count
    have : ((Finset.range nant).filter fun a => s.known a = true) = Finset.range nant := by
      apply Finset.filter_true_of_mem
      intro x hx
      simpa using h x (List.mem_range.mpr (Finset.mem_range.mp hx))
    rw [this, Finset.card_range] at hc
    omega

private theorem startGroup_inv {nant : Nat} {bs : List (Nat × Nat)} {s : State} (hi : Inv nant bs (fun a _ => s.known a = true) s)
    (hlt : s.nset < nant) :
    Inv nant bs (Seen (fun a => s.known a = true) (startGroup nant s).members 0) (startGroup nant s) ∧
      (startGroup nant s).nset = s.nset + 1 := by
  obtain ⟨i, h1, h2, h3⟩ := find_unknown hi hlt
  unfold startGroup
  rw [h1]
  have hmono : ∀ x, s.known x = true → set s.known i true x = true := by
    intro x hx
    unfold set
    split
    · rfl
    · exact hx
  refine ⟨?_, rfl⟩
  refine { hi with count := ?_, range := ?_, ends := ?_, closed := ?_, memKnown := ?_, memLinked := ?_, memNodup := ?_, cover := ?_ }
  · show s.nset + 1 = _
    rw [card_set h2 h3, hi.count]
  · intro a ha
    by_cases h : a = i
    · rw [h]; exact h2
    · exact hi.range a (by rw [← set_other s.known i a true h]; exact ha)
  · intro idx hm
    obtain ⟨a, b, e1, e2, e3⟩ := hi.ends idx hm
    exact ⟨a, b, e1, hmono _ e2, hmono _ e3⟩
  · intro a j b hs hab
    unfold Seen at hs
    rcases hs with hs | hs
    · obtain ⟨e1, e2⟩ := hi.closed a j b hs hab
      exact ⟨hmono _ e1, e2⟩
    · rw [List.take_zero] at hs
      exact absurd hs (by simp)
  · intro m hm
    rw [List.mem_singleton] at hm
    rw [hm]
    exact set_same _ _ _
  · intro m hm m' hm'
    rw [List.mem_singleton] at hm hm'
    rw [hm, hm']
    exact .refl _
  · simp
  · intro a ha
    by_cases h : a = i
    · right; rw [h]; simp
    · left
      intro _
      left
      show s.known a = true
      rw [← set_other s.known i a true h]
      exact ha

theorem groupLoop_inv {nant : Nat} {bs : List (Nat × Nat)} (hv : Valid nant bs) (fuel : Nat) (s : State)
    (hi : Inv nant bs (fun a _ => s.known a = true) s) (hf : nant < fuel + s.nset) (hn : s.nset ≤ nant) :
    ∃ s', groupLoop nant bs fuel s = some s' ∧ Inv nant bs (fun a _ => s'.known a = true) s' ∧ s'.nset = nant := by
  induction fuel generalizing s with
  | zero => omega
  | succ fuel ih =>
    unfold groupLoop
    by_cases hlt : s.nset < nant
    · rw [if_pos hlt]
      obtain ⟨h1, h2⟩ := startGroup_inv hi hlt
      obtain ⟨s', e1, e2, e3⟩ := memberLoop_inv hv (nant + 1) 0 (startGroup nant s) (by omega) (by omega) h1
      rw [e1]
      have hle : s'.nset ≤ nant := by
        rw [e2.count]
        calc _ ≤ (Finset.range nant).card := Finset.card_filter_le _ _
          _ = nant := Finset.card_range _
      exact ih s' e2 (by omega) hle
    · rw [if_neg hlt]
      exact ⟨s, rfl, hi, by omega⟩

/-- What the splitting ends with. -/
structure Done (nant : Nat) (bs : List (Nat × Nat)) (r : List Int) : Prop where
  ends : ∀ idx ∈ r, ∃ a b, bs[baselineOf idx]? = some (a, b) ∧ a ≠ b
  nodup : (r.map baselineOf).Nodup
  exact : ∀ (V : Type) [AddCommGroup V] (uvw : Nat → V), ∀ idx ∈ r, ∀ a b, bs[baselineOf idx]? = some (a, b) →
    splitUvw r bs uvw b - splitUvw r bs uvw a = uvw (baselineOf idx)
  linked : ∀ (i a b : Nat), bs[i]? = some (a, b) → Linked bs (r.map baselineOf) a b

theorem setup_done {nant : Nat} {bs : List (Nat × Nat)} (hv : Valid nant bs) : ∃ r, setupUvwSplitting nant bs = some r ∧ Done nant bs r := by
  have h0 : Inv nant bs (fun a _ => (false : Bool) = true) { uvwBl := [], known := fun _ => false, nset := 0, members := [] } := by
    constructor <;> simp
  obtain ⟨s', h1, h2, h3⟩ := groupLoop_inv hv (nant + 1) ⟨[], fun _ => false, 0, []⟩ h0 (by simp) (by simp)
  refine ⟨s'.uvwBl, ?_, ?_, h2.nodup, h2.exact, ?_⟩
  · unfold setupUvwSplitting
    rw [h1]
    rfl
  · intro idx hm
    obtain ⟨a, b, e1, _, _⟩ := h2.ends idx hm
    refine ⟨a, b, e1, ?_⟩
    rintro rfl
    exact h2.proper idx hm a e1
  · intro i a b hab
    have ha : a < nant := (hv (a, b) (List.mem_of_getElem? hab)).1
    have hall : ((Finset.range nant).filter fun a => s'.known a = true) = Finset.range nant := by
      apply Finset.eq_of_subset_of_card_le (Finset.filter_subset _ _)
      rw [← h2.count, h3, Finset.card_range]
    have hk : s'.known a = true := by
      have : a ∈ (Finset.range nant).filter fun a => s'.known a = true := by
        rw [hall]
        exact Finset.mem_range.mpr ha
      exact (Finset.mem_filter.mp this).2
    exact (h2.closed a i b hk (Or.inl hab)).2

end DP3.UvwSplit
