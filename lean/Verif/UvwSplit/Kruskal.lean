import Verif.UvwSplit.Lemmas
import Mathlib.Data.List.Basic
import Mathlib.Logic.Function.Basic
import Mathlib.Order.Defs.LinearOrder

/-!
# Lemmas on the selection of baselines
-/

namespace DP3.UvwSplit

set_option linter.unusedSimpArgs false

/-! ## Counting classes -/

/-- Merge the classes of two stations. -/
def merge (cls : Nat → Nat) (p : Nat × Nat) : Nat → Nat := fun x => if cls x = cls p.2 then cls p.1 else cls x

/-- A class per station, merged along baselines. -/
def classes (bs : List (Nat × Nat)) (used : List Nat) : Nat → Nat := used.foldl (fun (cls : Nat → Nat) i => merge cls (bs.getD i (0, 0))) id

/-- The number of classes. -/
def size (n : Nat) (cls : Nat → Nat) : Nat := ((Finset.range n).image cls).card

theorem classes_append (bs : List (Nat × Nat)) (used : List Nat) (i : Nat) :
    classes bs (used ++ [i]) = merge (classes bs used) (bs.getD i (0, 0)) := by
  unfold classes
  rw [List.foldl_append]
  rfl

theorem classes_linked {bs : List (Nat × Nat)} (used : List Nat) (hu : ∀ i ∈ used, i < bs.length) (x y : Nat) :
    classes bs used x = classes bs used y ↔ Linked bs used x y := by
  constructor
  · induction used using List.reverseRecOn generalizing x y with
    | nil =>
      intro h
      rw [show x = y from h]
      exact .refl _
    | append_singleton l i ih =>
      intro h
      obtain ⟨p, q, hpq⟩ : ∃ p q, bs.getD i (0, 0) = (p, q) := ⟨_, _, rfl⟩
      have hi : i < bs.length := hu i (by simp)
      have hb : bs[i]? = some (p, q) := by
        rw [List.getElem?_eq_getElem hi]
        rw [List.getD_eq_getElem?_getD, List.getElem?_eq_getElem hi, Option.getD_some] at hpq
        rw [hpq]
      have ih' := ih (fun i hi => hu i (List.mem_append_left _ hi))
      have up : ∀ {u v}, classes bs l u = classes bs l v → Linked bs (l ++ [i]) u v := by
        intro u v h
        exact (ih' u v h).mono (fun j hj => List.mem_append_left _ hj)
      have hl : Linked bs (l ++ [i]) p q := .one (i := i) (by simp) hb
      rw [classes_append, hpq] at h
      simp only [merge] at h
      split at h <;> split at h
      · rename_i h1 h2
        exact up (h1.trans h2.symm)
      · rename_i h1 h2
        exact (up h1).trans (hl.symm.trans (up h))
      · rename_i h1 h2
        exact (up h).trans (hl.trans (up h2.symm))
      · exact up h
  · intro h
    have edge : ∀ (l : List Nat) i, i ∈ l → ∀ p q, bs[i]? = some (p, q) → classes bs l p = classes bs l q := by
      intro l
      induction l using List.reverseRecOn with
      | nil => intro i hi; exact absurd hi (by simp)
      | append_singleton l j ih =>
        intro i hi p q hpq
        rw [classes_append]
        rw [List.mem_append, List.mem_singleton] at hi
        rcases hi with hi | rfl
        · have := ih i hi p q hpq
          unfold merge
          simp only [this]
        · have : bs.getD i (0, 0) = (p, q) := by rw [List.getD_eq_getElem?_getD, hpq, Option.getD_some]
          rw [this]
          unfold merge
          simp only [if_true]
          split
          · rfl
          · rfl
    induction h with
    | refl => rfl
    | step i hi h _ ih => exact ih.trans (edge used i hi _ _ h)
    | back i hi h _ ih => exact ih.trans (edge used i hi _ _ h).symm

theorem size_merge {n : Nat} {cls : Nat → Nat} {p : Nat × Nat} (h1 : p.1 < n) (h2 : p.2 < n) (hne : cls p.1 ≠ cls p.2) :
    size n (merge cls p) + 1 = size n cls := by
  unfold size
  have : (Finset.range n).image (merge cls p) = ((Finset.range n).image cls).erase (cls p.2) := by
    ext v
    simp only [Finset.mem_image, Finset.mem_range, Finset.mem_erase]
    constructor
    · rintro ⟨x, hx, rfl⟩
      unfold merge
      split
      · exact ⟨hne, p.1, h1, rfl⟩
      · rename_i h
        exact ⟨h, x, hx, rfl⟩
    · rintro ⟨hv, x, hx, rfl⟩
      refine ⟨x, hx, ?_⟩
      unfold merge
      rw [if_neg hv]
  rw [this]
  exact Finset.card_erase_add_one (Finset.mem_image.mpr ⟨p.2, Finset.mem_range.mpr h2, rfl⟩)

theorem merge_same {cls : Nat → Nat} {p : Nat × Nat} (h : cls p.1 = cls p.2) : merge cls p = cls := by
  funext x
  unfold merge
  split
  · rename_i h'
    rw [h, h']
  · rfl

theorem size_merge_le {n : Nat} {cls : Nat → Nat} {p : Nat × Nat} (h1 : p.1 < n) (h2 : p.2 < n) : size n cls ≤ size n (merge cls p) + 1 := by
  by_cases h : cls p.1 = cls p.2
  · rw [merge_same h]
    omega
  · rw [size_merge h1 h2 h]

theorem size_id (n : Nat) : size n id = n := by simp [size]

theorem size_le {n : Nat} {f g : Nat → Nat} (h : ∀ x y, g x = g y → f x = f y) : size n f ≤ size n g := by
  unfold size
  have : (Finset.range n).image f ⊆ ((Finset.range n).image g).image (fun v => f (Function.invFun g v)) := by
    intro v hv
    rw [Finset.mem_image] at hv
    obtain ⟨x, hx, rfl⟩ := hv
    rw [Finset.mem_image]
    refine ⟨g x, Finset.mem_image_of_mem _ hx, ?_⟩
    exact h _ _ (Function.invFun_eq (f := g) (b := g x) ⟨x, rfl⟩)
  exact (Finset.card_le_card this).trans Finset.card_image_le

/-- Fewer than `k` baselines cannot leave `n - k` classes. -/
theorem size_ge {n : Nat} {bs : List (Nat × Nat)} (hv : Valid n bs) (used : List Nat) (hu : ∀ i ∈ used, i < bs.length) :
    n ≤ size n (classes bs used) + used.length := by
  induction used using List.reverseRecOn with
  | nil => simp [classes, size_id]
  | append_singleton l i ih =>
    have ih' := ih (fun i hi => hu i (List.mem_append_left _ hi))
    have hi : i < bs.length := hu i (by simp)
    have hb := hv bs[i] (List.getElem_mem hi)
    have hg : bs.getD i (0, 0) = bs[i] := by rw [List.getD_eq_getElem?_getD, List.getElem?_eq_getElem hi, Option.getD_some]
    rw [classes_append, hg, List.length_append]
    have := size_merge_le (cls := classes bs l) hb.1 hb.2
    simp only [List.length_singleton]
    omega

/-- One class: all stations are linked. -/
theorem linked_of_size_one {n : Nat} {bs : List (Nat × Nat)} {used : List Nat} (hu : ∀ i ∈ used, i < bs.length)
    (h : size n (classes bs used) ≤ 1) {a b : Nat} (ha : a < n) (hb : b < n) : Linked bs used a b := by
  rw [← classes_linked used hu]
  unfold size at h
  rw [Finset.card_le_one] at h
  exact h _ (Finset.mem_image_of_mem _ (Finset.mem_range.mpr ha)) _ (Finset.mem_image_of_mem _ (Finset.mem_range.mpr hb))

/-! ## The selection -/

/-- A baseline between two antennas. -/
def proper (bs : List (Nat × Nat)) (i : Nat) : Bool := (bs.getD i (0, 0)).1 != (bs.getD i (0, 0)).2

theorem linked_append {bs : List (Nat × Nat)} {used : List Nat} {i p q : Nat} (hb : bs[i]? = some (p, q)) (x y : Nat) :
    Linked bs (used ++ [i]) x y ↔ Linked bs used x y ∨ (Linked bs used x p ∧ Linked bs used q y) ∨ (Linked bs used x q ∧ Linked bs used p y) := by
  constructor
  · intro h
    have edge : ∀ b c, Linked bs used b c → (Linked bs used x b ∨ (Linked bs used x p ∧ Linked bs used q b) ∨ (Linked bs used x q ∧ Linked bs used p b)) →
        (Linked bs used x c ∨ (Linked bs used x p ∧ Linked bs used q c) ∨ (Linked bs used x q ∧ Linked bs used p c)) := by
      intro b c hbc h
      rcases h with h | ⟨h, h'⟩ | ⟨h, h'⟩
      · exact Or.inl (h.trans hbc)
      · exact Or.inr (Or.inl ⟨h, h'.trans hbc⟩)
      · exact Or.inr (Or.inr ⟨h, h'.trans hbc⟩)
    induction h with
    | refl => exact Or.inl (.refl _)
    | @step b c j hj h _ ih =>
      rw [List.mem_append, List.mem_singleton] at hj
      rcases hj with hj | rfl
      · exact edge b c (.one hj h) ih
      · rw [hb] at h
        simp only [Option.some.injEq, Prod.mk.injEq] at h
        obtain ⟨rfl, rfl⟩ := h
        rcases ih with h | ⟨h, h'⟩ | ⟨h, h'⟩
        · exact Or.inr (Or.inl ⟨h, .refl _⟩)
        · exact Or.inr (Or.inl ⟨h, .refl _⟩)
        · exact Or.inl h
    | @back b c j hj h _ ih =>
      rw [List.mem_append, List.mem_singleton] at hj
      rcases hj with hj | rfl
      · exact edge b c (Linked.one hj h).symm ih
      · rw [hb] at h
        simp only [Option.some.injEq, Prod.mk.injEq] at h
        obtain ⟨rfl, rfl⟩ := h
        rcases ih with h | ⟨h, h'⟩ | ⟨h, h'⟩
        · exact Or.inr (Or.inr ⟨h, .refl _⟩)
        · exact Or.inl h
        · exact Or.inr (Or.inr ⟨h, .refl _⟩)
  · have up : ∀ {u v}, Linked bs used u v → Linked bs (used ++ [i]) u v := fun h => h.mono fun j hj => List.mem_append_left _ hj
    have hl : Linked bs (used ++ [i]) p q := .one (i := i) (by simp) hb
    intro h
    rcases h with h | ⟨h, h'⟩ | ⟨h, h'⟩
    · exact up h
    · exact (up h).trans (hl.trans (up h'))
    · exact (up h).trans (hl.symm.trans (up h'))

/-- Two stations are in the same group. -/
def Same (s : Sel) (a b : Nat) : Prop := a = b ∨ ∃ g, s.group a = some g ∧ s.group b = some g

/-- What holds during the loop, after the baselines `done`. -/
structure SelInv (n : Nat) (bs : List (Nat × Nat)) (done : List Nat) (s : Sel) : Prop where
  groups : ∀ a g, s.group a = some g ↔ a ∈ s.groups.getD g []
  same : ∀ a b, Same s a b ↔ Linked bs s.selection a b
  sub : ∀ i ∈ s.selection, i ∈ done
  range : ∀ i ∈ s.selection, i < bs.length
  count : size n (classes bs s.selection) + (s.selection.filter (proper bs)).length = n

private theorem getD_modify (l : List (List Nat)) (g k : Nat) (f : List Nat → List Nat) (hg : g < l.length) :
    (l.modify g f).getD k [] = if k = g then f (l.getD k []) else l.getD k [] := by
  rw [List.getD_eq_getElem?_getD, List.getD_eq_getElem?_getD, List.getElem?_modify]
  by_cases h : k = g
  · subst h
    rw [if_pos rfl, List.getElem?_eq_getElem hg]
    simp
  · rw [if_neg h]
    have h' : ¬ g = k := fun e => h e.symm
    simp [h']

private theorem getD_set (l : List (List Nat)) (g k : Nat) (x : List Nat) (hg : g < l.length) :
    (l.set g x).getD k [] = if k = g then x else l.getD k [] := by
  rw [List.getD_eq_getElem?_getD, List.getD_eq_getElem?_getD, List.getElem?_set]
  by_cases h : k = g
  · subst h
    rw [if_pos rfl, if_pos rfl, if_pos hg]
    rfl
  · rw [if_neg h, if_neg (fun e => h e.symm)]

private theorem fold_set (l : List Nat) (f : Nat → Option Nat) (g x : Nat) :
    l.foldl (fun (f : Nat → Option Nat) ant => set f ant (some g)) f x = if x ∈ l then some g else f x := by
  induction l generalizing f with
  | nil => simp
  | cons y ys ih =>
    rw [List.foldl_cons, ih]
    by_cases h : x ∈ ys
    · rw [if_pos h, if_pos (List.mem_cons_of_mem _ h)]
    · rw [if_neg h]
      by_cases h' : x = y
      · subst h'
        rw [set_same, if_pos (by simp)]
      · rw [set_other _ _ _ _ h', if_neg (by simp [h, h'])]

private theorem group_lt {n : Nat} {bs : List (Nat × Nat)} {done : List Nat} {s : Sel} (hi : SelInv n bs done s) {a g : Nat} (h : s.group a = some g) :
    g < s.groups.length := by
  rw [hi.groups] at h
  by_contra hlt
  rw [List.getD_eq_getElem?_getD, List.getElem?_eq_none (by omega)] at h
  exact absurd h (by simp)

private theorem same_of {n : Nat} {bs : List (Nat × Nat)} {done : List Nat} {s s' : Sel} (hi : SelInv n bs done s) {p q g0 : Nat}
    (h1 : ∀ x, Linked bs s.selection x p ∨ Linked bs s.selection x q → s'.group x = some g0)
    (h2 : ∀ x, ¬ (Linked bs s.selection x p ∨ Linked bs s.selection x q) → s'.group x = s.group x ∧ s.group x ≠ some g0) (x y : Nat) :
    Same s' x y ↔ Linked bs s.selection x y ∨ (Linked bs s.selection x p ∧ Linked bs s.selection q y) ∨
      (Linked bs s.selection x q ∧ Linked bs s.selection p y) := by
  by_cases hx : Linked bs s.selection x p ∨ Linked bs s.selection x q
  · by_cases hy : Linked bs s.selection y p ∨ Linked bs s.selection y q
    · constructor
      · intro _
        rcases hx with hx | hx <;> rcases hy with hy | hy
        · exact Or.inl (hx.trans hy.symm)
        · exact Or.inr (Or.inl ⟨hx, hy.symm⟩)
        · exact Or.inr (Or.inr ⟨hx, hy.symm⟩)
        · exact Or.inl (hx.trans hy.symm)
      · intro _
        exact Or.inr ⟨g0, h1 x hx, h1 y hy⟩
    · constructor
      · rintro (rfl | ⟨g, e1, e2⟩)
        · exact absurd hx hy
        · rw [h1 x hx] at e1
          rw [(h2 y hy).1, ← e1] at e2
          exact absurd e2 (h2 y hy).2
      · intro h
        exfalso
        apply hy
        rcases h with h | ⟨_, h⟩ | ⟨_, h⟩
        · exact hx.imp (fun e => h.symm.trans e) (fun e => h.symm.trans e)
        · exact Or.inr h.symm
        · exact Or.inl h.symm
  · constructor
    · intro h
      left
      rw [← hi.same]
      rcases h with rfl | ⟨g, e1, e2⟩
      · exact Or.inl rfl
      · right
        rw [(h2 x hx).1] at e1
        by_cases hy : Linked bs s.selection y p ∨ Linked bs s.selection y q
        · rw [h1 y hy] at e2
          rw [← e2] at e1
          exact absurd e1 (h2 x hx).2
        · rw [(h2 y hy).1] at e2
          exact ⟨g, e1, e2⟩
    · intro h
      rcases h with h | ⟨h, _⟩ | ⟨h, _⟩
      · have hy : ¬ (Linked bs s.selection y p ∨ Linked bs s.selection y q) :=
          fun hy => hx (hy.imp (fun e => h.trans e) (fun e => h.trans e))
        rw [← hi.same] at h
        rcases h with rfl | ⟨g, e1, e2⟩
        · exact Or.inl rfl
        · exact Or.inr ⟨g, by rw [(h2 x hx).1, e1], by rw [(h2 y hy).1, e2]⟩
      · exact absurd (Or.inl h) hx
      · exact absurd (Or.inr h) hx

/-- The parts of the invariant that follow from the new groups. -/
private theorem inv_of {n : Nat} {bs : List (Nat × Nat)} {done : List Nat} {s s' : Sel} (hi : SelInv n bs done s) {bl p q : Nat}
    (hb : bs[bl]? = some (p, q)) (hp : p < n) (hq : q < n) (hsel : s'.selection = s.selection ++ [bl])
    (hnew : p = q ∨ ¬ Linked bs s.selection p q) (g0 : Nat)
    (h1 : ∀ x, Linked bs s.selection x p ∨ Linked bs s.selection x q → s'.group x = some g0)
    (h2 : ∀ x, ¬ (Linked bs s.selection x p ∨ Linked bs s.selection x q) → s'.group x = s.group x ∧ s.group x ≠ some g0)
    (hg : ∀ a g, s'.group a = some g ↔ a ∈ s'.groups.getD g []) : SelInv n bs (done ++ [bl]) s' := by
  have hgetD : bs.getD bl (0, 0) = (p, q) := by rw [List.getD_eq_getElem?_getD, hb, Option.getD_some]
  refine ⟨hg, ?_, ?_, ?_, ?_⟩
  · intro x y
    rw [hsel, linked_append hb, same_of hi h1 h2]
  · intro i him
    rw [hsel, List.mem_append] at him
    rw [List.mem_append]
    exact him.imp_left (hi.sub i)
  · intro i him
    rw [hsel, List.mem_append, List.mem_singleton] at him
    rcases him with him | rfl
    · exact hi.range i him
    · exact (List.getElem?_eq_some_iff.mp hb).1
  · rw [hsel, classes_append, List.filter_append, List.length_append, hgetD]
    have hc := hi.count
    rcases hnew with rfl | hnew
    · rw [merge_same rfl]
      have : proper bs bl = false := by simp only [proper, hgetD, bne_self_eq_false]
      simp only [List.filter_cons, this, List.filter_nil]
      simpa using hc
    · have hne : p ≠ q := by
        rintro rfl
        exact hnew (.refl _)
      have : proper bs bl = true := by simp only [proper, hgetD, bne_iff_ne, ne_eq, hne, not_false_eq_true]
      simp only [List.filter_cons, this, List.filter_nil]
      rw [← classes_linked _ hi.range] at hnew
      have hs := size_merge (n := n) (cls := classes bs s.selection) (p := (p, q)) hp hq hnew
      simp only [if_true, List.length_singleton]
      omega

theorem select_inv {n : Nat} {bs : List (Nat × Nat)} {done : List Nat} {s : Sel} (hi : SelInv n bs done s) {bl p q : Nat}
    (hb : bs[bl]? = some (p, q)) (hp : p < n) (hq : q < n) :
    match selectStep bs s bl with
    | none => Linked bs s.selection p q
    | some s' => SelInv n bs (done ++ [bl]) s' ∧ s'.selection = s.selection ++ [bl] := by
  have hgetD : bs.getD bl (0, 0) = (p, q) := by rw [List.getD_eq_getElem?_getD, hb, Option.getD_some]
  unfold selectStep
  simp only [hgetD]
  have solo : ∀ {a x : Nat}, s.group a = none → (Linked bs s.selection x a ↔ x = a) := by
    intro a x ha
    rw [← hi.same]
    constructor
    · rintro (h | ⟨g, _, h⟩)
      · exact h
      · rw [ha] at h; exact absurd h (by simp)
    · exact Or.inl
  have grp : ∀ {a g x : Nat}, s.group a = some g → (Linked bs s.selection x a ↔ s.group x = some g) := by
    intro a g x ha
    rw [← hi.same]
    constructor
    · rintro (rfl | ⟨g', h1, h2⟩)
      · exact ha
      · rw [ha] at h2; rw [h1, h2]
    · intro h
      exact Or.inr ⟨g, h, ha⟩
  cases e1 : s.group p with
  | none =>
    cases e2 : s.group q with
    | none =>
      simp only [e1, e2]
      refine ⟨inv_of hi hb hp hq rfl ?_ s.groups.length ?_ ?_ ?_, trivial⟩
      · by_cases h : p = q
        · exact Or.inl h
        · right
          rw [solo e2]
          exact h
      · intro x hx
        rw [solo e1, solo e2] at hx
        show set (set s.group p _) q _ x = _
        by_cases h : x = q
        · subst h
          exact set_same _ _ _
        · rw [set_other _ _ _ _ h]
          rcases hx with rfl | hx
          · exact set_same _ _ _
          · exact absurd hx h
      · intro x hx
        rw [solo e1, solo e2, not_or] at hx
        refine ⟨?_, ?_⟩
        · show set (set s.group p _) q _ x = _
          rw [set_other _ _ _ _ hx.2, set_other _ _ _ _ hx.1]
        · intro h
          have := group_lt hi h
          omega
      · intro a g
        show set (set s.group p _) q _ a = some g ↔ a ∈ (s.groups ++ [[p, q]]).getD g []
        rw [List.getD_eq_getElem?_getD]
        rcases lt_trichotomy g s.groups.length with hg | hg | hg
        · rw [List.getElem?_append_left hg, ← List.getD_eq_getElem?_getD, ← hi.groups]
          by_cases hq' : a = q
          · subst hq'
            rw [set_same, e2]
            simp
            omega
          · rw [set_other _ _ _ _ hq']
            by_cases hp' : a = p
            · subst hp'
              rw [set_same, e1]
              simp
              omega
            · rw [set_other _ _ _ _ hp']
        · subst hg
          rw [List.getElem?_append_right (le_refl _)]
          simp only [Nat.sub_self, List.getElem?_cons_zero, Option.getD_some, List.mem_cons, List.not_mem_nil, or_false]
          by_cases hq' : a = q
          · subst hq'
            rw [set_same]
            simp
          · rw [set_other _ _ _ _ hq']
            by_cases hp' : a = p
            · subst hp'
              rw [set_same]
              simp
            · rw [set_other _ _ _ _ hp']
              simp only [hp', hq', or_self, iff_false]
              intro h
              have := group_lt hi h
              omega
        · rw [List.getElem?_eq_none (by simp; omega)]
          simp only [Option.getD_none, List.not_mem_nil, iff_false]
          by_cases hq' : a = q
          · subst hq'
            rw [set_same]
            simp
            omega
          · rw [set_other _ _ _ _ hq']
            by_cases hp' : a = p
            · subst hp'
              rw [set_same]
              simp
              omega
            · rw [set_other _ _ _ _ hp']
              intro h
              have := group_lt hi h
              omega
    | some g2 =>
      simp only [e1, e2]
      have hlt := group_lt hi e2
      have hpq : ¬ Linked bs s.selection p q := by
        rw [grp e2, e1]
        simp
      refine ⟨inv_of hi hb hp hq rfl (Or.inr hpq) g2 ?_ ?_ ?_, trivial⟩
      · intro x hx
        rw [solo e1, grp e2] at hx
        show set s.group p _ x = _
        by_cases h : x = p
        · subst h
          exact set_same _ _ _
        · rw [set_other _ _ _ _ h]
          rcases hx with hx | hx
          · exact absurd hx h
          · exact hx
      · intro x hx
        rw [solo e1, grp e2, not_or] at hx
        refine ⟨?_, hx.2⟩
        show set s.group p _ x = _
        rw [set_other _ _ _ _ hx.1]
      · intro a g
        show set s.group p _ a = some g ↔ a ∈ (s.groups.modify g2 _).getD g []
        rw [getD_modify _ _ _ _ hlt]
        by_cases hp' : a = p
        · subst hp'
          rw [set_same]
          by_cases hg : g = g2
          · subst hg; simp
          · rw [if_neg hg, ← hi.groups, e1]
            simp [Ne.symm hg]
        · rw [set_other _ _ _ _ hp', hi.groups]
          by_cases hg : g = g2
          · subst hg; simp [hp']
          · rw [if_neg hg]
  | some g1 =>
    have hlt := group_lt hi e1
    cases e2 : s.group q with
    | none =>
      simp only [e1, e2]
      have hpq : ¬ Linked bs s.selection p q := by
        rw [solo e2]
        rintro rfl
        rw [e1] at e2
        exact absurd e2 (by simp)
      refine ⟨inv_of hi hb hp hq rfl (Or.inr hpq) g1 ?_ ?_ ?_, trivial⟩
      · intro x hx
        rw [solo e2, grp e1] at hx
        show set s.group q _ x = _
        by_cases h : x = q
        · subst h
          exact set_same _ _ _
        · rw [set_other _ _ _ _ h]
          rcases hx with hx | hx
          · exact hx
          · exact absurd hx h
      · intro x hx
        rw [solo e2, grp e1, not_or] at hx
        refine ⟨?_, hx.1⟩
        show set s.group q _ x = _
        rw [set_other _ _ _ _ hx.2]
      · intro a g
        show set s.group q _ a = some g ↔ a ∈ (s.groups.modify g1 _).getD g []
        rw [getD_modify _ _ _ _ hlt]
        by_cases hp' : a = q
        · subst hp'
          rw [set_same]
          by_cases hg : g = g1
          · subst hg; simp
          · rw [if_neg hg, ← hi.groups, e2]
            simp [Ne.symm hg]
        · rw [set_other _ _ _ _ hp', hi.groups]
          by_cases hg : g = g1
          · subst hg; simp [hp']
          · rw [if_neg hg]
    | some g2 =>
      simp only [e1, e2]
      by_cases hgg : g1 = g2
      · rw [if_pos hgg]
        subst hgg
        rw [grp e2]
        exact e1
      · rw [if_neg hgg]
        have hlt2 := group_lt hi e2
        have hpq : ¬ Linked bs s.selection p q := by
          rw [grp e2, e1]
          simp [hgg]
        have hgroup : ∀ x, (s.groups.getD g2 []).foldl (fun (f : Nat → Option Nat) ant => set f ant (some g1)) s.group x =
            if s.group x = some g2 then some g1 else s.group x := by
          intro x
          rw [fold_set]
          by_cases h : s.group x = some g2
          · rw [if_pos h, if_pos ((hi.groups x g2).mp h)]
          · rw [if_neg h, if_neg (fun h' => h ((hi.groups x g2).mpr h'))]
        refine ⟨inv_of hi hb hp hq rfl (Or.inr hpq) g1 ?_ ?_ ?_, rfl⟩
        · intro x hx
          rw [grp e2, grp e1] at hx
          refine (hgroup x).trans ?_
          by_cases h : s.group x = some g2
          · rw [if_pos h]
          · rw [if_neg h]
            exact hx.resolve_right h
        · intro x hx
          rw [grp e2, grp e1, not_or] at hx
          refine ⟨?_, hx.1⟩
          refine (hgroup x).trans ?_
          rw [if_neg hx.2]
        · intro a g
          refine Iff.trans (b := (if s.group a = some g2 then some g1 else s.group a) = some g) (by rw [← hgroup a]) ?_
          show _ ↔ a ∈ ((s.groups.modify g1 (· ++ s.groups.getD g2 [])).set g2 []).getD g []
          rw [getD_set _ _ _ _ (by simpa using hlt2), getD_modify _ _ _ _ hlt]
          by_cases hg2 : g = g2
          · subst hg2
            rw [if_pos rfl]
            simp only [List.not_mem_nil, iff_false]
            split
            · simp [hgg]
            · rename_i h; exact h
          · rw [if_neg hg2]
            by_cases hg1 : g = g1
            · subst hg1
              rw [if_pos rfl, List.mem_append, ← hi.groups, ← hi.groups]
              split
              · rename_i h; simp [h]
              · rename_i h; simp [h]
            · rw [if_neg hg1, ← hi.groups]
              split
              · rename_i h
                rw [h]
                simp [Ne.symm hg1, Ne.symm hg2]
              · exact Iff.rfl

theorem select_start (n : Nat) (bs : List (Nat × Nat)) : SelInv n bs [] ⟨[], fun _ => none, []⟩ := by
  refine ⟨by simp, ?_, by simp, by simp, by simp [classes, size_id]⟩
  intro a b
  constructor
  · rintro (rfl | ⟨g, h, _⟩)
    · exact .refl _
    · exact absurd h (by simp)
  · intro h
    left
    have := (classes_linked (bs := bs) [] (by simp) a b).mpr h
    exact this

/-- The path between the ends of a baseline along baselines that are at least as long. -/
def Bottleneck {R : Type} [LE R] (length : Nat → R) (bs : List (Nat × Nat)) (selection : List Nat) (i : Nat) : Prop :=
  ∀ a b, bs[i]? = some (a, b) → ∃ used, (∀ j ∈ used, j ∈ selection ∧ length i ≤ length j) ∧ Linked bs used a b

theorem selectLoop_inv {R : Type} [LinearOrder R] {length : Nat → R} {n : Nat} {bs : List (Nat × Nat)} (hv : Valid n bs)
    (hauto : ∀ i j, i < bs.length → j < bs.length → proper bs i = false → proper bs j = true → length i < length j)
    (rest done : List Nat) (hsort : (done ++ rest).Pairwise fun i j => length j ≤ length i) (hr : ∀ i ∈ done ++ rest, i < bs.length)
    (hnd : (done ++ rest).Nodup) (s : Sel) (hi : SelInv n bs done s) (hsel : s.selection.Nodup) (hdone : ∀ i ∈ done, Bottleneck length bs s.selection i) :
    ∃ s' done', selectLoop n bs rest s = s' ∧ SelInv n bs done' s' ∧ s'.selection.Nodup ∧ (∀ i ∈ done', i ∈ done ++ rest) ∧
      ∀ i ∈ done ++ rest, Bottleneck length bs s'.selection i := by
  induction rest generalizing done s with
  | nil => exact ⟨s, done, rfl, hi, hsel, by simp, by simpa using hdone⟩
  | cons bl rest ih =>
    have hlt : bl < bs.length := hr bl (by simp)
    obtain ⟨p, q, hpq⟩ : ∃ p q, bs[bl] = (p, q) := ⟨_, _, rfl⟩
    have hb : bs[bl]? = some (p, q) := by rw [List.getElem?_eq_getElem hlt, hpq]
    have hpn := hv (p, q) (by rw [← hpq]; exact List.getElem_mem hlt)
    have hstep := select_inv hi hb hpn.1 hpn.2
    have hlonger : ∀ j ∈ done, ∀ i ∈ bl :: rest, length i ≤ length j := by
      intro j hj i him
      exact (List.pairwise_append.mp hsort).2.2 j hj i him
    have hassoc : done ++ bl :: rest = (done ++ [bl]) ++ rest := by simp
    unfold selectLoop
    cases hs : selectStep bs s bl with
    | none =>
      rw [hs] at hstep
      have hi' : SelInv n bs (done ++ [bl]) s := { hi with sub := fun i him => List.mem_append_left _ (hi.sub i him) }
      simp only
      obtain ⟨s', done', h1, h2, h3, h4, h5⟩ := ih (done ++ [bl]) (by rw [← hassoc]; exact hsort) (by rw [← hassoc]; exact hr) (by rw [← hassoc]; exact hnd) s hi' hsel (by
        intro i him
        rw [List.mem_append, List.mem_singleton] at him
        rcases him with him | rfl
        · exact hdone i him
        · intro a b hab
          rw [hb] at hab
          simp only [Option.some.injEq, Prod.mk.injEq] at hab
          rw [← hab.1, ← hab.2]
          exact ⟨s.selection, fun j hj => ⟨hj, hlonger j (hi.sub j hj) i (by simp)⟩, hstep⟩)
      rw [hassoc]
      exact ⟨s', done', h1, h2, h3, h4, h5⟩
    | some s1 =>
      rw [hs] at hstep
      obtain ⟨hi1, hsel1⟩ := hstep
      have hnd1 : s1.selection.Nodup := by
        rw [hsel1, List.nodup_append]
        refine ⟨hsel, by simp, ?_⟩
        intro x hx y hy
        rw [List.mem_singleton] at hy
        rw [hy]
        exact (List.nodup_append.mp hnd).2.2 x (hi.sub x hx) bl (by simp)
      have hsub1 : ∀ i ∈ s.selection, i ∈ s1.selection := by
        intro i him
        rw [hsel1]
        exact List.mem_append_left _ him
      have hd1 : ∀ i ∈ done ++ [bl], Bottleneck length bs s1.selection i := by
        intro i him
        rw [List.mem_append, List.mem_singleton] at him
        intro a b hab
        rcases him with him | rfl
        · obtain ⟨used, h1, h2⟩ := hdone i him a b hab
          exact ⟨used, fun j hj => ⟨hsub1 j (h1 j hj).1, (h1 j hj).2⟩, h2⟩
        · refine ⟨[i], ?_, .one (i := i) (by simp) hab⟩
          intro j hj
          rw [List.mem_singleton] at hj
          rw [hj, hsel1]
          exact ⟨by simp, le_refl _⟩
      have hfar : ∀ j ∈ done ++ [bl], ∀ i ∈ rest, length i ≤ length j := by
        rw [hassoc] at hsort
        intro j hj i him
        exact (List.pairwise_append.mp hsort).2.2 j hj i him
      simp only
      by_cases hexit : s1.selection.length = n - 1
      · rw [if_pos hexit, hassoc]
        refine ⟨s1, done ++ [bl], rfl, hi1, hnd1, fun i him => List.mem_append_left _ him, ?_⟩
        intro i him
        rw [List.mem_append] at him
        rcases him with him | him
        · exact hd1 i him
        · intro a b hab
          by_cases hall : ∀ j ∈ s1.selection, proper bs j = true
          · have hc := hi1.count
            rw [List.filter_eq_self.mpr hall, hexit] at hc
            have hab' := hv (a, b) (List.mem_of_getElem? hab)
            exact ⟨s1.selection, fun j hj => ⟨hj, hfar j (hi1.sub j hj) i him⟩, linked_of_size_one hi1.range (by omega) hab'.1 hab'.2⟩
          · push Not at hall
            obtain ⟨j, hj, hjp⟩ := hall
            have hip : proper bs i = false := by
              by_contra hip
              have hil : i < bs.length := (List.getElem?_eq_some_iff.mp hab).1
              have := hauto j i (hi1.range j hj) hil (by simpa using hjp) (by simpa using hip)
              exact absurd (hfar j (hi1.sub j hj) i him) (not_le.mpr this)
            have hg : bs.getD i (0, 0) = (a, b) := by rw [List.getD_eq_getElem?_getD, hab, Option.getD_some]
            have heq : a = b := by
              unfold proper at hip
              rw [hg] at hip
              simpa using hip
            rw [heq]
            exact ⟨[], by simp, .refl _⟩
      · rw [if_neg hexit]
        obtain ⟨s', done', h1, h2, h3, h4, h5⟩ := ih (done ++ [bl]) (by rw [← hassoc]; exact hsort) (by rw [← hassoc]; exact hr) (by rw [← hassoc]; exact hnd) s1 hi1 hnd1 hd1
        rw [hassoc]
        exact ⟨s', done', h1, h2, h3, h4, h5⟩

end DP3.UvwSplit
