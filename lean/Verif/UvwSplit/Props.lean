import Verif.UvwSplit.Kruskal
import Mathlib.Algebra.Group.Hom.Defs
import Mathlib.Algebra.Group.Pi.Basic
import Mathlib.Algebra.Order.Ring.Defs
import Mathlib.Algebra.Order.Ring.Rat
import Mathlib.Data.Fin.VecNotation
import Mathlib.Tactic.NormNum
import Mathlib.Tactic.Linarith

/-!
# Coordinates of stations from these of baselines: theorems
-/

namespace DP3.UvwSplit

set_option linter.unusedSimpArgs false

/-! ## C120: splitting -/

/-- The setup always ends. -/
theorem split_total {nant : Nat} {bs : List (Nat × Nat)} (hv : Valid nant bs) : (setupUvwSplitting nant bs).isSome = true := by
  obtain ⟨r, h, _⟩ := setup_done hv
  rw [h]
  rfl

/-- A baseline that the setup chose is reproduced whatever the coordinates are. -/
theorem split_exact {nant : Nat} {bs : List (Nat × Nat)} (hv : Valid nant bs) {r : List Int} (hr : setupUvwSplitting nant bs = some r)
    {V : Type} [AddCommGroup V] (uvw : Nat → V) {idx : Int} (hi : idx ∈ r) :
    ∃ a b, bs[baselineOf idx]? = some (a, b) ∧ a ≠ b ∧ splitUvw r bs uvw b - splitUvw r bs uvw a = uvw (baselineOf idx) := by
  obtain ⟨r', h, hd⟩ := setup_done hv
  rw [hr] at h
  injection h with h
  subst h
  obtain ⟨a, b, hab, hne⟩ := hd.ends idx hi
  exact ⟨a, b, hab, hne, hd.exact V uvw idx hi a b hab⟩

/-- If the coordinates belong to positions, the stations of a part of the array that is linked by baselines get their positions
relative to each other. -/
theorem split_sound {nant : Nat} {bs : List (Nat × Nat)} (hv : Valid nant bs) {r : List Int} (hr : setupUvwSplitting nant bs = some r)
    {V : Type} [AddCommGroup V] {uvw position : Nat → V} (hc : Consistent bs uvw position) {a b : Nat}
    (hl : Linked bs (List.range bs.length) a b) : splitUvw r bs uvw b - splitUvw r bs uvw a = position b - position a := by
  obtain ⟨r', h, hd⟩ := setup_done hv
  rw [hr] at h
  injection h with h
  subst h
  apply Linked.diff _ hl
  intro i _ p q hpq
  apply Linked.diff _ (hd.linked i p q hpq)
  intro j hj x y hxy
  rw [List.mem_map] at hj
  obtain ⟨idx, hm, rfl⟩ := hj
  rw [hd.exact V uvw idx hm x y hxy]
  exact hc _ _ _ hxy

/-- So every baseline has its coordinates. -/
theorem split_baseline {nant : Nat} {bs : List (Nat × Nat)} (hv : Valid nant bs) {r : List Int} (hr : setupUvwSplitting nant bs = some r)
    {V : Type} [AddCommGroup V] {uvw position : Nat → V} (hc : Consistent bs uvw position) {i a b : Nat} (hab : bs[i]? = some (a, b)) :
    splitUvw r bs uvw b - splitUvw r bs uvw a = uvw i := by
  rw [hc i a b hab]
  exact split_sound hv hr hc (.one (List.mem_range.mpr (List.getElem?_eq_some_iff.mp hab).1) hab)

/-- No baseline is used twice, and without one of them its ends would not be linked: as few as possible are used. -/
theorem split_forest {nant : Nat} {bs : List (Nat × Nat)} (hv : Valid nant bs) {r : List Int} (hr : setupUvwSplitting nant bs = some r) :
    (r.map baselineOf).Nodup ∧ ∀ idx ∈ r, ∀ a b, bs[baselineOf idx]? = some (a, b) →
      ¬ Linked bs ((r.map baselineOf).filter (· ≠ baselineOf idx)) a b := by
  obtain ⟨r', h, hd⟩ := setup_done hv
  rw [hr] at h
  injection h with h
  subst h
  refine ⟨hd.nodup, ?_⟩
  intro idx hi a b hab hl
  -- coordinates that are only there for this baseline
  let uvw : Nat → Int := fun i => if i = baselineOf idx then 1 else 0
  have h1 := hd.exact Int uvw idx hi a b hab
  have h2 := Linked.diff (f := splitUvw r bs uvw) (g := fun _ => (0 : Int)) (by
    intro j hj x y hxy
    rw [List.mem_filter, List.mem_map] at hj
    obtain ⟨⟨idx', hm, rfl⟩, hne⟩ := hj
    rw [hd.exact Int uvw idx' hm x y hxy]
    show (if baselineOf idx' = baselineOf idx then (1 : Int) else 0) = _
    rw [if_neg (by simpa using hne)]
    simp) hl
  rw [h1] at h2
  have : uvw (baselineOf idx) = 1 := if_pos rfl
  rw [this] at h2
  exact absurd h2 (by simp)

/-- Any linear change of the coordinates, such as a rotation to another phase centre, may be applied before or after. -/
theorem split_linear (indices : List Int) (bs : List (Nat × Nat)) {V W : Type} [AddCommGroup V] [AddCommGroup W] (f : V →+ W) (uvw : Nat → V) (a : Nat) :
    splitUvw indices bs (fun i => f (uvw i)) a = f (splitUvw indices bs uvw a) := by
  unfold splitUvw
  suffices h : ∀ (u : Nat → V) (u' : Nat → W), (∀ a, u' a = f (u a)) → ∀ a,
      indices.foldl (splitStep bs fun i => f (uvw i)) u' a = f (indices.foldl (splitStep bs uvw) u a) by
    exact h _ _ (fun _ => (map_zero f).symm) a
  induction indices with
  | nil => intro u u' h; exact h
  | cons idx rest ih =>
    intro u u' h
    rw [List.foldl_cons, List.foldl_cons]
    apply ih
    intro x
    unfold splitStep set
    split
    · simp only
      split
      · rw [map_sub, h]
      · exact h x
    · simp only
      split
      · rw [map_add, h]
      · exact h x

/-! ## C121: selection of the long baselines -/

private theorem proper_of {bs : List (Nat × Nat)} {i a b : Nat} (h : bs[i]? = some (a, b)) : proper bs i = true ↔ a ≠ b := by
  unfold proper
  rw [List.getD_eq_getElem?_getD, h, Option.getD_some]
  simp

/-- Two antennas of a baseline are at different positions. -/
def Apart {R : Type} (position : Nat → Fin 3 → R) (bs : List (Nat × Nat)) : Prop :=
  ∀ (i a b : Nat), bs[i]? = some (a, b) → a ≠ b → position a ≠ position b

private theorem auto_shorter {R : Type} [CommRing R] [LinearOrder R] [IsStrictOrderedRing R] {position : Nat → Fin 3 → R} {bs : List (Nat × Nat)}
    (ha : Apart position bs) (i j : Nat) (hi : i < bs.length) (hj : j < bs.length) (hpi : proper bs i = false) (hpj : proper bs j = true) :
    lengthSq position bs i < lengthSq position bs j := by
  obtain ⟨a, b, hab⟩ : ∃ a b, bs[i] = (a, b) := ⟨_, _, rfl⟩
  obtain ⟨c, d, hcd⟩ : ∃ c d, bs[j] = (c, d) := ⟨_, _, rfl⟩
  have h1 : bs[i]? = some (a, b) := by rw [List.getElem?_eq_getElem hi, hab]
  have h2 : bs[j]? = some (c, d) := by rw [List.getElem?_eq_getElem hj, hcd]
  have hne := ha j c d h2 ((proper_of h2).mp hpj)
  have heq : a = b := by
    by_contra h
    rw [(proper_of h1).mpr h] at hpi
    exact absurd hpi (by simp)
  unfold lengthSq
  simp only [List.getD_eq_getElem?_getD, h1, h2, Option.getD_some, heq, sub_self, mul_zero, add_zero]
  by_contra hle
  push Not at hle
  apply hne
  have e0 := mul_self_nonneg (position d 0 - position c 0)
  have e1 := mul_self_nonneg (position d 1 - position c 1)
  have e2 := mul_self_nonneg (position d 2 - position c 2)
  have z : ∀ x : R, x * x = 0 → x = 0 := fun x h => mul_self_eq_zero.mp h
  have z0 := z _ (le_antisymm (by linarith) e0)
  have z1 := z _ (le_antisymm (by linarith) e1)
  have z2 := z _ (le_antisymm (by linarith) e2)
  funext k
  match k with
  | 0 => exact (sub_eq_zero.mp z0).symm
  | 1 => exact (sub_eq_zero.mp z1).symm
  | 2 => exact (sub_eq_zero.mp z2).symm

private theorem selection_inv {R : Type} [CommRing R] [LinearOrder R] [IsStrictOrderedRing R] {position : Nat → Fin 3 → R} {n : Nat}
    {bs : List (Nat × Nat)} (hv : Valid n bs) (ha : Apart position bs) {sorted : List Nat} (hs : Sorted (lengthSq position bs) bs.length sorted) :
    ∃ s' done', getBaselineSelection n sorted bs = s'.selection ∧ SelInv n bs done' s' ∧ s'.selection.Nodup ∧
      ∀ i < bs.length, Bottleneck (lengthSq position bs) bs s'.selection i := by
  have hmem : ∀ i, i ∈ sorted ↔ i < bs.length := by
    intro i
    rw [hs.perm.mem_iff, List.mem_range]
  obtain ⟨s', done', h1, h2, h3, _, h5⟩ := selectLoop_inv hv (auto_shorter ha) sorted [] (by simpa using hs.descending)
    (by intro i hi; exact (hmem i).mp (by simpa using hi)) (by simpa using hs.perm.nodup_iff.mpr List.nodup_range) _ (select_start n bs) (by simp) (by simp)
  refine ⟨s', done', ?_, h2, h3, ?_⟩
  · unfold getBaselineSelection
    rw [h1]
  · intro i hi
    exact h5 i (by simpa using (hmem i).mpr hi)

/-- The ends of every baseline are linked by selected baselines that are at least as long. -/
theorem selection_bottleneck {R : Type} [CommRing R] [LinearOrder R] [IsStrictOrderedRing R] {position : Nat → Fin 3 → R} {n : Nat}
    {bs : List (Nat × Nat)} (hv : Valid n bs) (ha : Apart position bs) {sorted : List Nat} (hs : Sorted (lengthSq position bs) bs.length sorted)
    {i a b : Nat} (hab : bs[i]? = some (a, b)) :
    ∃ used, (∀ j ∈ used, j ∈ getBaselineSelection n sorted bs ∧ lengthSq position bs i ≤ lengthSq position bs j) ∧ Linked bs used a b := by
  obtain ⟨s', done', h1, _, _, h4⟩ := selection_inv hv ha hs
  rw [h1]
  exact h4 i (List.getElem?_eq_some_iff.mp hab).1 a b hab

/-- The index of the selection as an index of all baselines, base/Simulate.cc:196-201. -/
private def remap (selection : List Nat) (bl : Int) : Int :=
  if bl ≥ 0 then ((selection.getD bl.toNat 0 : Nat) : Int) else -((selection.getD (-bl - 1).toNat 0 : Nat) : Int) - 1

private theorem baselineOf_remap (selection : List Nat) (bl : Int) : baselineOf (remap selection bl) = selection.getD (baselineOf bl) 0 := by
  unfold remap
  split
  · rename_i h
    rw [baselineOf_nat]
    unfold baselineOf
    rw [if_neg (by omega)]
  · rename_i h
    have : (-((selection.getD (-bl - 1).toNat 0 : Nat) : Int) - 1) = -(((selection.getD (-bl - 1).toNat 0 : Nat) : Int) + 1) := by omega
    rw [this, baselineOf_neg]
    unfold baselineOf
    rw [if_pos (by omega)]

private theorem remap_sign (selection : List Nat) (bl : Int) : remap selection bl < 0 ↔ bl < 0 := by
  unfold remap
  split <;> omega

private theorem splitStep_eq {V : Type} [AddCommGroup V] (bs : List (Nat × Nat)) (uvw u : Nat → V) (idx : Int) :
    splitStep bs uvw u idx = if idx < 0 then set u (bs.getD (baselineOf idx) (0, 0)).1 (u (bs.getD (baselineOf idx) (0, 0)).2 - uvw (baselineOf idx))
      else set u (bs.getD (baselineOf idx) (0, 0)).2 (u (bs.getD (baselineOf idx) (0, 0)).1 + uvw (baselineOf idx)) := by
  unfold splitStep baselineOf
  split <;> rfl

private theorem split_remap {V : Type} [AddCommGroup V] (bs : List (Nat × Nat)) (selection : List Nat) (r : List Int)
    (hr : ∀ idx ∈ r, baselineOf idx < selection.length) (uvw : Nat → V) :
    splitUvw (r.map (remap selection)) bs uvw =
      splitUvw r (selection.map fun bl => bs.getD bl (0, 0)) (fun k => uvw (selection.getD k 0)) := by
  unfold splitUvw
  generalize (fun _ => (0 : V)) = u
  induction r generalizing u with
  | nil => rfl
  | cons idx rest ih =>
    rw [List.map_cons, List.foldl_cons, List.foldl_cons, ih (fun i hi => hr i (List.mem_cons_of_mem _ hi))]
    congr 1
    have hlt := hr idx (by simp)
    have hg : (selection.map fun bl => bs.getD bl (0, 0)).getD (baselineOf idx) (0, 0) = bs.getD (selection.getD (baselineOf idx) 0) (0, 0) := by
      rw [List.getD_eq_getElem?_getD, List.getElem?_map, List.getElem?_eq_getElem hlt, List.getD_eq_getElem?_getD (l := selection),
        List.getElem?_eq_getElem hlt]
      rfl
    rw [splitStep_eq, splitStep_eq, baselineOf_remap, hg]
    by_cases h : idx < 0
    · rw [if_pos h, if_pos ((remap_sign _ _).mpr h)]
    · rw [if_neg h, if_neg (fun h' => h ((remap_sign _ _).mp h'))]

/-- What the setup with positions ends with. -/
private theorem selected_done {R : Type} [CommRing R] [LinearOrder R] [IsStrictOrderedRing R] {position : Nat → Fin 3 → R} {n : Nat}
    {bs : List (Nat × Nat)} (hv : Valid n bs) (ha : Apart position bs) {sorted : List Nat} (hs : Sorted (lengthSq position bs) bs.length sorted) :
    ∃ r, setupSelected n sorted bs = some r ∧
      (∀ (V : Type) [AddCommGroup V] (uvw : Nat → V), ∀ i ∈ getBaselineSelection n sorted bs, ∀ a b, bs[i]? = some (a, b) → a ≠ b →
        splitUvw r bs uvw b - splitUvw r bs uvw a = uvw i) ∧
      (∀ idx ∈ r, baselineOf idx ∈ getBaselineSelection n sorted bs) := by
  obtain ⟨s', done', h1, h2, h3, h4⟩ := selection_inv hv ha hs
  unfold setupSelected
  rw [h1]
  generalize hsel : s'.selection = sel at *
  have hrange : ∀ i ∈ sel, i < bs.length := by rw [← hsel]; exact h2.range
  have hcount : size n (classes bs sel) + (sel.filter (proper bs)).length = n := by rw [← hsel]; exact h2.count
  have hbs : ∀ i ∈ sel, bs[i]? = some (bs.getD i (0, 0)) := by
    intro i hi
    rw [List.getD_eq_getElem?_getD, List.getElem?_eq_getElem (hrange i hi), Option.getD_some]
  have hat : ∀ (k : Nat) (p : Nat × Nat), (sel.map fun bl => bs.getD bl (0, 0))[k]? = some p → k < sel.length ∧ sel.getD k 0 ∈ sel ∧ bs[sel.getD k 0]? = some p := by
    intro k p h
    have hk : k < sel.length := by
      have := (List.getElem?_eq_some_iff.mp h).1
      simpa using this
    have hm : sel.getD k 0 ∈ sel := by
      rw [List.getD_eq_getElem?_getD, List.getElem?_eq_getElem hk, Option.getD_some]
      exact List.getElem_mem hk
    refine ⟨hk, hm, ?_⟩
    rw [hbs _ hm]
    rw [List.getElem?_map, List.getElem?_eq_getElem hk] at h
    rw [List.getD_eq_getElem?_getD (l := sel), List.getElem?_eq_getElem hk, Option.getD_some]
    exact h
  have hvs : Valid n (sel.map fun bl => bs.getD bl (0, 0)) := by
    intro p hp
    rw [List.mem_map] at hp
    obtain ⟨i, hi, rfl⟩ := hp
    exact hv _ (List.mem_of_getElem? (hbs i hi))
  obtain ⟨r, hr, hd⟩ := setup_done hvs
  have hlt : ∀ idx ∈ r, baselineOf idx < sel.length := by
    intro idx hi
    obtain ⟨a, b, hab, _⟩ := hd.ends idx hi
    exact (hat _ _ hab).1
  simp only [hr]
  refine ⟨r.map (remap sel), rfl, ?_, ?_⟩
  swap
  · intro idx hi
    rw [List.mem_map] at hi
    obtain ⟨j, hj, rfl⟩ := hi
    rw [baselineOf_remap]
    obtain ⟨a, b, hab, _⟩ := hd.ends j hj
    exact (hat _ _ hab).2.1
  -- the baselines that are used
  let T := r.map fun idx => sel.getD (baselineOf idx) 0
  have hTsub : T.toFinset ⊆ (sel.filter (proper bs)).toFinset := by
    intro i hi
    rw [List.mem_toFinset, List.mem_map] at hi
    obtain ⟨idx, hm, rfl⟩ := hi
    obtain ⟨a, b, hab, hne⟩ := hd.ends idx hm
    obtain ⟨_, e2, e3⟩ := hat _ _ hab
    rw [List.mem_toFinset, List.mem_filter]
    exact ⟨e2, (proper_of e3).mpr hne⟩
  have hTnd : T.Nodup := by
    have : T = (r.map baselineOf).map fun k => sel.getD k 0 := by
      rw [List.map_map]
      rfl
    rw [this]
    apply List.Nodup.map_on _ hd.nodup
    intro x hx y hy hxy
    rw [List.mem_map] at hx hy
    obtain ⟨ix, hix, rfl⟩ := hx
    obtain ⟨iy, hiy, rfl⟩ := hy
    have l1 := hlt ix hix
    have l2 := hlt iy hiy
    rw [List.getD_eq_getElem?_getD, List.getD_eq_getElem?_getD, List.getElem?_eq_getElem l1, List.getElem?_eq_getElem l2,
      Option.getD_some, Option.getD_some] at hxy
    exact (List.Nodup.getElem_inj_iff h3).mp hxy
  have hTrange : ∀ i ∈ T, i < bs.length := by
    intro i hi
    have := hTsub (List.mem_toFinset.mpr hi)
    rw [List.mem_toFinset, List.mem_filter] at this
    exact hrange i this.1
  have hlift : ∀ x y, Linked (sel.map fun bl => bs.getD bl (0, 0)) (r.map baselineOf) x y → Linked bs T x y := by
    intro x y h
    have hT : ∀ k ∈ r.map baselineOf, sel.getD k 0 ∈ T := by
      intro k hk
      rw [List.mem_map] at hk
      obtain ⟨idx, hm, rfl⟩ := hk
      exact List.mem_map.mpr ⟨idx, hm, rfl⟩
    induction h with
    | refl => exact .refl _
    | step k hk h _ ih => exact .step _ (hT k hk) (hat _ _ h).2.2 ih
    | back k hk h _ ih => exact .back _ (hT k hk) (hat _ _ h).2.2 ih
  have hsame : ∀ x y, Linked bs sel x y → Linked bs T x y := by
    have edge : ∀ i ∈ sel, ∀ p q, bs[i]? = some (p, q) → Linked bs T p q := by
      intro i hi p q hpq
      obtain ⟨k, hk, rfl⟩ := List.getElem_of_mem hi
      apply hlift
      apply hd.linked k
      rw [List.getElem?_map, List.getElem?_eq_getElem hk]
      rw [hbs _ hi] at hpq
      exact hpq
    intro x y h
    induction h with
    | refl => exact .refl _
    | step i hi h _ ih => exact ih.trans (edge i hi _ _ h)
    | back i hi h _ ih => exact ih.trans (edge i hi _ _ h).symm
  have hsize : size n (classes bs T) ≤ size n (classes bs sel) := by
    apply size_le
    intro x y h
    rw [classes_linked _ hrange] at h
    rw [classes_linked _ hTrange]
    exact hsame x y h
  have hge := size_ge hv T hTrange
  have hTeq : T.toFinset = (sel.filter (proper bs)).toFinset := by
    apply Finset.eq_of_subset_of_card_le hTsub
    rw [List.toFinset_card_of_nodup hTnd, List.toFinset_card_of_nodup (h3.filter _)]
    omega
  intro V _ uvw i hi a b hab hne
  have hiT : i ∈ T := by
    rw [← List.mem_toFinset, hTeq, List.mem_toFinset, List.mem_filter]
    exact ⟨hi, (proper_of hab).mpr hne⟩
  rw [List.mem_map] at hiT
  obtain ⟨idx, hm, hidx⟩ := hiT
  rw [split_remap bs sel r hlt uvw]
  obtain ⟨a', b', hab', _⟩ := hd.ends idx hm
  have := (hat _ _ hab').2.2
  rw [hidx, hab] at this
  rw [← this] at hab'
  rw [hd.exact V (fun k => uvw (sel.getD k 0)) idx hm a b hab', hidx]

/-- Every selected baseline between two antennas is reproduced, whatever the coordinates are, as for baselines averaged over
different times. -/
theorem selected_exact {R : Type} [CommRing R] [LinearOrder R] [IsStrictOrderedRing R] {position : Nat → Fin 3 → R} {n : Nat}
    {bs : List (Nat × Nat)} (hv : Valid n bs) (ha : Apart position bs) {sorted : List Nat} (hs : Sorted (lengthSq position bs) bs.length sorted)
    {V : Type} [AddCommGroup V] (uvw : Nat → V) {i a b : Nat} (hi : i ∈ getBaselineSelection n sorted bs) (hab : bs[i]? = some (a, b)) (hne : a ≠ b) :
    ∃ r, setupSelected n sorted bs = some r ∧ splitUvw r bs uvw b - splitUvw r bs uvw a = uvw i := by
  obtain ⟨r, h1, h2, _⟩ := selected_done hv ha hs
  exact ⟨r, h1, h2 V uvw i hi a b hab hne⟩

/-- Only the coordinates of selected baselines matter. -/
theorem selected_only {R : Type} [CommRing R] [LinearOrder R] [IsStrictOrderedRing R] {position : Nat → Fin 3 → R} {n : Nat}
    {bs : List (Nat × Nat)} (hv : Valid n bs) (ha : Apart position bs) {sorted : List Nat} (hs : Sorted (lengthSq position bs) bs.length sorted) :
    ∃ r, setupSelected n sorted bs = some r ∧ ∀ idx ∈ r, baselineOf idx ∈ getBaselineSelection n sorted bs := by
  obtain ⟨r, h1, _, h3⟩ := selected_done hv ha hs
  exact ⟨r, h1, h3⟩

/-- If the coordinates belong to positions, every baseline is reproduced. -/
theorem selected_sound {R : Type} [CommRing R] [LinearOrder R] [IsStrictOrderedRing R] {position : Nat → Fin 3 → R} {n : Nat}
    {bs : List (Nat × Nat)} (hv : Valid n bs) (ha : Apart position bs) {sorted : List Nat} (hs : Sorted (lengthSq position bs) bs.length sorted)
    {V : Type} [AddCommGroup V] {uvw place : Nat → V} (hc : Consistent bs uvw place) :
    ∃ r, setupSelected n sorted bs = some r ∧ ∀ (i a b : Nat), bs[i]? = some (a, b) → splitUvw r bs uvw b - splitUvw r bs uvw a = uvw i := by
  obtain ⟨r, h1, h2, _⟩ := selected_done hv ha hs
  refine ⟨r, h1, ?_⟩
  intro i a b hab
  obtain ⟨used, hu, hl⟩ := selection_bottleneck hv ha hs hab
  rw [hc i a b hab]
  apply Linked.diff _ hl
  intro j hj x y hxy
  by_cases hne : x = y
  · rw [hne]
    simp
  · rw [h2 V uvw j (hu j hj).1 x y hxy hne]
    exact hc j x y hxy

/-- If the coordinates of the selected baselines belong to positions, so does the result, whatever those of the other baselines are. -/
theorem selected_robust {R : Type} [CommRing R] [LinearOrder R] [IsStrictOrderedRing R] {position : Nat → Fin 3 → R} {n : Nat}
    {bs : List (Nat × Nat)} (hv : Valid n bs) (ha : Apart position bs) {sorted : List Nat} (hs : Sorted (lengthSq position bs) bs.length sorted)
    {V : Type} [AddCommGroup V] {uvw place : Nat → V}
    (hc : ∀ (i a b : Nat), i ∈ getBaselineSelection n sorted bs → bs[i]? = some (a, b) → uvw i = place b - place a) :
    ∃ r, setupSelected n sorted bs = some r ∧ ∀ (i a b : Nat), bs[i]? = some (a, b) → splitUvw r bs uvw b - splitUvw r bs uvw a = place b - place a := by
  obtain ⟨r, h1, h2, _⟩ := selected_done hv ha hs
  refine ⟨r, h1, ?_⟩
  intro i a b hab
  obtain ⟨used, hu, hl⟩ := selection_bottleneck hv ha hs hab
  apply Linked.diff _ hl
  intro j hj x y hxy
  by_cases hne : x = y
  · rw [hne]
    simp
  · rw [h2 V uvw j (hu j hj).1 x y hxy hne]
    exact hc j x y (hu j hj).1 hxy

/-- Two antennas at one position break it: the autocorrelation of an antenna may be selected before the baseline of length zero, and
counts as one that links two antennas. Then that baseline is wrong by the length of another. -/
theorem selected_colocated :
    ∃ (bs : List (Nat × Nat)) (position : Nat → Fin 3 → ℚ) (sorted : List Nat) (r : List Int) (uvw : Nat → ℚ),
      Valid 3 bs ∧ Sorted (lengthSq position bs) bs.length sorted ∧ setupSelected 3 sorted bs = some r ∧
      Consistent bs uvw (fun a => position a 0) ∧ bs[2]? = some (1, 2) ∧ uvw 2 = 0 ∧ splitUvw r bs uvw 2 - splitUvw r bs uvw 1 = -1 := by
  refine ⟨[(0, 1), (2, 2), (1, 2)], fun a => if a = 0 then ![0, 0, 0] else ![1, 0, 0], [0, 1, 2], [0], fun i => if i = 0 then 1 else 0,
    ?_, ⟨?_, ?_⟩, ?_, ?_, rfl, ?_, ?_⟩
  · intro a ha
    simp only [List.mem_cons, List.not_mem_nil, or_false] at ha
    rcases ha with rfl | rfl | rfl <;> simp
  · exact List.Perm.refl _
  · decide +kernel
  · decide +kernel
  · intro i a b h
    match i with
    | 0 =>
      simp at h
      obtain ⟨rfl, rfl⟩ := h
      simp
    | 1 =>
      simp at h
      obtain ⟨rfl, rfl⟩ := h
      simp
    | 2 =>
      simp at h
      obtain ⟨rfl, rfl⟩ := h
      simp
    | k + 3 => simp at h
  · simp
  · decide +kernel

/-! ## Examples -/

/-- Two groups of antennas: 0, 2, 4 and 1, 3. -/
example : setupUvwSplitting 5 [(4, 2), (1, 3), (0, 4), (0, 2), (3, 3)] = some [2, 3, 1] := by decide +kernel

example : (fun a => splitUvw [2, 3, 1] [(4, 2), (1, 3), (0, 4), (0, 2), (3, 3)] (fun i => [(-2 : Int), 7, 5, 3, 0].getD i 0) a) 4 = 5 := by decide +kernel

example : Valid 5 [(4, 2), (1, 3), (0, 4), (0, 2), (3, 3)] := by
  intro a ha
  simp only [List.mem_cons, List.not_mem_nil, or_false] at ha
  rcases ha with rfl | rfl | rfl | rfl | rfl <;> simp

example : Consistent [(4, 2), (1, 3), (0, 4), (0, 2), (3, 3)] (fun i => [(-2 : Int), 7, 5, 3, 0].getD i 0) (fun a => [(10 : Int), 0, 13, 7, 15].getD a 0) := by
  intro i a b h
  match i with
  | 0 => simp at h; obtain ⟨rfl, rfl⟩ := h; simp
  | 1 => simp at h; obtain ⟨rfl, rfl⟩ := h; simp
  | 2 => simp at h; obtain ⟨rfl, rfl⟩ := h; simp
  | 3 => simp at h; obtain ⟨rfl, rfl⟩ := h; simp
  | 4 => simp at h; obtain ⟨rfl, rfl⟩ := h; simp
  | k + 5 => simp at h

/-- Antennas at 0, 1, 5 and 7 on a line: the long baselines are chosen. -/
example : getBaselineSelection 4 [2, 4, 1, 3, 5, 0] [(0, 1), (0, 2), (0, 3), (1, 2), (1, 3), (2, 3)] = [2, 4, 1] := by decide +kernel

example : setupSelected 4 [2, 4, 1, 3, 5, 0] [(0, 1), (0, 2), (0, 3), (1, 2), (1, 3), (2, 3)] = some [2, 1, -5] := by decide +kernel

example : Sorted (lengthSq (fun a => ![[(0 : ℚ), 1, 5, 7].getD a 0, 0, 0]) [(0, 1), (0, 2), (0, 3), (1, 2), (1, 3), (2, 3)]) 6 [2, 4, 1, 3, 5, 0] :=
  ⟨by decide +kernel, by decide +kernel⟩

example : Apart (fun a => ![[(0 : ℚ), 1, 5, 7].getD a 0, 0, 0]) [(0, 1), (0, 2), (1, 2), (2, 2)] := by
  intro i a b h hne he
  have h0 := congrFun he 0
  match i with
  | 0 => simp at h; obtain ⟨rfl, rfl⟩ := h; simp at h0
  | 1 => simp at h; obtain ⟨rfl, rfl⟩ := h; simp at h0
  | 2 => simp at h; obtain ⟨rfl, rfl⟩ := h; norm_num at h0
  | 3 => simp at h; obtain ⟨rfl, rfl⟩ := h; exact hne rfl
  | k + 4 => simp at h

end DP3.UvwSplit
