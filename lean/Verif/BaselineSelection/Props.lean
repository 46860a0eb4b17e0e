import Verif.BaselineSelection.Model
import Mathlib.Order.Nat
import Mathlib.Tactic.Tauto
import Mathlib.Tactic.SplitIfs

/-!
C24.
-/

namespace DP3.BaselineSelection

set_option linter.unusedSectionVars false

variable {P F : Type} [LinearOrder F]

/-! ### Specification -/

/-- An element of the vector selects a baseline: one pattern must match one of the
antennas, two patterns must match both, in either order. -/
def ElementHolds (matchesName : P → Nat → Bool) (e : List P) (i j : Nat) : Prop :=
  (∃ p, e = [p] ∧ (matchesName p i = true ∨ matchesName p j = true)) ∨
  (∃ p q, e = [p, q] ∧ ((matchesName p i = true ∧ matchesName q j = true) ∨
    (matchesName p j = true ∧ matchesName q i = true)))

/-- The baseline string selects a baseline. -/
def BaselinesHold (matchesName : P → Nat → Bool) (b : Baselines P) (i j : Nat) : Prop :=
  match b with
  | .none => True
  | .vector es => ∃ e ∈ es, ElementHolds matchesName e i j
  | .msSelection l => (i, j) ∈ l ∨ (j, i) ∈ l

/-- The correlation type selects a baseline. -/
def CorrTypeHolds (t : CorrType) (i j : Nat) : Prop :=
  (t = .auto → i = j) ∧ (t = .cross → i ≠ j)

/-- The length is in a range, if ranges are given. -/
def LengthHolds (ranges : List (F × F)) (len : F) : Prop :=
  ranges ≠ [] → ∃ r ∈ ranges, r.1 ≤ len ∧ len ≤ r.2

/-! ### Proofs -/

private theorem setAll_iff (l : List (Nat × Nat)) (v : Bool) : ∀ (m : Sel) (i j : Nat),
    m.setAll l v i j = if (i, j) ∈ l then v else m i j := by
  induction l with
  | nil => intro m i j; simp [Sel.setAll]
  | cons p l ih =>
    intro m i j
    have := ih (m.set p v) i j
    simp only [Sel.setAll, List.foldl_cons] at this ⊢
    rw [this]
    by_cases h : (i, j) ∈ l
    · simp [h]
    · by_cases e : (i, j) = p
      · subst e; simp [Sel.set]
      · have : ¬ (i = p.1 ∧ j = p.2) := fun hh => e (Prod.ext hh.1 hh.2)
        simp [h, e, Sel.set, this]

private theorem mem_antennaElements (mn : P → Nat → Bool) (n : Nat) (p : P) (i j : Nat) :
    (i, j) ∈ antennaElements mn n p ↔
      i < n ∧ j < n ∧ (mn p i = true ∨ mn p j = true) := by
  simp only [antennaElements, List.mem_flatMap, List.mem_range]
  constructor
  · rintro ⟨k, hk, h⟩
    split at h
    · rename_i hm
      simp only [List.mem_flatMap, List.mem_range, List.mem_cons, List.not_mem_nil, or_false,
        Prod.mk.injEq] at h
      obtain ⟨l, hl, ⟨rfl, rfl⟩ | ⟨rfl, rfl⟩⟩ := h
      · exact ⟨hk, hl, .inl hm⟩
      · exact ⟨hl, hk, .inr hm⟩
    · simp at h
  · rintro ⟨hi, hj, h | h⟩
    · exact ⟨i, hi, by rw [if_pos h]; simp only [List.mem_flatMap, List.mem_range]; exact ⟨j, hj, by simp⟩⟩
    · exact ⟨j, hj, by rw [if_pos h]; simp only [List.mem_flatMap, List.mem_range]; exact ⟨i, hi, by simp⟩⟩

private theorem mem_pairElements (mn : P → Nat → Bool) (n : Nat) (p q : P) (i j : Nat) :
    (i, j) ∈ pairElements mn n p q ↔
      i < n ∧ j < n ∧ ((mn p i = true ∧ mn q j = true) ∨ (mn p j = true ∧ mn q i = true)) := by
  simp only [pairElements, List.mem_flatMap, List.mem_range]
  constructor
  · rintro ⟨k, hk, h⟩
    split at h
    · rename_i hm
      simp only [List.mem_flatMap, List.mem_range] at h
      obtain ⟨l, hl, h⟩ := h
      split at h
      · rename_i hm1
        simp only [List.mem_cons, List.not_mem_nil, or_false, Prod.mk.injEq] at h
        obtain ⟨rfl, rfl⟩ | ⟨rfl, rfl⟩ := h
        · exact ⟨hl, hk, .inl ⟨hm1, hm⟩⟩
        · exact ⟨hk, hl, .inr ⟨hm1, hm⟩⟩
      · simp at h
    · simp at h
  · rintro ⟨hi, hj, ⟨h1, h2⟩ | ⟨h1, h2⟩⟩
    · refine ⟨j, hj, ?_⟩
      rw [if_pos h2]
      simp only [List.mem_flatMap, List.mem_range]
      exact ⟨i, hi, by simp [h1]⟩
    · refine ⟨i, hi, ?_⟩
      rw [if_pos h2]
      simp only [List.mem_flatMap, List.mem_range]
      exact ⟨j, hj, by simp [h1]⟩

private theorem vectorLoop_iff (mn : P → Nat → Bool) (n : Nat) : ∀ (es : List (List P)) (m r : Sel),
    vectorLoop mn n es m = some r → ∀ i j, i < n → j < n →
      (r i j = true ↔ m i j = true ∨ ∃ e ∈ es, ElementHolds mn e i j) := by
  intro es
  induction es with
  | nil => intro m r h i j _ _; simp [vectorLoop] at h; simp [h]
  | cons e es ih =>
    intro m r h i j hi hj
    match e, h with
    | [], h => simp [vectorLoop] at h
    | [p], h =>
      simp only [vectorLoop] at h
      rw [ih _ r h i j hi hj, setAll_iff]
      have he : ElementHolds mn [p] i j ↔ (i, j) ∈ antennaElements mn n p := by
        rw [mem_antennaElements]; simp [ElementHolds, hi, hj]
      simp only [List.mem_cons, exists_eq_or_imp, he]
      split_ifs with hh <;> simp [hh]
    | [p, q], h =>
      simp only [vectorLoop] at h
      rw [ih _ r h i j hi hj, setAll_iff]
      have he : ElementHolds mn [p, q] i j ↔ (i, j) ∈ pairElements mn n p q := by
        rw [mem_pairElements]
        simp only [ElementHolds, hi, hj, true_and, List.cons.injEq, and_true, reduceCtorEq, and_false,
          false_and, exists_false, false_or]
        constructor
        · rintro ⟨p', q', ⟨rfl, rfl⟩, h⟩; exact h
        · intro h; exact ⟨p, q, ⟨rfl, rfl⟩, h⟩
      simp only [List.mem_cons, exists_eq_or_imp, he]
      split_ifs with hh <;> simp [hh]
    | _ :: _ :: _ :: _, h => simp [vectorLoop] at h

private theorem handleBL_iff (mn : P → Nat → Bool) (n : Nat) (b : Baselines P) (m r : Sel)
    (h : handleBL mn n b m = some r) (i j : Nat) (hi : i < n) (hj : j < n) :
    r i j = true ↔ m i j = true ∧ BaselinesHold mn b i j := by
  cases b with
  | none => simp [handleBL] at h; simp [h, BaselinesHold]
  | vector es =>
    simp only [handleBL, handleBLVector, Option.map_eq_some_iff] at h
    obtain ⟨s, hs, rfl⟩ := h
    have := vectorLoop_iff mn n es _ s hs i j hi hj
    simp only [Bool.and_eq_true, this, BaselinesHold, Bool.false_eq_true, false_or]
  | msSelection l =>
    simp only [handleBL, Option.some.injEq] at h
    subst h
    simp only [Bool.and_eq_true, msMatrix, setAll_iff, BaselinesHold]
    have : (i, j) ∈ (l.flatMap fun p => [(p.1, p.2), (p.2, p.1)]) ↔ (i, j) ∈ l ∨ (j, i) ∈ l := by
      simp only [List.mem_flatMap, List.mem_cons, List.not_mem_nil, or_false, Prod.mk.injEq]
      constructor
      · rintro ⟨p, hp, ⟨h1, h2⟩ | ⟨h1, h2⟩⟩
        · left; rw [h1, h2]; exact hp
        · right; rw [h1, h2]; exact hp
      · rintro (h | h)
        · exact ⟨_, h, .inl ⟨rfl, rfl⟩⟩
        · exact ⟨_, h, .inr ⟨rfl, rfl⟩⟩
    rw [← this]
    split_ifs with hh <;> simp [hh]

private theorem handleCorrType_iff (t : CorrType) (m r : Sel) (h : handleCorrType t m = some r)
    (i j : Nat) : r i j = true ↔ m i j = true ∧ CorrTypeHolds t i j := by
  cases t with
  | empty => simp [handleCorrType] at h; simp [h, CorrTypeHolds]
  | other => simp [handleCorrType] at h
  | auto =>
    simp only [handleCorrType, Option.some.injEq] at h
    subst h
    by_cases e : i = j
    · subst e; simp [CorrTypeHolds]
    · simp [CorrTypeHolds, e]
  | cross =>
    simp only [handleCorrType, Option.some.injEq] at h
    subst h
    by_cases e : i = j
    · subst e; simp [CorrTypeHolds]
    · simp [CorrTypeHolds, e]

private theorem matchLength_iff (ranges : List (F × F)) (len : F) :
    matchLength ranges len = true ↔ ∃ r ∈ ranges, r.1 ≤ len ∧ len ≤ r.2 := by
  simp [matchLength]

/-- A baseline loses its selection exactly when a listed baseline with the same antennas has
a length outside all ranges. -/
private theorem handleLength_iff (ranges : List (F × F)) : ∀ (bls : List ((Nat × Nat) × F)) (m : Sel)
    (i j : Nat), handleLength ranges bls m i j = true ↔ m i j = true ∧
      ∀ b ∈ bls, b.1 = (i, j) ∨ b.1 = (j, i) → matchLength ranges b.2 = true := by
  intro bls
  induction bls with
  | nil => intro m i j; simp [handleLength]
  | cons b bls ih =>
    intro m i j
    have := ih (if matchLength ranges b.2 then m else (m.set b.1 false).set (b.1.2, b.1.1) false) i j
    simp only [handleLength, List.foldl_cons] at this ⊢
    rw [this]
    simp only [List.mem_cons, forall_eq_or_imp]
    cases hm : matchLength ranges b.2 with
    | true => simp
    | false =>
      simp only [Bool.false_eq_true, if_false, imp_false, not_or]
      have h1 : ((m.set b.1 false).set (b.1.2, b.1.1) false) i j = true ↔
          m i j = true ∧ ¬ b.1 = (i, j) ∧ ¬ b.1 = (j, i) := by
        obtain ⟨⟨x, y⟩, l⟩ := b
        simp only [Sel.set, Prod.mk.injEq]
        by_cases e1 : i = y ∧ j = x
        · obtain ⟨rfl, rfl⟩ := e1
          simp
        · by_cases e2 : i = x ∧ j = y
          · obtain ⟨rfl, rfl⟩ := e2
            simp
          · have e1' : ¬ (x = j ∧ y = i) := fun h => e1 ⟨h.2.symm, h.1.symm⟩
            have e2' : ¬ (x = i ∧ y = j) := fun h => e2 ⟨h.1.symm, h.2.symm⟩
            simp [e1, e2, e1', e2']
      rw [h1]
      tauto

/-- C24: the selection is symmetric. -/
theorem apply_symmetric (mn : P → Nat → Bool) (n : Nat) (bls : List ((Nat × Nat) × F))
    (s : Selection P F) (m : Sel) (h : apply mn n bls s = some m) (i j : Nat) (hi : i < n)
    (hj : j < n) : m i j = m j i := by
  simp only [apply, Option.bind_eq_some_iff, Option.map_eq_some_iff] at h
  obtain ⟨m1, h1, m2, h2, rfl⟩ := h
  have e1 : m1 i j = m1 j i := by
    rw [Bool.eq_iff_iff, handleBL_iff mn n _ _ m1 h1 i j hi hj, handleBL_iff mn n _ _ m1 h1 j i hj hi]
    cases s.baselines with
    | none => simp [BaselinesHold]
    | vector es =>
      simp only [BaselinesHold, ElementHolds, true_and]
      constructor <;>
      · rintro ⟨e, he, ⟨p, rfl, hp⟩ | ⟨p, q, rfl, hp⟩⟩
        · exact ⟨_, he, .inl ⟨p, rfl, hp.symm⟩⟩
        · exact ⟨_, he, .inr ⟨p, q, rfl, hp.symm⟩⟩
    | msSelection l => simp only [BaselinesHold, true_and]; tauto
  have e2 : m2 i j = m2 j i := by
    rw [Bool.eq_iff_iff, handleCorrType_iff _ m1 m2 h2, handleCorrType_iff _ m1 m2 h2, e1]
    simp only [CorrTypeHolds, eq_comm (a := i), ne_eq]
  split_ifs
  · exact e2
  · rw [Bool.eq_iff_iff, handleLength_iff, handleLength_iff, e2]
    simp only [or_comm]

/-- C24: a baseline of the data is selected exactly when it satisfies the baseline string,
the correlation type and the length ranges. -/
theorem apply_spec (mn : P → Nat → Bool) (n : Nat) (ants : List (Nat × Nat)) (len : Nat → Nat → F)
    (hlen : ∀ i j, len i j = len j i) (s : Selection P F) (m : Sel)
    (h : apply mn n (ants.map fun p => (p, len p.1 p.2)) s = some m) (i j : Nat) (hi : i < n)
    (hj : j < n) (hb : (i, j) ∈ ants) :
    m i j = true ↔ BaselinesHold mn s.baselines i j ∧ CorrTypeHolds s.corrType i j ∧
      LengthHolds s.ranges (len i j) := by
  simp only [apply, Option.bind_eq_some_iff, Option.map_eq_some_iff] at h
  obtain ⟨m1, h1, m2, h2, rfl⟩ := h
  have e1 := handleBL_iff mn n _ _ m1 h1 i j hi hj
  have e2 := handleCorrType_iff _ m1 m2 h2 i j
  simp only [true_and] at e1
  split_ifs with hr
  · rw [List.isEmpty_iff] at hr
    rw [e2, e1]
    simp [LengthHolds, hr]
  · rw [List.isEmpty_iff] at hr
    rw [handleLength_iff, e2, e1]
    have : (∀ b ∈ ants.map fun p => (p, len p.1 p.2), b.1 = (i, j) ∨ b.1 = (j, i) →
        matchLength s.ranges b.2 = true) ↔ LengthHolds s.ranges (len i j) := by
      rw [LengthHolds, ← matchLength_iff]
      constructor
      · intro h _
        exact h ((i, j), len i j) (List.mem_map.mpr ⟨(i, j), hb, rfl⟩) (.inl rfl)
      · intro h b hb' hor
        obtain ⟨p, _, rfl⟩ := List.mem_map.mp hb'
        rcases hor with h' | h' <;> simp only at h' <;> subst h'
        · exact h hr
        · simp only; rw [hlen]; exact h hr
    rw [this]
    tauto

/-- C24: it is rejected exactly for a wrong correlation type or a vector element that does
not have one or two patterns. -/
theorem apply_rejects (mn : P → Nat → Bool) (n : Nat) (bls : List ((Nat × Nat) × F))
    (s : Selection P F) : apply mn n bls s = none ↔
      s.corrType = .other ∨ ∃ es, s.baselines = .vector es ∧ ∃ e ∈ es, e.length ≠ 1 ∧ e.length ≠ 2 := by
  have hv : ∀ (es : List (List P)) (m : Sel), vectorLoop mn n es m = none ↔
      ∃ e ∈ es, e.length ≠ 1 ∧ e.length ≠ 2 := by
    intro es
    induction es with
    | nil => intro m; simp [vectorLoop]
    | cons e es ih =>
      intro m
      match e with
      | [] => simp [vectorLoop]
      | [p] => simp only [vectorLoop]; rw [ih]; simp
      | [p, q] => simp only [vectorLoop]; rw [ih]; simp
      | _ :: _ :: _ :: _ => simp [vectorLoop]
  have hbl : ∀ m : Sel, handleBL mn n s.baselines m = none ↔
      ∃ es, s.baselines = .vector es ∧ ∃ e ∈ es, e.length ≠ 1 ∧ e.length ≠ 2 := by
    intro m
    cases s.baselines with
    | none => simp [handleBL]
    | vector es =>
      simp only [handleBL, handleBLVector, Option.map_eq_none_iff]
      rw [hv]
      simp
    | msSelection l => simp [handleBL]
  have hct : ∀ m : Sel, handleCorrType s.corrType m = none ↔ s.corrType = .other := by
    intro m
    cases s.corrType <;> simp [handleCorrType]
  rw [← hbl (fun _ _ => true)]
  simp only [apply]
  cases hb : handleBL mn n s.baselines fun _ _ => true with
  | none => simp
  | some m => simp only [Option.bind_some, Option.map_eq_none_iff, reduceCtorEq, or_false]; exact hct m

/-- C24: `applyVec` gives these values for the baselines of the data. -/
theorem applyVec_spec (mn : P → Nat → Bool) (n : Nat) (ants : List (Nat × Nat)) (len : Nat → Nat → F)
    (hlen : ∀ i j, len i j = len j i) (s : Selection P F) (v : List Bool)
    (h : applyVec mn n (ants.map fun p => (p, len p.1 p.2)) s = some v)
    (hn : ∀ p ∈ ants, p.1 < n ∧ p.2 < n) (b : Nat) (hb : b < ants.length) :
    v[b]? = some true ↔ BaselinesHold mn s.baselines ants[b].1 ants[b].2 ∧
      CorrTypeHolds s.corrType ants[b].1 ants[b].2 ∧
      LengthHolds s.ranges (len ants[b].1 ants[b].2) := by
  simp only [applyVec, Option.map_eq_some_iff] at h
  obtain ⟨m, hm, rfl⟩ := h
  have hmem : ants[b] ∈ ants := List.getElem_mem _
  have := apply_spec mn n ants len hlen s m hm ants[b].1 ants[b].2 (hn _ hmem).1 (hn _ hmem).2 hmem
  rw [← this]
  simp [List.getElem?_eq_getElem hb]

/-- The ranges: a length is accepted if it is in a range of `blrange`, at most `blmin`, or at
least `blmax`. -/
theorem makeRanges_spec (zero big : F) (blrange : List (F × F)) (minbl maxbl : F)
    (ranges : List (F × F))
    (h : makeRanges zero big (blrange.flatMap fun r => [r.1, r.2]) true minbl maxbl = some ranges)
    (l : F) (hl : zero ≤ l) (hbig : l ≤ big) :
    matchLength ranges l = true ↔ (∃ r ∈ blrange, r.1 ≤ l ∧ l ≤ r.2) ∨
      (zero < minbl ∧ l ≤ minbl) ∨ (zero < maxbl ∧ maxbl ≤ l) := by
  -- pairing a flattened list gives the list
  have hpair : ∀ (rs : List (F × F)),
      (List.range ((rs.flatMap fun r => [r.1, r.2]).length / 2)).map (fun (j : Nat) =>
        ((rs.flatMap fun r => [r.1, r.2]).getD (2 * j) zero,
         (rs.flatMap fun r => [r.1, r.2]).getD (2 * j + 1) zero)) = rs := by
    intro rs
    induction rs with
    | nil => simp
    | cons r rs ih =>
      simp only [List.flatMap_cons, List.cons_append, List.nil_append, List.length_cons]
      rw [show ((rs.flatMap fun r => [r.1, r.2]).length + 1 + 1) / 2 =
        (rs.flatMap fun r => [r.1, r.2]).length / 2 + 1 by omega, List.range_succ_eq_map,
        List.map_cons, List.map_map]
      congr 1
  obtain ⟨extra, hex⟩ : ∃ extra : List (F × F),
      extra = (if minbl > zero then [(zero, minbl)] else []) ++
        (if maxbl > zero then [(maxbl, big)] else []) := ⟨_, rfl⟩
  have hall : (blrange.flatMap fun r => [r.1, r.2]) ++
      (if True then
        (if minbl > zero then [zero, minbl] else []) ++ (if maxbl > zero then [maxbl, big] else [])
      else []) = (blrange ++ extra).flatMap fun r => [r.1, r.2] := by
    subst hex
    rw [List.flatMap_append]
    congr 1
    rw [if_pos trivial]
    split_ifs <;> simp
  simp only [makeRanges, if_true] at h
  rw [if_pos trivial] at hall
  rw [hall] at h
  split_ifs at h with hodd
  rw [hpair] at h
  obtain rfl := Option.some.inj h
  rw [matchLength_iff]
  simp only [List.mem_append, or_and_right, exists_or]
  apply or_congr Iff.rfl
  subst hex
  simp only [gt_iff_lt, List.mem_append]
  constructor
  · rintro ⟨r, hr | hr, h1, h2⟩
    · split_ifs at hr with hc
      · simp at hr; subst hr; exact .inl ⟨hc, h2⟩
      · simp at hr
    · split_ifs at hr with hc
      · simp at hr; subst hr; exact .inr ⟨hc, h1⟩
      · simp at hr
  · rintro (⟨hc, h1⟩ | ⟨hc, h1⟩)
    · exact ⟨(zero, minbl), .inl (by simp [hc]), hl, h1⟩
    · exact ⟨(maxbl, big), .inr (by simp [hc]), h1, hbig⟩

/-- Three antennas; cross-correlations with antenna 0 of length at most 5. -/
example : ∃ m, apply (P := Nat) (fun p a => p == a) 3
      ([(0, 0), (0, 1), (0, 2), (1, 2)].map fun p : Nat × Nat => (p, 5 * (p.1 + p.2)))
      ⟨.vector [[0]], .cross, [(1, 5)]⟩ = some m ∧
    m 0 0 = false ∧ m 0 1 = true ∧ m 1 0 = true ∧ m 0 2 = false ∧ m 1 2 = false :=
  ⟨_, rfl, rfl, rfl, rfl, rfl, rfl⟩

/-- `blmin=2, blmax=8` without `blrange`. -/
example : makeRanges 0 100 [] true 2 8 = some [(0, 2), (8, 100)] ∧
    makeRanges 0 100 [1] true 2 8 = none := by decide

end DP3.BaselineSelection
