import Verif.ParmGrid.GridProps

/-!
# C85: boxes
-/

namespace DP3.ParmGrid

set_option linter.unusedSectionVars false

variable {K : Type} [Field K] [LinearOrder K] [IsStrictOrderedRing K]

/-- A point strictly inside a box. -/
def Inside (b : Box K) (x y : K) : Prop := b.lowerX < x ∧ x < b.upperX ∧ b.lowerY < y ∧ y < b.upperY

/-- A point of a box, its edge included. -/
def Covers (b : Box K) (x y : K) : Prop := b.lowerX ≤ x ∧ x ≤ b.upperX ∧ b.lowerY ≤ y ∧ y ≤ b.upperY

private theorem intersect_cond (a b : Box K) :
    (max a.lowerX b.lowerX < min a.upperX b.upperX ∧
      exact (max a.lowerX b.lowerX) (min a.upperX b.upperX) = false ∧
      max a.lowerY b.lowerY < min a.upperY b.upperY ∧
      exact (max a.lowerY b.lowerY) (min a.upperY b.upperY) = false) ↔
    (max a.lowerX b.lowerX < min a.upperX b.upperX ∧ max a.lowerY b.lowerY < min a.upperY b.upperY) := by
  simp only [exact, decide_eq_false_iff_not]
  constructor
  · rintro ⟨h1, -, h2, -⟩; exact ⟨h1, h2⟩
  · rintro ⟨h1, h2⟩; exact ⟨h1, h1.ne, h2, h2.ne⟩

/-- C85: the points strictly inside the intersection of two boxes are those strictly inside both. -/
theorem intersect_points (a b : Box K) (x y : K) :
    Inside (intersect exact a b) x y ↔ Inside a x y ∧ Inside b x y := by
  simp only [intersect]
  by_cases h : max a.lowerX b.lowerX < min a.upperX b.upperX ∧ max a.lowerY b.lowerY < min a.upperY b.upperY
  · rw [if_pos ((intersect_cond a b).mpr h)]
    simp only [Inside, max_lt_iff, lt_min_iff]
    tauto
  · rw [if_neg (fun h' => h ((intersect_cond a b).mp h'))]
    constructor
    · rintro ⟨h1, h2, -⟩
      exact absurd (h1.trans h2) (lt_irrefl _)
    · rintro ⟨⟨h1, h2, h3, h4⟩, ⟨h5, h6, h7, h8⟩⟩
      exact absurd ⟨(max_lt h1 h5).trans (lt_min h2 h6), (max_lt h3 h7).trans (lt_min h4 h8)⟩ h

/-- C85: boxes intersect if and only if a point is strictly inside both. -/
theorem intersects_iff (a b : Box K) (ha : a.lowerX < a.upperX ∧ a.lowerY < a.upperY)
    (hb : b.lowerX < b.upperX ∧ b.lowerY < b.upperY) :
    intersects exact a b = true ↔ ∃ x y, Inside a x y ∧ Inside b x y := by
  have e : intersects exact a b = true ↔
      b.lowerX < a.upperX ∧ a.lowerX < b.upperX ∧ b.lowerY < a.upperY ∧ a.lowerY < b.upperY := by
    simp only [intersects, exact, Bool.and_eq_true, decide_eq_true_eq, Bool.not_eq_true',
      decide_eq_false_iff_not]
    constructor
    · rintro ⟨⟨⟨⟨⟨⟨⟨h1, -⟩, h2⟩, -⟩, h3⟩, -⟩, h4⟩, -⟩; exact ⟨h1, h2, h3, h4⟩
    · rintro ⟨h1, h2, h3, h4⟩
      exact ⟨⟨⟨⟨⟨⟨⟨h1, h1.ne⟩, h2⟩, h2.ne'⟩, h3⟩, h3.ne⟩, h4⟩, h4.ne'⟩
  rw [e]
  constructor
  · rintro ⟨h1, h2, h3, h4⟩
    obtain ⟨x, x1, x2⟩ := exists_between (max_lt (lt_min ha.1 h2) (lt_min h1 hb.1))
    obtain ⟨y, y1, y2⟩ := exists_between (max_lt (lt_min ha.2 h4) (lt_min h3 hb.2))
    rw [max_lt_iff] at x1 y1
    rw [lt_min_iff] at x2 y2
    exact ⟨x, y, ⟨x1.1, x2.1, y1.1, y2.1⟩, ⟨x1.2, x2.2, y1.2, y2.2⟩⟩
  · rintro ⟨x, y, ⟨h1, h2, h3, h4⟩, ⟨h5, h6, h7, h8⟩⟩
    exact ⟨h5.trans h2, h1.trans h6, h7.trans h4, h3.trans h8⟩

/-- C85: boxes intersect if and only if their intersection is not empty. -/
theorem intersects_not_empty (a b : Box K) (ha : a.lowerX < a.upperX ∧ a.lowerY < a.upperY)
    (hb : b.lowerX < b.upperX ∧ b.lowerY < b.upperY) :
    intersects exact a b = !empty exact (intersect exact a b) := by
  have key : intersects exact a b = true ↔ (!empty exact (intersect exact a b)) = true := by
    rw [intersects_iff a b ha hb]
    simp only [intersect]
    by_cases h : max a.lowerX b.lowerX < min a.upperX b.upperX ∧
        max a.lowerY b.lowerY < min a.upperY b.upperY
    · rw [if_pos ((intersect_cond a b).mpr h)]
      refine iff_of_true ?_ ?_
      · obtain ⟨x, x1, x2⟩ := exists_between h.1
        obtain ⟨y, y1, y2⟩ := exists_between h.2
        rw [max_lt_iff] at x1 y1
        rw [lt_min_iff] at x2 y2
        exact ⟨x, y, ⟨x1.1, x2.1, y1.1, y2.1⟩, ⟨x1.2, x2.2, y1.2, y2.2⟩⟩
      · simp [empty, exact, h.1.ne, h.2.ne]
    · rw [if_neg (fun h' => h ((intersect_cond a b).mp h'))]
      refine iff_of_false ?_ (by simp [empty, exact])
      rintro ⟨x, y, ⟨h1, h2, h3, h4⟩, ⟨h5, h6, h7, h8⟩⟩
      exact h ⟨(max_lt h1 h5).trans (lt_min h2 h6), (max_lt h3 h7).trans (lt_min h4 h8)⟩
  rw [Bool.eq_iff_iff]
  exact key

/-- C85: a box contains another if and only if all its points are in it. -/
theorem contains_iff (a b : Box K) (hb : b.lowerX ≤ b.upperX ∧ b.lowerY ≤ b.upperY) :
    contains exact a b = true ↔ ∀ x y, Covers b x y → Covers a x y := by
  have e : contains exact a b = true ↔
      a.lowerX ≤ b.lowerX ∧ b.upperX ≤ a.upperX ∧ a.lowerY ≤ b.lowerY ∧ b.upperY ≤ a.upperY := by
    simp only [contains, exact, Bool.and_eq_true, Bool.or_eq_true, decide_eq_true_eq]
    constructor
    · rintro ⟨⟨⟨h1, h2⟩, h3⟩, h4⟩
      exact ⟨h1.elim id fun h => h.ge, h2.elim id fun h => h.le, h3.elim id fun h => h.ge,
        h4.elim id fun h => h.le⟩
    · rintro ⟨h1, h2, h3, h4⟩; exact ⟨⟨⟨.inl h1, .inl h2⟩, .inl h3⟩, .inl h4⟩
  rw [e]
  constructor
  · rintro ⟨h1, h2, h3, h4⟩ x y ⟨c1, c2, c3, c4⟩
    exact ⟨h1.trans c1, c2.trans h2, h3.trans c3, c4.trans h4⟩
  · intro h
    obtain ⟨l1, -, l3, -⟩ := h b.lowerX b.lowerY ⟨le_refl _, hb.1, le_refl _, hb.2⟩
    obtain ⟨-, u2, -, u4⟩ := h b.upperX b.upperY ⟨hb.1, le_refl _, hb.2, le_refl _⟩
    exact ⟨l1, u2, l3, u4⟩

/-- C85: the union of two boxes is the smallest box with all points of both. -/
theorem unite_smallest (a b : Box K) :
    (∀ x y, Covers a x y ∨ Covers b x y → Covers (unite a b) x y) ∧
    ∀ c : Box K, (a.lowerX ≤ a.upperX ∧ a.lowerY ≤ a.upperY) → (b.lowerX ≤ b.upperX ∧ b.lowerY ≤ b.upperY) →
      (∀ x y, Covers a x y ∨ Covers b x y → Covers c x y) → ∀ x y, Covers (unite a b) x y → Covers c x y := by
  constructor
  · rintro x y (⟨h1, h2, h3, h4⟩ | ⟨h1, h2, h3, h4⟩)
    · exact ⟨(min_le_left _ _).trans h1, h2.trans (le_max_left _ _), (min_le_left _ _).trans h3,
        h4.trans (le_max_left _ _)⟩
    · exact ⟨(min_le_right _ _).trans h1, h2.trans (le_max_right _ _), (min_le_right _ _).trans h3,
        h4.trans (le_max_right _ _)⟩
  · intro c ha hb h x y hxy
    obtain ⟨a1, -, a3, -⟩ := h a.lowerX a.lowerY (.inl ⟨le_refl _, ha.1, le_refl _, ha.2⟩)
    obtain ⟨-, a2, -, a4⟩ := h a.upperX a.upperY (.inl ⟨ha.1, le_refl _, ha.2, le_refl _⟩)
    obtain ⟨b1, -, b3, -⟩ := h b.lowerX b.lowerY (.inr ⟨le_refl _, hb.1, le_refl _, hb.2⟩)
    obtain ⟨-, b2, -, b4⟩ := h b.upperX b.upperY (.inr ⟨hb.1, le_refl _, hb.2, le_refl _⟩)
    obtain ⟨h1, h2, h3, h4⟩ := hxy
    exact ⟨(le_min a1 b1).trans h1, h2.trans (max_le a2 b2), (le_min a3 b3).trans h3, h4.trans (max_le a4 b4)⟩

/-! ## Examples -/

example : intersect exact (⟨0, 0, 4, 4⟩ : Box ℚ) ⟨1, 2, 6, 6⟩ = ⟨1, 2, 4, 4⟩ ∧
    intersects exact (⟨0, 0, 4, 4⟩ : Box ℚ) ⟨1, 2, 6, 6⟩ = true ∧
    intersects exact (⟨0, 0, 4, 4⟩ : Box ℚ) ⟨4, 2, 6, 6⟩ = false ∧
    contains exact (⟨0, 0, 4, 4⟩ : Box ℚ) ⟨1, 2, 4, 3⟩ = true ∧
    unite (⟨0, 0, 4, 4⟩ : Box ℚ) ⟨1, -2, 6, 3⟩ = ⟨0, -2, 6, 4⟩ := by decide +kernel
example : (0 : ℚ) < 4 ∧ (0 : ℚ) < 4 := by decide +kernel

end DP3.ParmGrid
