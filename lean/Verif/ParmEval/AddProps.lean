import Verif.ParmEval.ScalarProps

/-!
# C191: values that are extended to a larger grid
-/

namespace DP3.ParmEval

open DP3.StringTools DP3.ParmGrid

set_option linter.unusedSectionVars false
set_option linter.unusedSimpArgs false

variable {K : Type} [Field K] [LinearOrder K] [IsStrictOrderedRing K]

private theorem copyLoop_spec {α : Type} (k n lo : Nat) (v : Nat → α) (hk : k < lo ∨ lo + n ≤ k) (i : Nat) :
    copyLoop k lo n v i = if lo ≤ i ∧ i < lo + n then v k else v i := by
  induction n generalizing lo v with
  | zero => rw [copyLoop, if_neg (by omega)]
  | succ n ih =>
    rw [copyLoop, ih (lo + 1) _ (by omega)]
    have hne : k ≠ lo := by omega
    simp only [hne, if_false]
    by_cases h1 : i = lo
    · rw [if_neg (by omega), if_pos h1, if_pos (by omega)]
    · rw [if_neg h1]
      by_cases h2 : lo + 1 ≤ i ∧ i < lo + 1 + n
      · rw [if_pos h2, if_pos (by omega)]
      · rw [if_neg h2, if_neg (by omega)]

/-- Both loops along an axis: all indices get the element of the nearest old index. -/
private theorem copy_both {α : Type} (cx : Combined K) (hse : cx.s1 < cx.e1) (v : Nat → α) (i : Nat)
    (hlo : i < cx.s1 → cx.s2 ≤ i) (hhi : cx.e1 ≤ i → i < cx.e2) :
    copyLoop (cx.e1 - 1) cx.e1 (cx.e2 - cx.e1) (copyLoop cx.s1 cx.s2 (cx.s1 - cx.s2) v) i =
      v (if i < cx.s1 then cx.s1 else if cx.e1 ≤ i then cx.e1 - 1 else i) := by
  rw [copyLoop_spec _ _ _ _ (by omega)]
  simp only [copyLoop_spec cx.s1 (cx.s1 - cx.s2) cx.s2 v (by omega)]
  by_cases h1 : i < cx.s1
  · have := hlo h1
    rw [if_pos h1, if_neg (by omega), if_pos (by omega)]
  · rw [if_neg h1]
    by_cases h2 : cx.e1 ≤ i
    · have := hhi h2
      rw [if_pos h2, if_pos (by omega), if_neg (by omega)]
    · rw [if_neg h2, if_neg (by omega), if_neg (by omega)]

private theorem valid_lt' {cells : Cells K} (hv : Valid cells) {i j : Nat} {c d : K × K} (hij : i < j)
    (hc : cells[i]? = some c) (hd : cells[j]? = some d) : c.2 ≤ d.1 := by
  obtain ⟨h1, rfl⟩ := List.getElem?_eq_some_iff.mp hc
  obtain ⟨h2, rfl⟩ := List.getElem?_eq_some_iff.mp hd
  exact List.pairwise_iff_getElem.mp hv.2.2 i j h1 h2 hij

private theorem holds_at {new old : Cells K} {s e : Nat} (h : Holds new s e old) (i : Nat) (hi : i < old.length) :
    new[s + i]? = old[i]? := by
  have := congrArg (fun l => l[i]?) h.2
  simp only [List.getElem?_take, if_pos hi, List.getElem?_drop] at this
  exact this

private theorem center_between {c : K × K} (h : c.1 < c.2) : c.1 < center c ∧ center c < c.2 := by
  unfold center
  constructor <;> linarith

/-- Along an axis that is combined: the old index that the loops take is the old cell that the new cell belongs
to, and the loops reach every new cell. -/
private theorem combined_nearest (a b : Cells K) (r : Combined K) (ha : Valid a) (hb : Valid b) (h : Combines a b r)
    (i : Nat) (c : K × K) (hc : r.axis.cells[i]? = some c) (k : Nat) (hk : Nearest a (center c) k) :
    (i < r.s1 → r.s2 ≤ i) ∧ (r.e1 ≤ i → i < r.e2) ∧ r.s1 < r.e1 ∧
    (if i < r.s1 then r.s1 else if r.e1 ≤ i then r.e1 - 1 else i) = r.s1 + k ∧ k < a.length := by
  obtain ⟨⟨hv, -⟩, -, h1, h2, h3⟩ := h
  have la := List.length_pos_iff.mpr ha.1
  have lb := List.length_pos_iff.mpr hb.1
  have hw := center_between (hv.2.1 c (List.mem_of_getElem? hc))
  have ea := h1.1
  have eb := h2.1
  have hkl : k < a.length := by
    obtain ⟨d, hd, -⟩ := hk
    exact (List.getElem?_eq_some_iff.mp hd).1
  -- the first and last old cells in the new axis
  have fa : r.axis.cells[r.s1]? = a[0]? := holds_at h1 0 la
  have ga : r.axis.cells[r.e1 - 1]? = a[a.length - 1]? := by
    rw [show r.e1 - 1 = r.s1 + (a.length - 1) by omega]; exact holds_at h1 _ (by omega)
  have fb : r.axis.cells[r.s2]? = b[0]? := holds_at h2 0 lb
  have gb : r.axis.cells[r.e2 - 1]? = b[b.length - 1]? := by
    rw [show r.e2 - 1 = r.s2 + (b.length - 1) by omega]; exact holds_at h2 _ (by omega)
  have a0 := List.getElem?_eq_getElem la
  have a1 : a[a.length - 1]? = some a[a.length - 1] := List.getElem?_eq_getElem (by omega)
  have b0 := List.getElem?_eq_getElem lb
  have b1 : b[b.length - 1]? = some b[b.length - 1] := List.getElem?_eq_getElem (by omega)
  rw [a0] at fa; rw [a1] at ga; rw [b0] at fb; rw [b1] at gb
  -- a hole is between both
  have lt_of : ∀ (m n : Nat) (p q : K × K), r.axis.cells[m]? = some p → r.axis.cells[n]? = some q → p.1 < q.2 → m ≤ n := by
    intro m n p q hp hq hlt
    by_contra hn
    have h5 := valid_lt' hv (by omega) hq hp
    exact absurd hlt (not_lt.mpr h5)
  have w0 := ha.2.1 _ (List.mem_of_getElem? a0)
  have w1 := ha.2.1 _ (List.mem_of_getElem? a1)
  have v0 := hb.2.1 _ (List.mem_of_getElem? b0)
  have v1 := hb.2.1 _ (List.mem_of_getElem? b1)
  have cw := hv.2.1 c (List.mem_of_getElem? hc)
  have hole1 : a.getLast?.map Prod.snd = some c.1 ∧ b.head?.map Prod.fst = some c.2 → r.e1 ≤ i ∧ i < r.s2 := by
    rintro ⟨e1, e2⟩
    rw [List.getLast?_eq_getElem?, a1] at e1
    rw [List.head?_eq_getElem?, b0] at e2
    simp only [Option.map_some, Option.some.injEq] at e1 e2
    constructor
    · by_contra hn
      have := lt_of (r.e1 - 1) i _ c ga hc (by rw [← e1] at cw; exact lt_trans w1 cw)
      have : i = r.e1 - 1 := by omega
      rw [this, ga] at hc
      obtain rfl := Option.some.inj hc
      rw [e1] at cw; exact absurd w1 (by rw [e1]; exact lt_irrefl _)
    · by_contra hn
      by_cases hi : i = r.s2
      · rw [hi, fb] at hc
        obtain rfl := Option.some.inj hc
        rw [e2] at v0; exact absurd v0 (lt_irrefl _)
      · have h5 := valid_lt' hv (show r.s2 < i by omega) fb hc
        rw [e2] at v0
        exact absurd (lt_of_lt_of_le v0 h5) (not_lt.mpr cw.le)
  have hole2 : b.getLast?.map Prod.snd = some c.1 ∧ a.head?.map Prod.fst = some c.2 → r.e2 ≤ i ∧ i < r.s1 := by
    rintro ⟨e1, e2⟩
    rw [List.getLast?_eq_getElem?, b1] at e1
    rw [List.head?_eq_getElem?, a0] at e2
    simp only [Option.map_some, Option.some.injEq] at e1 e2
    constructor
    · by_contra hn
      by_cases hi : i = r.e2 - 1
      · rw [hi, gb] at hc
        obtain rfl := Option.some.inj hc
        rw [e1] at v1; exact absurd v1 (lt_irrefl _)
      · have h5 := valid_lt' hv (show i < r.e2 - 1 by omega) hc gb
        rw [e1] at v1
        exact absurd (lt_of_le_of_lt h5 v1) (not_lt.mpr cw.le)
    · by_contra hn
      by_cases hi : i = r.s1
      · rw [hi, fa] at hc
        obtain rfl := Option.some.inj hc
        rw [e2] at w0; exact absurd w0 (lt_irrefl _)
      · have h5 := valid_lt' hv (show r.s1 < i by omega) fa hc
        rw [e2] at w0
        exact absurd (lt_of_lt_of_le w0 h5) (not_lt.mpr cw.le)
  have reach : (i < r.s1 → r.s2 ≤ i) ∧ (r.e1 ≤ i → i < r.e2) := by
    rcases h3 i c hc with h | h | h | h
    · omega
    · omega
    · have := hole1 h; omega
    · have := hole2 h; omega
  refine ⟨reach.1, reach.2, by omega, ?_, hkl⟩
  split_ifs with g1 g2
  · -- before the old cells
    have h5 := valid_lt' hv g1 hc fa
    have hn : Nearest a (center c) 0 :=
      ⟨_, a0, .inr (.inl ⟨lt_of_lt_of_le hw.2 h5, fun j d hj => absurd hj (by omega)⟩)⟩
    rw [nearest_unique a ha _ _ _ hk hn]; omega
  · -- after the old cells
    have h5 := valid_lt' hv (show r.e1 - 1 < i by omega) ga hc
    have hn : Nearest a (center c) (a.length - 1) := ⟨_, a1, .inr (.inr ⟨le_trans h5 hw.1.le, by omega⟩)⟩
    rw [nearest_unique a ha _ _ _ hk hn]; omega
  · have h5 := holds_at h1 (i - r.s1) (by omega)
    rw [show r.s1 + (i - r.s1) = i by omega, hc] at h5
    have hn : Nearest a (center c) (i - r.s1) := ⟨c, h5.symm, .inl ⟨hw.1.le, hw.2⟩⟩
    rw [nearest_unique a ha _ _ _ hk hn]; omega

/-- The extended values: every new cell has the value of the old cell that its center belongs to. -/
private theorem extend_spec {α : Type} (old : Nat → Nat → α) (ax ay bx by_ : Cells K) (cx cy : Combined K)
    (hax : Valid ax) (hay : Valid ay) (hbx : Valid bx) (hby : Valid by_) (hx : Combines ax bx cx)
    (hy : Combines ay by_ cy) (ix iy : Nat) (fx fy : K × K) (hfx : cx.axis.cells[ix]? = some fx)
    (hfy : cy.axis.cells[iy]? = some fy) (kx ky : Nat) (hkx : Nearest ax (center fx) kx)
    (hky : Nearest ay (center fy) ky) : extend old cx cy iy ix = some (old kx ky) := by
  obtain ⟨x1, x2, x3, x4, x5⟩ := combined_nearest ax bx cx hax hbx hx ix fx hfx kx hkx
  obtain ⟨y1, y2, y3, y4, y5⟩ := combined_nearest ay by_ cy hay hby hy iy fy hfy ky hky
  have ex := hx.2.2.1.1
  have ey := hy.2.2.1.1
  rw [extend, copy_both cy y3 _ iy y1 y2, y4, if_pos (by omega), extendX, copy_both cx x3 _ ix x1 x2, x4,
    if_pos (by omega)]
  congr 2 <;> omega

/-- C191: after scalars are extended, the grid is the combined one; an old cell has its value, and a new one the value
of the old cell that its center belongs to (the first or the last). The grids have to be such that they can be
combined, and the errors are not extended, see `errors_overrun`. -/
theorem add_scalars_partial (s t : PSet K) (v : PVal K) (rest : List (PVal K)) (solve : Grid K)
    (hv : s.values = v :: rest) (wx : v.grid.x.WF) (wy : v.grid.y.WF) (gx : Gapless v.grid.x.cells)
    (gy : Gapless v.grid.y.cells) (sx : solve.x.WF) (sy : solve.y.WF) (hx : Gapless solve.x.cells)
    (hy : Gapless solve.y.cells) (h : addScalars exact s solve = .ok t) :
    ∃ cx cy w, combine exact v.grid.x solve.x = .ok cx ∧ combine exact v.grid.y solve.y = .ok cy ∧
      t.values = w :: rest ∧ w.grid = ⟨cx.axis, cy.axis⟩ ∧ Combines v.grid.x.cells solve.x.cells cx ∧
      Combines v.grid.y.cells solve.y.cells cy ∧ w.values.nx = cx.axis.cells.length ∧
      w.values.ny = cy.axis.cells.length ∧
      ∀ ix iy fx fy, w.grid.x.cells[ix]? = some fx → w.grid.y.cells[iy]? = some fy → ∀ kx ky,
        Nearest v.grid.x.cells (center fx) kx → Nearest v.grid.y.cells (center fy) ky →
        w.values.at_ ix iy = v.values.at_ kx ky := by
  rw [addScalars, hv] at h
  simp only at h
  cases ex : combine exact v.grid.x solve.x with
  | error e => rw [ex] at h; cases h
  | ok cx =>
    cases ey : combine exact v.grid.y solve.y with
    | error e => rw [ex, ey] at h; cases h
    | ok cy =>
      rw [ex, ey] at h
      simp only at h
      split at h
      · cases h
      · obtain rfl := Except.ok.inj h
        have cx' := combine_spec_partial _ _ wx sx gx hx cx ex
        have cy' := combine_spec_partial _ _ wy sy gy hy cy ey
        refine ⟨cx, cy, _, rfl, rfl, rfl, rfl, cx', cy', rfl, rfl, ?_⟩
        intro ix iy fx fy hfx hfy kx ky hkx hky
        dsimp only
        rw [extend_spec v.values.at_ _ _ _ _ cx cy wx.1 wy.1 sx.1 sy.1 cx' cy' ix iy fx fy hfx hfy kx ky hkx hky]
        rfl

/-- C191: after coefficients are extended, a cell of the combined grid has the ParmValue of the old cell that its
center belongs to: an old cell keeps its own. -/
theorem add_coeff_partial (s t : PSet K) (solve : Grid K) (wx : s.grid.x.WF) (wy : s.grid.y.WF)
    (gx : Gapless s.grid.x.cells) (gy : Gapless s.grid.y.cells) (sx : solve.x.WF) (sy : solve.y.WF)
    (hx : Gapless solve.x.cells) (hy : Gapless solve.y.cells)
    (hl : s.values.length = s.grid.x.cells.length * s.grid.y.cells.length)
    (h : addCoeff exact s solve = .ok t) :
    ∃ cx cy, combine exact s.grid.x solve.x = .ok cx ∧ combine exact s.grid.y solve.y = .ok cy ∧
      t.grid = ⟨cx.axis, cy.axis⟩ ∧ Combines s.grid.x.cells solve.x.cells cx ∧
      Combines s.grid.y.cells solve.y.cells cy ∧
      t.values.length = cx.axis.cells.length * cy.axis.cells.length ∧
      ∀ ix iy fx fy, t.grid.x.cells[ix]? = some fx → t.grid.y.cells[iy]? = some fy → ∀ kx ky,
        Nearest s.grid.x.cells (center fx) kx → Nearest s.grid.y.cells (center fy) ky →
        t.values[ix + iy * t.grid.x.cells.length]? = s.values[kx + ky * s.grid.x.cells.length]? := by
  rw [addCoeff] at h
  cases ex : combine exact s.grid.x solve.x with
  | error e => rw [ex] at h; cases h
  | ok cx =>
    cases ey : combine exact s.grid.y solve.y with
    | error e => rw [ex, ey] at h; cases h
    | ok cy =>
      rw [ex, ey] at h
      simp only at h
      obtain rfl := Except.ok.inj h
      have cx' := combine_spec_partial _ _ wx sx gx hx cx ex
      have cy' := combine_spec_partial _ _ wy sy gy hy cy ey
      refine ⟨cx, cy, rfl, rfl, rfl, cx', cy', by simp, ?_⟩
      intro ix iy fx fy hfx hfy kx ky hkx hky
      dsimp only at hfx hfy ⊢
      have lx := (List.getElem?_eq_some_iff.mp hfx).1
      have ly := (List.getElem?_eq_some_iff.mp hfy).1
      obtain ⟨-, -, -, -, kl⟩ := combined_nearest _ _ cx wx.1 sx.1 cx' ix fx hfx kx hkx
      obtain ⟨-, -, -, -, ml⟩ := combined_nearest _ _ cy wy.1 sy.1 cy' iy fy hfy ky hky
      have hi : ix + iy * cx.axis.cells.length < cx.axis.cells.length * cy.axis.cells.length := by
        have := Nat.mul_le_mul_left cx.axis.cells.length (show iy + 1 ≤ cy.axis.cells.length by omega)
        rw [Nat.mul_add, Nat.mul_one] at this
        rw [Nat.mul_comm iy]
        omega
      have hj : kx + ky * s.grid.x.cells.length < s.values.length := by
        rw [hl]
        have := Nat.mul_le_mul_left s.grid.x.cells.length (show ky + 1 ≤ s.grid.y.cells.length by omega)
        rw [Nat.mul_add, Nat.mul_one] at this
        rw [Nat.mul_comm ky]
        omega
      rw [List.getElem?_map, List.getElem?_range hi, Option.map_some,
        show (ix + iy * cx.axis.cells.length) / cx.axis.cells.length = iy by
          rw [Nat.add_mul_div_right _ _ (by omega), Nat.div_eq_of_lt lx, Nat.zero_add],
        show (ix + iy * cx.axis.cells.length) % cx.axis.cells.length = ix by
          rw [Nat.add_mul_mod_self_right, Nat.mod_eq_of_lt lx],
        extend_spec _ _ _ _ _ cx cy wx.1 wy.1 sx.1 sy.1 cx' cy' ix iy fx fy hfx hfy kx ky hkx hky, Option.getD_some,
        show cx.e1 - cx.s1 = s.grid.x.cells.length by rw [cx'.2.2.1.1]; omega, List.getElem?_eq_getElem hj]
      simp [List.getD_eq_getElem?_getD, List.getElem?_eq_getElem hj]

/-- C191: grids whose axes are parts of the axes of one grid can always be combined. -/
theorem add_scalars_fits (s : PSet K) (v : PVal K) (rest : List (PVal K)) (solve : Grid K) (hv : s.values = v :: rest)
    (wx : v.grid.x.WF) (wy : v.grid.y.WF) (gx : Gapless v.grid.x.cells) (gy : Gapless v.grid.y.cells) (sx : solve.x.WF)
    (sy : solve.y.WF) (hx : Gapless solve.x.cells) (hy : Gapless solve.y.cells) (cx cy : Cells K) (vx : Valid cx)
    (vy : Valid cy) (p q m n : Nat) (h1 : Holds cx p (p + v.grid.x.cells.length) v.grid.x.cells)
    (h2 : Holds cx q (q + solve.x.cells.length) solve.x.cells)
    (h3 : Holds cy m (m + v.grid.y.cells.length) v.grid.y.cells)
    (h4 : Holds cy n (n + solve.y.cells.length) solve.y.cells) : ∃ t, addScalars exact s solve = .ok t := by
  obtain ⟨rx, ex⟩ := combine_fits cx vx _ _ wx sx p q h1 h2
  obtain ⟨ry, ey⟩ := combine_fits cy vy _ _ wy sy m n h3 h4
  have nx := (combine_spec_partial _ _ wx sx gx hx rx ex).1.1.1
  have ny := (combine_spec_partial _ _ wy sy gy hy ry ey).1.1.1
  rw [addScalars, hv]
  simp only
  rw [ex, ey]
  simp only
  rw [boundingBox]
  cases hcx : rx.axis.cells with
  | nil => exact absurd hcx nx
  | cons a l =>
    cases hcy : ry.axis.cells with
    | nil => exact absurd hcy ny
    | cons b l' =>
      rw [List.getLast?_eq_getLast_of_ne_nil (List.cons_ne_nil a l),
        List.getLast?_eq_getLast_of_ne_nil (List.cons_ne_nil b l')]
      exact ⟨_, rfl⟩

/-! ## Examples -/

/-- Two scalars with errors on a grid from 2 till 4. -/
def addSet : PSet ℚ :=
  ⟨true, 1, false, none, ⟨regularAxis 2 2 1, regularAxis 0 1 1⟩,
    [⟨⟨regularAxis 2 1 2, regularAxis 0 1 1⟩, ⟨2, 1, fun i _ => if i = 0 then 5 else 6⟩,
      some ⟨2, 1, fun _ _ => 1⟩⟩], ⟨defaultGrid, ⟨1, 1, fun _ _ => 0⟩, none⟩, ⟨0, 0, 0, 0⟩⟩

/-- A solve grid from 6 till 8: there is a hole before it. -/
def addSolve : Grid ℚ := ⟨regularAxis 6 1 2, regularAxis 0 1 1⟩

/-- A solve grid around the values. -/
def addAround : Grid ℚ := ⟨regularAxis 0 1 5, regularAxis 0 1 1⟩

example : ((setSolveGrid exact addSet addSolve).map fun t => t.values.map fun v => ((v.grid.x.cells : List (ℚ × ℚ)), [v.values.flat 0,
    v.values.flat 1, v.values.flat 2, v.values.flat 3, v.values.flat 4])) =
    .ok [([(2, 3), (3, 4), (4, 6), (6, 7), (7, 8)], [5, 6, 6, 6, 6])] := by decide +kernel

example : ((setSolveGrid exact addSet addAround).map fun t => t.values.map fun v => ((v.grid.x.cells : List (ℚ × ℚ)), [v.values.flat 0,
    v.values.flat 1, v.values.flat 2, v.values.flat 3, v.values.flat 4])) =
    .ok [([(0, 1), (1, 2), (2, 3), (3, 4), (4, 5)], [5, 5, 5, 6, 6])] := by decide +kernel

/-- C191: after an extension the errors have the old shape, so that setting a solution with an error at a new cell
writes outside of the errors. Without errors it is set. -/
theorem errors_overrun :
    ((setSolveGrid exact addSet addSolve).bind fun t =>
      (setCoeff exact t [] addSolve (1, 0) [9] (some [1]) false).map fun _ => ()) = .error .ub ∧
    ((setSolveGrid exact addSet addSolve).bind fun t =>
      (setCoeff exact t [] addSolve (1, 0) [9] none false).map fun r => r.1.values.map fun v => v.values.flat 4)
      = .ok [9] := by decide +kernel

/-- C191: a solve grid inside of the domain of the values is accepted although its cells are not those of the values
(`checkGrid` only has assertions): here three solve cells share two values, and setting the solution of the second
cell changes that of the third. -/
theorem grid_not_checked :
    let solve : Grid ℚ := ⟨regularAxis 2 (2 / 3) 3, regularAxis 0 1 1⟩
    (setSolveGrid exact addSet solve).map (fun t => t.values.length) = .ok 1 ∧
    ((setSolveGrid exact addSet solve).bind fun t => (setCoeff exact t [] solve (1, 0) [9] none false).bind fun r =>
      getCoeff exact r.1 solve (2, 0) false) = .ok [9] := by decide +kernel

end DP3.ParmEval
