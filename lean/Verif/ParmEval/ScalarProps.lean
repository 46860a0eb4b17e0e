import Verif.ParmEval.CoeffProps

/-!
# C190: the values of parameters that are scalars
-/

namespace DP3.ParmEval

open DP3.StringTools DP3.ParmGrid

set_option linter.unusedSectionVars false
set_option linter.unusedSimpArgs false

variable {K : Type} [Field K] [LinearOrder K] [IsStrictOrderedRing K]

/-- C190: with one ParmValue the result for a cell of the predict grid is the value of the cell that its center
belongs to: the one that contains it; outside of the cells the next one or the last one. -/
theorem result_single (v : PVal K) (predict : Grid K) (hx : Valid v.grid.x.cells) (hy : Valid v.grid.y.cells)
    (ix iy : Nat) (fx fy : K × K) (hfx : predict.x.cells[ix]? = some fx) (hfy : predict.y.cells[iy]? = some fy)
    (kx ky : Nat) (hkx : Nearest v.grid.x.cells (center fx) kx) (hky : Nearest v.grid.y.cells (center fy) ky) :
    resultSingle exact v predict ix iy = .ok (v.values.at_ kx ky) := by
  obtain ⟨mx, ex, -⟩ := mapping_spec predict.x.cells v.grid.x.cells hx
  obtain ⟨my, ey, -⟩ := mapping_spec predict.y.cells v.grid.y.cells hy
  obtain ⟨tx, htx, hx'⟩ := hkx
  obtain ⟨ty, hty, hy'⟩ := hky
  have h1 := mapping_at _ _ hx mx ex ix fx hfx kx ⟨tx, htx, hx'⟩ tx htx
  have h2 := mapping_at _ _ hy my ey iy fy hfy ky ⟨ty, hty, hy'⟩ ty hty
  simp only [resultSingle, ex, ey, h1, h2]

/-- A cell contains a value. -/
def Has (cells : Cells K) (x : K) (i : Nat) : Prop := ∃ c, cells[i]? = some c ∧ In true x c

private theorem has_locate {cells : Cells K} (hv : Valid cells) {x : K} {i : Nat} (h : Has cells x i) (hint : Nat) :
    locate exact cells x true hint = .ok i := by
  obtain ⟨c, h1, h2⟩ := h
  exact locate_inside cells hv x true hint i c h1 h2

private theorem has_unique {cells : Cells K} (hv : Valid cells) {x : K} {i j : Nat} (h1 : Has cells x i)
    (h2 : Has cells x j) : i = j := by
  have := (has_locate hv h1 0).symm.trans (has_locate hv h2 0)
  exact Except.ok.inj this

private theorem has_nearest {cells : Cells K} {x : K} {i : Nat} (h : Has cells x i) : Nearest cells x i := by
  obtain ⟨c, h1, h2⟩ := h
  exact ⟨c, h1, .inl h2⟩

private theorem locateLoop_spec (cells : Cells K) (hv : Valid cells) (xs : List K) (h : ∀ x ∈ xs, ∃ i, Has cells x i)
    (hint : Nat) : ∃ r, locateLoop exact cells xs hint = .ok r ∧ List.Forall₂ (Has cells) xs r.1 := by
  induction xs generalizing hint with
  | nil => exact ⟨([], hint), rfl, .nil⟩
  | cons x xs ih =>
    obtain ⟨i, hi⟩ := h x (by simp)
    obtain ⟨r, hr, h2⟩ := ih (fun y hy => h y (by simp [hy])) i
    rw [locateLoop, has_locate hv hi hint]
    simp only
    rw [hr]
    exact ⟨_, rfl, .cons hi h2⟩

private theorem fillRows_spec (v : PVal K) (hx : Valid v.grid.x.cells) (hy : Valid v.grid.y.cells) (stx : Nat)
    (xs : List K) (hxs : ∀ x ∈ xs, ∃ i, Has v.grid.x.cells x i) (ys : List K)
    (hys : ∀ y ∈ ys, ∃ j, Has v.grid.y.cells y j) (iy hy0 hx0 : Nat) :
    ∃ w, fillRows exact v stx xs iy hy0 hx0 ys = .ok w ∧ ∀ a b z, (a, b, z) ∈ w ↔
      ∃ k l x y i j, a = stx + k ∧ b = iy + l ∧ xs[k]? = some x ∧ ys[l]? = some y ∧ Has v.grid.x.cells x i ∧
        Has v.grid.y.cells y j ∧ z = v.values.at_ i j := by
  induction ys generalizing iy hy0 hx0 with
  | nil => exact ⟨[], rfl, by simp⟩
  | cons y ys ih =>
    obtain ⟨j, hj⟩ := hys y (by simp)
    obtain ⟨r, hr, h1⟩ := locateLoop_spec v.grid.x.cells hx xs hxs hx0
    obtain ⟨w, hw, h2⟩ := ih (fun y hy => hys y (by simp [hy])) (iy + 1) j r.2
    rw [fillRows, has_locate hy hj]
    simp only
    rw [hr]
    simp only
    rw [hw]
    refine ⟨_, rfl, ?_⟩
    intro a b z
    rw [List.mem_append, h2, List.mem_mapIdx]
    constructor
    · rintro (⟨k, hk, e⟩ | ⟨k, l, x, y', i, j', e1, e2, e3, e4, e5⟩)
      · simp only [Prod.mk.injEq] at e
        have hlen := h1.length_eq
        have hk' : k < xs.length := by omega
        obtain ⟨i, hi, hi2⟩ := forall₂_at h1 (List.getElem?_eq_getElem hk')
        rw [List.getElem?_eq_getElem hk] at hi
        obtain rfl := Option.some.inj hi
        exact ⟨k, 0, _, y, _, j, e.1.symm, e.2.1.symm, List.getElem?_eq_getElem hk', by simp, hi2, hj, e.2.2.symm⟩
      · exact ⟨k, l + 1, x, y', i, j', e1, by omega, e3, by simpa using e4, e5⟩
    · rintro ⟨k, l, x, y', i, j', e1, e2, e3, e4, e5, e6, e7⟩
      cases l with
      | zero =>
        simp only [List.getElem?_cons_zero, Option.some.injEq] at e4
        subst e4
        obtain rfl := has_unique hy hj e6
        obtain ⟨i', hi, hi2⟩ := forall₂_at h1 e3
        obtain rfl := has_unique hx hi2 e5
        obtain ⟨hlt, hi⟩ := List.getElem?_eq_some_iff.mp hi
        refine .inl ⟨k, hlt, ?_⟩
        rw [hi, e1, e2, e7]
        rfl
      | succ l => exact .inr ⟨k, l, x, y', i, j', e1, by omega, e3, by simpa using e4, e5, e6, e7⟩

private theorem centers_at (cells : Cells K) (st en k : Nat) :
    (centers cells st en)[k]? = if st + k < en then cells[st + k]?.map center else none := by
  rw [centers, List.getElem?_map, List.getElem?_drop, List.getElem?_take]
  split_ifs <;> rfl

private theorem parts_spec (st n : Nat) (bs : List Nat) (h1 : bs.Pairwise (· < ·)) (h2 : ∀ b ∈ bs, st < b)
    (h3 : bs.getLast? = some n) :
    (∀ k, st ≤ k → k < n → ∃ p ∈ parts st bs, p.1 ≤ k ∧ k < p.2) ∧
    ∀ p ∈ parts st bs, st ≤ p.1 ∧ p.1 < p.2 ∧ p.2 ≤ n ∧ ∀ b ∈ bs, ¬ (p.1 < b ∧ b < p.2) := by
  induction bs generalizing st with
  | nil => cases h3
  | cons b bs ih =>
    obtain ⟨hb, h1⟩ := List.pairwise_cons.mp h1
    have hst := h2 b (by simp)
    cases bs with
    | nil =>
      simp at h3; subst h3
      refine ⟨fun k hk hn => ⟨(st, b), by simp [parts], hk, hn⟩, ?_⟩
      intro p hp
      simp only [parts, List.mem_singleton] at hp
      subst hp
      refine ⟨le_refl _, hst, le_refl _, ?_⟩
      intro b' hb'
      rw [List.mem_singleton] at hb'
      dsimp only; omega
    | cons b2 bs =>
      obtain ⟨i1, i2⟩ := ih b h1 hb (by simpa using h3)
      refine ⟨?_, ?_⟩
      · intro k hk hn
        by_cases hkb : k < b
        · exact ⟨(st, b), by simp [parts], hk, hkb⟩
        · obtain ⟨p, hp, h⟩ := i1 k (by omega) hn
          exact ⟨p, by rw [parts]; exact List.mem_cons_of_mem _ hp, h⟩
      · intro p hp
        rw [parts] at hp
        rcases List.mem_cons.mp hp with rfl | hp
        · refine ⟨le_refl _, hst, ?_, ?_⟩
          · have hm : n ∈ b2 :: bs := by
              rw [List.getLast?_cons_cons] at h3
              exact List.mem_of_getLast? h3
            exact (hb n hm).le
          · intro b' hb'
            rcases List.mem_cons.mp hb' with rfl | hb'
            · dsimp only; omega
            · have := hb b' hb'
              dsimp only; omega
        · obtain ⟨j1, j2, j3, j4⟩ := i2 p hp
          refine ⟨by omega, j2, j3, ?_⟩
          intro b' hb'
          rcases List.mem_cons.mp hb' with rfl | hb'
          · omega
          · exact j4 b' hb'

/-- The parts of an axis that a mapping gives: each cell is in one, and all cells of a part are mapped to the cell
that the first one is mapped to. -/
private theorem mapping_parts (src dst : Cells K) (hv : Valid dst) (hs : src ≠ []) (m : AxisMap K)
    (h : axisMapping exact src dst = .ok m) :
    (∀ k, k < src.length → ∃ p ∈ parts 0 m.borders, p.1 ≤ k ∧ k < p.2) ∧
    ∀ p ∈ parts 0 m.borders, p.1 < p.2 ∧ p.2 ≤ src.length ∧
      ∀ k, p.1 ≤ k → k < p.2 → m.cells[k]?.map Prod.fst = m.cells[p.1]?.map Prod.fst := by
  obtain ⟨h1, h2, h3⟩ := mapping_borders src dst exact m h hs
  obtain ⟨m', e, -, h4⟩ := mapping_spec src dst hv
  rw [h] at e
  obtain rfl := Except.ok.inj e
  obtain ⟨g1, g2⟩ := parts_spec 0 src.length m.borders h1 h2 h3
  refine ⟨fun k hk => g1 k (by omega) hk, ?_⟩
  intro p hp
  obtain ⟨-, j2, j3, j4⟩ := g2 p hp
  refine ⟨j2, j3, ?_⟩
  intro k hk1 hk2
  induction k with
  | zero => rw [Nat.le_zero.mp hk1]
  | succ k ih =>
    by_cases he : p.1 = k + 1
    · rw [he]
    · rw [← ih (by omega) (by omega)]
      by_contra hne
      exact j4 (k + 1) ((h4 (k + 1)).mpr (.inr ⟨k, rfl, by omega, hne⟩)) ⟨by omega, hk2⟩

/-- The value that a cell of the predict grid gets from a set of ParmValues, each with its own grid: of the ParmValue
of the cell of the domain grid that the center belongs to, the value of the cell that contains the center. -/
def Held (s : PSet K) (predict : Grid K) (ix iy : Nat) (z : K) : Prop :=
  ∃ fx fy kx ky v i j, predict.x.cells[ix]? = some fx ∧ predict.y.cells[iy]? = some fy ∧
    Nearest s.grid.x.cells (center fx) kx ∧ Nearest s.grid.y.cells (center fy) ky ∧
    s.values[kx + s.grid.x.cells.length * ky]? = some v ∧
    Has v.grid.x.cells (center fx) i ∧ Has v.grid.y.cells (center fy) j ∧ z = v.values.at_ i j

private theorem mapped (src dst : Cells K) (hv : Valid dst) (m : AxisMap K) (h : axisMapping exact src dst = .ok m)
    (i : Nat) (f : K × K) (hf : src[i]? = some f) : ∃ a, m.cells[i]? = some a ∧ Nearest dst (center f) a.1 := by
  obtain ⟨m', e, h1, -⟩ := mapping_spec src dst hv
  rw [h] at e
  obtain rfl := Except.ok.inj e
  obtain ⟨a, ha, hn, -⟩ := forall₂_at h1 hf
  exact ⟨a, ha, hn⟩

/-- C190 (for predict cells whose center is outside of all cells see `outside_differs`): if the center of every cell
of the predict grid is in a cell of the ParmValue that it belongs to, the result with more ParmValues has for every
cell of the predict grid the value of that cell. -/
theorem result_multi_partial (s : PSet K) (predict : Grid K) (hx : Valid s.grid.x.cells) (hy : Valid s.grid.y.cells)
    (hv : ∀ v ∈ s.values, Valid v.grid.x.cells ∧ Valid v.grid.y.cells) (px : predict.x.cells ≠ [])
    (py : predict.y.cells ≠ [])
    (hin : ∀ ix iy, ix < predict.x.cells.length → iy < predict.y.cells.length → ∃ z, Held s predict ix iy z) :
    ∃ w, resultMulti exact s predict = .ok w ∧ ∀ ix iy z, (ix, iy, z) ∈ w ↔ Held s predict ix iy z := by
  obtain ⟨mx, ex, -⟩ := mapping_spec predict.x.cells s.grid.x.cells hx
  obtain ⟨my, ey, -⟩ := mapping_spec predict.y.cells s.grid.y.cells hy
  obtain ⟨cx, ux⟩ := mapping_parts _ _ hx px mx ex
  obtain ⟨cy, uy⟩ := mapping_parts _ _ hy py my ey
  -- one part
  have part : ∀ qy ∈ parts 0 my.borders, ∀ qx ∈ parts 0 mx.borders,
      ∃ w, (match mx.cells[qx.1]?, my.cells[qy.1]? with
        | some a, some b =>
          match s.values[a.1 + s.grid.x.cells.length * b.1]? with
          | some v => fillArrayPV exact v predict qx.1 qy.1 qx.2 qy.2
          | none => .error .ub
        | _, _ => .error .ub) = .ok w ∧
      ∀ a b z, (a, b, z) ∈ w ↔ (qx.1 ≤ a ∧ a < qx.2) ∧ (qy.1 ≤ b ∧ b < qy.2) ∧ Held s predict a b z := by
    intro qy hqy qx hqx
    obtain ⟨x1, x2, x3⟩ := ux qx hqx
    obtain ⟨y1, y2, y3⟩ := uy qy hqy
    have lx : qx.1 < predict.x.cells.length := by omega
    have ly : qy.1 < predict.y.cells.length := by omega
    obtain ⟨a, ha, na⟩ := mapped _ _ hx mx ex qx.1 _ (List.getElem?_eq_getElem lx)
    obtain ⟨b, hb, nb⟩ := mapped _ _ hy my ey qy.1 _ (List.getElem?_eq_getElem ly)
    have nx : ∀ k f, qx.1 ≤ k → k < qx.2 → predict.x.cells[k]? = some f → Nearest s.grid.x.cells (center f) a.1 := by
      intro k f k1 k2 hf
      obtain ⟨c, hc, nc⟩ := mapped _ _ hx mx ex k f hf
      have := x3 k k1 k2
      rw [hc, ha] at this
      simp only [Option.map_some, Option.some.injEq] at this
      rw [← this]; exact nc
    have ny : ∀ k f, qy.1 ≤ k → k < qy.2 → predict.y.cells[k]? = some f → Nearest s.grid.y.cells (center f) b.1 := by
      intro k f k1 k2 hf
      obtain ⟨c, hc, nc⟩ := mapped _ _ hy my ey k f hf
      have := y3 k k1 k2
      rw [hc, hb] at this
      simp only [Option.map_some, Option.some.injEq] at this
      rw [← this]; exact nc
    obtain ⟨v, hv'⟩ : ∃ v, s.values[a.1 + s.grid.x.cells.length * b.1]? = some v := by
      obtain ⟨z, fx, fy, kx, ky, v, i, j, e1, e2, e3, e4, e5, -⟩ := hin qx.1 qy.1 lx ly
      refine ⟨v, ?_⟩
      rw [← nearest_unique _ hx _ _ _ e3 (nx qx.1 fx le_rfl x1 e1),
        ← nearest_unique _ hy _ _ _ e4 (ny qy.1 fy le_rfl y1 e2)]
      exact e5
    obtain ⟨vx, vy⟩ := hv v (List.mem_of_getElem? hv')
    -- a held value of this part is of this ParmValue
    have held : ∀ k l fx fy, qx.1 ≤ k → k < qx.2 → qy.1 ≤ l → l < qy.2 → predict.x.cells[k]? = some fx →
        predict.y.cells[l]? = some fy → ∃ i j, Has v.grid.x.cells (center fx) i ∧ Has v.grid.y.cells (center fy) j := by
      intro k l fx fy k1 k2 l1 l2 hfx hfy
      obtain ⟨z, fx', fy', kx, ky, v', i, j, e1, e2, e3, e4, e5, e6, e7, -⟩ := hin k l (by omega) (by omega)
      rw [hfx] at e1; obtain rfl := Option.some.inj e1
      rw [hfy] at e2; obtain rfl := Option.some.inj e2
      rw [nearest_unique _ hx _ _ _ e3 (nx k fx k1 k2 hfx), nearest_unique _ hy _ _ _ e4 (ny l fy l1 l2 hfy), hv'] at e5
      obtain rfl := Option.some.inj e5
      exact ⟨i, j, e6, e7⟩
    have cxs : ∀ k x, (centers predict.x.cells qx.1 qx.2)[k]? = some x ↔
        qx.1 + k < qx.2 ∧ ∃ f, predict.x.cells[qx.1 + k]? = some f ∧ x = center f := by
      intro k x
      rw [centers_at]
      split_ifs with hk
      · rw [Option.map_eq_some_iff]
        constructor
        · rintro ⟨f, h1, h2⟩; exact ⟨hk, f, h1, h2.symm⟩
        · rintro ⟨-, f, h1, h2⟩; exact ⟨f, h1, h2.symm⟩
      · constructor
        · intro h; cases h
        · rintro ⟨h, -⟩; exact absurd h hk
    have cys : ∀ k y, (centers predict.y.cells qy.1 qy.2)[k]? = some y ↔
        qy.1 + k < qy.2 ∧ ∃ f, predict.y.cells[qy.1 + k]? = some f ∧ y = center f := by
      intro k x
      rw [centers_at]
      split_ifs with hk
      · rw [Option.map_eq_some_iff]
        constructor
        · rintro ⟨f, h1, h2⟩; exact ⟨hk, f, h1, h2.symm⟩
        · rintro ⟨-, f, h1, h2⟩; exact ⟨f, h1, h2.symm⟩
      · constructor
        · intro h; cases h
        · rintro ⟨h, -⟩; exact absurd h hk
    obtain ⟨w, hw, h⟩ := fillRows_spec v vx vy qx.1 (centers predict.x.cells qx.1 qx.2) (by
        intro x hx'
        obtain ⟨k, hk⟩ := List.mem_iff_getElem?.mp hx'
        obtain ⟨h1, f, h2, rfl⟩ := (cxs k x).mp hk
        obtain ⟨i, j, h3, -⟩ := held _ qy.1 f _ (by omega) h1 le_rfl y1 h2 (List.getElem?_eq_getElem ly)
        exact ⟨i, h3⟩) (centers predict.y.cells qy.1 qy.2) (by
        intro y hy'
        obtain ⟨k, hk⟩ := List.mem_iff_getElem?.mp hy'
        obtain ⟨h1, f, h2, rfl⟩ := (cys k y).mp hk
        obtain ⟨i, j, -, h3⟩ := held qx.1 _ _ f le_rfl x1 (by omega) h1 (List.getElem?_eq_getElem lx) h2
        exact ⟨j, h3⟩) qy.1 0 0
    refine ⟨w, ?_, ?_⟩
    · rw [ha, hb]
      simp only
      rw [hv']
      exact hw
    · intro ax ay z
      rw [h]
      constructor
      · rintro ⟨k, l, x, y, i, j, e1, e2, e3, e4, e5, e6, e7⟩
        obtain ⟨g1, fx, g2, rfl⟩ := (cxs k x).mp e3
        obtain ⟨g3, fy, g4, rfl⟩ := (cys l y).mp e4
        refine ⟨⟨by omega, by omega⟩, ⟨by omega, by omega⟩, fx, fy, a.1, b.1, v, i, j, by rw [e1]; exact g2,
          by rw [e2]; exact g4, nx _ fx (by omega) g1 g2, ny _ fy (by omega) g3 g4, hv', e5, e6, e7⟩
      · rintro ⟨⟨k1, k2⟩, ⟨l1, l2⟩, fx, fy, kx, ky, v', i, j, e1, e2, e3, e4, e5, e6, e7, e8⟩
        rw [nearest_unique _ hx _ _ _ e3 (nx ax fx k1 k2 e1), nearest_unique _ hy _ _ _ e4 (ny ay fy l1 l2 e2), hv'] at e5
        obtain rfl := Option.some.inj e5
        refine ⟨ax - qx.1, ay - qy.1, center fx, center fy, i, j, by omega, by omega, (cxs _ _).mpr ⟨by omega, fx, ?_, rfl⟩,
          (cys _ _).mpr ⟨by omega, fy, ?_, rfl⟩, e6, e7, e8⟩
        · rw [show qx.1 + (ax - qx.1) = ax by omega]; exact e1
        · rw [show qy.1 + (ay - qy.1) = ay by omega]; exact e2
  rw [resultMulti, ex, ey]
  simp only
  obtain ⟨w, hw⟩ := collect_of (fun py : Nat × Nat =>
      collect (fun px : Nat × Nat =>
        match mx.cells[px.1]?, my.cells[py.1]? with
        | some a, some b =>
          match s.values[a.1 + s.grid.x.cells.length * b.1]? with
          | some v => fillArrayPV exact v predict px.1 py.1 px.2 py.2
          | none => .error .ub
        | _, _ => .error .ub) (parts 0 mx.borders)) (parts 0 my.borders) (fun qy hqy => collect_of _ _ fun qx hqx =>
          let ⟨w, h, _⟩ := part qy hqy qx hqx; ⟨w, h⟩)
  refine ⟨w, hw, ?_⟩
  obtain ⟨ws, h1, rfl⟩ := collect_ok _ _ _ hw
  intro ix iy z
  rw [List.mem_flatten]
  constructor
  · rintro ⟨r, hr, hz⟩
    obtain ⟨n, hn⟩ := List.mem_iff_getElem?.mp hr
    have hl : n < (parts 0 my.borders).length := by
      rw [h1.length_eq]; exact (List.getElem?_eq_some_iff.mp hn).1
    obtain ⟨r', e1, e2⟩ := forall₂_at h1 (List.getElem?_eq_getElem hl)
    rw [hn] at e1; obtain rfl := Option.some.inj e1
    obtain ⟨us, h2, rfl⟩ := collect_ok _ _ _ e2
    obtain ⟨u, hu, hz⟩ := List.mem_flatten.mp hz
    obtain ⟨n', hn'⟩ := List.mem_iff_getElem?.mp hu
    have hl' : n' < (parts 0 mx.borders).length := by
      rw [h2.length_eq]; exact (List.getElem?_eq_some_iff.mp hn').1
    obtain ⟨u', e3, e4⟩ := forall₂_at h2 (List.getElem?_eq_getElem hl')
    rw [hn'] at e3; obtain rfl := Option.some.inj e3
    obtain ⟨w', e5, e6⟩ := part _ (List.getElem_mem hl) _ (List.getElem_mem hl')
    have := Except.ok.inj (e5.symm.trans e4)
    subst this
    exact ((e6 ix iy z).mp hz).2.2
  · intro hh
    have hb : ix < predict.x.cells.length ∧ iy < predict.y.cells.length := by
      obtain ⟨fx, fy, -, -, -, -, -, e1, e2, -⟩ := hh
      exact ⟨(List.getElem?_eq_some_iff.mp e1).1, (List.getElem?_eq_some_iff.mp e2).1⟩
    obtain ⟨qx, hqx, bx⟩ := cx ix hb.1
    obtain ⟨qy, hqy, bb⟩ := cy iy hb.2
    obtain ⟨n, hn⟩ := List.mem_iff_getElem?.mp hqy
    obtain ⟨n', hn'⟩ := List.mem_iff_getElem?.mp hqx
    obtain ⟨r, e1, e2⟩ := forall₂_at h1 hn
    obtain ⟨us, h2, rfl⟩ := collect_ok _ _ _ e2
    obtain ⟨u, e3, e4⟩ := forall₂_at h2 hn'
    obtain ⟨w', e5, e6⟩ := part _ hqy _ hqx
    have := Except.ok.inj (e5.symm.trans e4)
    subst this
    exact ⟨_, List.mem_of_getElem? e1, List.mem_flatten.mpr ⟨_, List.mem_of_getElem? e3, (e6 ix iy z).mpr ⟨bx, bb, hh⟩⟩⟩

/-! ## An example -/

/-- Two scalars in x, from 0 till 1 and from 1 till 2. -/
def onePv : PVal ℚ := ⟨⟨regularAxis 0 1 2, regularAxis 0 1 1⟩, ⟨2, 1, fun i _ => if i = 0 then 5 else 6⟩, none⟩

/-- The same two scalars, as two ParmValues. -/
def twoPv : PSet ℚ :=
  ⟨true, 1, false, none, ⟨regularAxis 0 1 2, regularAxis 0 1 1⟩,
    [⟨⟨regularAxis 0 1 1, regularAxis 0 1 1⟩, ⟨1, 1, fun _ _ => 5⟩, none⟩,
     ⟨⟨regularAxis 1 1 1, regularAxis 0 1 1⟩, ⟨1, 1, fun _ _ => 6⟩, none⟩],
    ⟨defaultGrid, ⟨1, 1, fun _ _ => 0⟩, none⟩, ⟨0, 0, 0, 0⟩⟩

def insideGrid : Grid ℚ := ⟨regularAxis 0 (1 / 2) 4, regularAxis 0 1 1⟩
def outsideGrid : Grid ℚ := ⟨regularAxis 0 1 3, regularAxis 0 1 1⟩

example : resultMulti exact twoPv insideGrid = .ok [(0, 0, 5), (1, 0, 5), (2, 0, 6), (3, 0, 6)] ∧
    (List.range 4).map (fun ix => resultSingle exact onePv insideGrid ix 0) = [.ok 5, .ok 5, .ok 6, .ok 6] := by
  decide +kernel

/-- C190: for a cell of the predict grid outside of the values the result is that of the last cell when there is one
ParmValue, and an exception when the same values are in two ParmValues. -/
theorem outside_differs :
    (List.range 3).map (fun ix => resultSingle exact onePv outsideGrid ix 0) = [.ok 5, .ok 6, .ok 6] ∧
    resultMulti exact twoPv outsideGrid = .error .throws := by decide +kernel

end DP3.ParmEval
