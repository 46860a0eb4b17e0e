import Verif.ParmGrid.CombineProps

/-!
# C46, C47, C84: cells of grids
-/

namespace DP3.ParmGrid

open DP3.StringTools

set_option linter.unusedSectionVars false

variable {K : Type} [Field K] [LinearOrder K] [IsStrictOrderedRing K]

/-! ## Cell ids -/

/-- C46 (up to 2^32 cells, see `cell_id_wraps`): the location of the id of a location is that location,
and ids are below the number of cells. -/
theorem cell_id_inverse (nx ny : Nat) (h : nx * ny ≤ 2 ^ 32) (loc : Nat × Nat) (h1 : loc.1 < nx)
    (h2 : loc.2 < ny) : cellId nx loc < nx * ny ∧ cellLocation nx (cellId nx loc) = loc := by
  have hlt : loc.2 * nx + loc.1 < nx * ny := by
    have : (loc.2 + 1) * nx ≤ ny * nx := Nat.mul_le_mul_right _ h2
    have e : (loc.2 + 1) * nx = loc.2 * nx + nx := by ring
    have e2 : ny * nx = nx * ny := Nat.mul_comm _ _
    omega
  have hw : cellId nx loc = loc.2 * nx + loc.1 := by
    rw [cellId, wrap32]
    exact Nat.mod_eq_of_lt (by omega)
  rw [hw, cellLocation]
  refine ⟨hlt, ?_⟩
  have hnx : 0 < nx := by omega
  ext
  · show (loc.2 * nx + loc.1) % nx = loc.1
    rw [Nat.mul_comm, Nat.mul_add_mod, Nat.mod_eq_of_lt h1]
  · show (loc.2 * nx + loc.1) / nx = loc.2
    rw [Nat.mul_comm, Nat.mul_add_div hnx, Nat.div_eq_of_lt h1, Nat.add_zero]

/-- C46: the id of the location of an id is that id, and the location is in the grid. -/
theorem cell_location_inverse (nx ny : Nat) (h : nx * ny ≤ 2 ^ 32) (id : Nat) (hid : id < nx * ny) :
    (cellLocation nx id).1 < nx ∧ (cellLocation nx id).2 < ny ∧ cellId nx (cellLocation nx id) = id := by
  have hnx : 0 < nx := by
    rcases Nat.eq_zero_or_pos nx with h0 | h0
    · rw [h0, Nat.zero_mul] at hid; omega
    · exact h0
  refine ⟨Nat.mod_lt _ hnx, Nat.div_lt_of_lt_mul hid, ?_⟩
  have e : id / nx * nx + id % nx = id := by rw [Nat.mul_comm]; exact Nat.div_add_mod id nx
  rw [cellId, cellLocation, wrap32, e]
  exact Nat.mod_eq_of_lt (by omega)

/-- C46: with more cells two locations have the same id. -/
theorem cell_id_wraps : cellId 65536 (0, 0) = cellId 65536 (0, 65536) ∧
    cellLocation 65536 (cellId 65536 (0, 65536)) ≠ (0, 65536) := by decide +kernel

/-! ## Domains -/

/-- The boxes of all pairs of cells, x fastest. -/
def boxes (xs ys : Cells K) : List (Box K) :=
  ys.flatMap fun y => xs.map fun x => ⟨x.1, y.1, x.2, y.2⟩

private theorem boxes_length (xs ys : Cells K) : (boxes xs ys).length = xs.length * ys.length := by
  induction ys with
  | nil => rfl
  | cons y ys ih =>
    have e : boxes xs (y :: ys) = (xs.map fun x => (⟨x.1, y.1, x.2, y.2⟩ : Box K)) ++ boxes xs ys := rfl
    rw [e, List.length_append, List.length_map, ih, List.length_cons]; ring

private theorem zip_map {α β : Type} (f : α → β) (l : List α) (a : α) (b : β) (h : (a, b) ∈ l.zip (l.map f)) :
    b = f a := by
  induction l with
  | nil => simp at h
  | cons c l ih =>
    rw [List.map_cons, List.zip_cons_cons, List.mem_cons] at h
    rcases h with h | h
    · rw [Prod.mk.injEq] at h
      rw [h.2, h.1]
    · exact ih h

private theorem not_not_true {b : Bool} : ¬ ((!b) = true) ↔ b = true := by cases b <;> simp

private theorem flatMap_index {α β : Type} (f : α → List β) (n : Nat) (hf : ∀ a, (f a).length = n)
    (l : List α) (i j : Nat) (hi : i < n) :
    (l.flatMap f)[j * n + i]? = (l[j]?).bind fun a => (f a)[i]? := by
  induction l generalizing j with
  | nil => simp
  | cons a l ih =>
    rw [List.flatMap_cons]
    cases j with
    | zero =>
      rw [Nat.zero_mul, Nat.zero_add, List.getElem?_append_left (by rw [hf]; exact hi)]
      rfl
    | succ j =>
      have e : (j + 1) * n + i = n + (j * n + i) := by ring
      rw [e, List.getElem?_append_right (by rw [hf]; omega), hf, Nat.add_sub_cancel_left, ih]
      rfl

/-- C47 (as long as y has not more cells than x, see `toDomains_overrun`): the domains of a grid are appended,
one for each cell; the domain at the id of a cell is that cell. -/
theorem toDomains_cells_partial (g : Grid K) (before : List (Box K))
    (hsize : g.y.cells.length ≤ g.x.cells.length) :
    ∃ new, toDomains g before = .ok (before ++ new) ∧ new.length = g.x.cells.length * g.y.cells.length ∧
      ∀ i j, i < g.x.cells.length → j < g.y.cells.length →
        ∃ b, getCell g (i, j) = .ok b ∧ new[j * g.x.cells.length + i]? = some b := by
  refine ⟨boxes g.x.cells g.y.cells, ?_, ?_, ?_⟩
  · simp only [toDomains, fill]
    rw [if_pos (le_refl _), if_pos hsize]
    rfl
  · exact boxes_length _ _
  · intro i j hi hj
    rw [boxes, flatMap_index _ g.x.cells.length (by simp) _ _ _ hi]
    simp only [getCell]
    rw [List.getElem?_eq_getElem hi, List.getElem?_eq_getElem hj]
    refine ⟨_, rfl, ?_⟩
    rw [Option.bind_some, List.getElem?_map, List.getElem?_eq_getElem hi]
    rfl

/-- C47: with more cells in y than in x the buffers of the y values are written behind their end. -/
theorem toDomains_overrun (g : Grid K) (before : List (Box K))
    (h : g.x.cells.length < g.y.cells.length) : toDomains g before = .error .ub := by
  simp only [toDomains, fill]
  rw [if_pos (le_refl _), if_neg (by omega)]

/-! ## Grids of domains -/

/-- The x interval of a box. -/
def xCell (d : Box K) : K × K := (d.lowerX, d.upperX)

/-- The y interval of a box. -/
def yCell (d : Box K) : K × K := (d.lowerY, d.upperY)

private theorem scanX_count (sy dx ex : K) (nx : Nat) (r : Bool) (ds : List (Box K)) :
    (scanX exact sy dx ex nx r ds).1 = nx + (ds.takeWhile fun d => decide (sy = d.lowerY)).length := by
  induction ds generalizing ex nx r with
  | nil => rfl
  | cons d ds ih =>
    rw [scanX, List.takeWhile_cons]
    by_cases h : sy = d.lowerY
    · rw [if_neg (by simpa using h), ih, if_pos (by simpa using h), List.length_cons]; omega
    · rw [if_pos h, if_neg (by simpa using h)]; rfl

private theorem scanX_regular (sy dx ex : K) (nx : Nat) (r : Bool) (ds : List (Box K))
    (h : (scanX exact sy dx ex nx r ds).2 = true) :
    r = true ∧ (ds.takeWhile fun d => decide (sy = d.lowerY)).map xCell =
      regularCells ex dx (ds.takeWhile fun d => decide (sy = d.lowerY)).length := by
  induction ds generalizing ex nx r with
  | nil => exact ⟨h, rfl⟩
  | cons d ds ih =>
    rw [scanX] at h
    rw [List.takeWhile_cons]
    by_cases he : sy = d.lowerY
    · rw [if_neg (by simpa using he)] at h
      rw [if_pos (by simpa using he)]
      obtain ⟨h1, h2⟩ := ih _ _ _ h
      simp only [exact, Bool.and_eq_true, decide_eq_true_eq] at h1
      obtain ⟨hr, h3, h4⟩ := h1
      refine ⟨hr, ?_⟩
      rw [List.map_cons, List.length_cons, regularCells]
      have e : ex + dx = d.upperX := by rw [h3, h4]; ring
      rw [e, ← h2, h3]
      rfl
    · rw [if_pos he] at h
      rw [if_neg (by simpa using he)]
      exact ⟨h, rfl⟩

private theorem scanY_regular (dy ey : K) (cells : Cells K) (h : scanY exact dy ey cells = true) :
    cells = regularCells ey dy cells.length := by
  induction cells generalizing ey with
  | nil => rfl
  | cons c l ih =>
    rw [scanY, Bool.and_eq_true, Bool.and_eq_true] at h
    obtain ⟨⟨h1, h2⟩, h3⟩ := h
    simp only [exact, decide_eq_true_eq] at h1 h2
    rw [List.length_cons, regularCells]
    have e : ey + dy = c.2 := by rw [h1, h2]; ring
    rw [e, ← ih _ h3, h1]

private theorem axisOf_cells (r : Bool) (w : K) (cells : Cells K)
    (h : r = true → ∀ c l, cells = c :: l → cells = regularCells c.1 w cells.length) :
    (axisOf r w cells).cells = cells := by
  cases cells with
  | nil => rfl
  | cons c l =>
    simp only [axisOf]
    split_ifs with hr
    · exact (h hr c l rfl).symm
    · rfl

private theorem rows_flatten (nx n : Nat) (ds : List (Box K)) (h : ds.length = nx * n) :
    (rows nx n ds).flatten = ds ∧ ∀ r ∈ rows nx n ds, r.length = nx := by
  induction n generalizing ds with
  | zero =>
    rw [Nat.mul_zero, List.length_eq_zero_iff] at h
    rw [h]; simp [rows]
  | succ n ih =>
    rw [rows]
    have e : nx * (n + 1) = nx * n + nx := by ring
    obtain ⟨h1, h2⟩ := ih (ds.drop nx) (by rw [List.length_drop]; omega)
    refine ⟨by rw [List.flatten_cons, h1, List.take_append_drop], ?_⟩
    intro r hr
    rcases List.mem_cons.mp hr with rfl | hr
    · rw [List.length_take]; omega
    · exact h2 r hr

private theorem rows_map (nx : Nat) (rs : List (List (Box K))) (h : ∀ r ∈ rs, r.length = nx) :
    rows nx rs.length rs.flatten = rs := by
  induction rs with
  | nil => rfl
  | cons r rs ih =>
    rw [List.length_cons, rows, List.flatten_cons]
    have hr := h r (by simp)
    rw [← hr, List.take_left, List.drop_left, hr, ih fun x hx => h x (List.mem_cons_of_mem _ hx)]

private theorem checkX_iff (xs : Cells K) (row : List (Box K)) (h : row.length = xs.length) :
    checkX exact xs row = true ↔ row.map xCell = xs := by
  induction xs generalizing row with
  | nil =>
    have : row = [] := by simpa using h
    rw [this]; simp [checkX]
  | cons x xs ih =>
    cases row with
    | nil => simp at h
    | cons d row =>
      have := ih row (by simpa using h)
      simp only [checkX, exact, List.zip_cons_cons, List.all_cons, Bool.and_eq_true, decide_eq_true_eq] at this ⊢
      rw [this, List.map_cons, List.cons.injEq, xCell, Prod.ext_iff]
      constructor
      · rintro ⟨⟨a, b⟩, c⟩; exact ⟨⟨a.symm, b.symm⟩, c⟩
      · rintro ⟨⟨a, b⟩, c⟩; exact ⟨⟨a.symm, b.symm⟩, c⟩

private theorem row_eq (xs : Cells K) (y : K × K) (row : List (Box K)) (hx : row.map xCell = xs)
    (hy : ∀ d ∈ row, yCell d = y) : row = xs.map fun x => ⟨x.1, y.1, x.2, y.2⟩ := by
  rw [← hx, List.map_map]
  conv_lhs => rw [← List.map_id row]
  refine List.map_congr_left fun d hd => ?_
  rw [← hy d hd]
  rfl

private theorem checkY_iff (y : K × K) (row : List (Box K)) :
    checkY exact y row = true ↔ ∀ d ∈ row.tail, yCell d = y := by
  simp only [checkY, exact, List.all_eq_true, Bool.and_eq_true, decide_eq_true_eq, yCell, Prod.ext_iff]
  refine forall₂_congr fun d _ => ?_
  constructor
  · rintro ⟨a, b⟩; exact ⟨a.symm, b.symm⟩
  · rintro ⟨a, b⟩; exact ⟨a.symm, b.symm⟩

private theorem rows_boxes (xs : Cells K) (rs : List (List (Box K))) (hxs : xs ≠ [])
    (hx : ∀ r ∈ rs, r.map xCell = xs)
    (hy : ((rs.flatMap rowY).zip rs).all (fun p => checkY exact p.1 p.2) = true) :
    rs.flatten = boxes xs (rs.flatMap rowY) := by
  induction rs with
  | nil => rfl
  | cons r rs ih =>
    have hr := hx r (by simp)
    cases r with
    | nil => exact absurd hr.symm hxs
    | cons d r =>
      have e : rowY (d :: r) = [yCell d] := rfl
      rw [List.flatMap_cons, e, List.singleton_append, List.zip_cons_cons, List.all_cons, Bool.and_eq_true] at hy
      obtain ⟨h1, h2⟩ := hy
      rw [checkY_iff, List.tail_cons] at h1
      rw [List.flatMap_cons, e, List.singleton_append, List.flatten_cons, boxes, List.flatMap_cons,
        ih (fun x h => hx x (List.mem_cons_of_mem _ h)) h2, boxes]
      congr 1
      refine row_eq xs _ _ hr ?_
      intro x hx'
      rcases List.mem_cons.mp hx' with rfl | hx'
      · rfl
      · exact h1 x hx'

private theorem takeWhile_take {α : Type} (p : α → Bool) (l : List α) :
    l.take (l.takeWhile p).length = l.takeWhile p := by
  induction l with
  | nil => rfl
  | cons a l ih =>
    rw [List.takeWhile_cons]
    split_ifs
    · rw [List.length_cons, List.take_succ_cons, ih]
    · rfl

/-- What `setup` gives, when all of its checks succeed. -/
private theorem setup_eval (d : Box K) (ds : List (Box K)) (nx : Nat)
    (hnx : nx = 1 + (ds.takeWhile fun e => decide (d.lowerY = e.lowerY)).length) :
    (∃ e, setup exact (d :: ds) = .error e) ∨ ∃ g, setup exact (d :: ds) = .ok g ∧
      g.x.cells = ((d :: ds).take nx).map xCell ∧
      g.y.cells = (rows nx ((d :: ds).length / nx) (d :: ds)).flatMap rowY := by
  simp only [setup]
  rw [scanX_count, ← hnx]
  split_ifs with h1 h2 h3
  · exact .inl ⟨_, rfl⟩
  · exact .inl ⟨_, rfl⟩
  · exact .inl ⟨_, rfl⟩
  · refine .inr ⟨_, rfl, ?_, ?_⟩
    · refine axisOf_cells _ _ _ ?_
      intro hr c l hcl
      have htake : (d :: ds).take nx = d :: ds.takeWhile fun e => decide (d.lowerY = e.lowerY) := by
        rw [hnx, Nat.add_comm, List.take_succ_cons, takeWhile_take]
      have hreg := (scanX_regular _ _ _ _ _ _ hr).2
      rw [htake] at hcl ⊢
      rw [List.map_cons] at hcl
      have hc : c = (d.lowerX, d.upperX) := by
        rw [List.cons.injEq] at hcl; exact hcl.1.symm
      rw [List.length_map, List.length_cons, List.map_cons, regularCells, hc]
      have e : d.lowerX + (d.upperX - d.lowerX) = d.upperX := by ring
      simp only [e]
      rw [← hreg]
      rfl
    · refine axisOf_cells _ _ _ ?_
      intro hr c l hcl
      have hreg := scanY_regular _ _ _ hr
      have hc : c.1 = d.lowerY := by
        rw [hcl, List.length_cons, regularCells, List.cons.injEq] at hreg
        rw [hreg.1]
      rw [hc]
      exact hreg

/-- C84: a grid made of domains has exactly these domains as its cells, in order. -/
theorem setup_sound (domains : List (Box K)) (g : Grid K) (h : setup exact domains = .ok g) :
    domains = boxes g.x.cells g.y.cells := by
  cases domains with
  | nil => exact absurd h (by simp [setup])
  | cons d ds =>
    rcases setup_eval d ds _ rfl with ⟨e, he⟩ | ⟨g', he, hgx, hgy⟩
    · rw [he] at h; exact absurd h (by simp)
    · rw [he] at h
      have hgg : g' = g := Except.ok.inj h
      subst hgg
      simp only [setup] at he
      rw [scanX_count] at he
      generalize hnx : 1 + (ds.takeWhile fun e => decide (d.lowerY = e.lowerY)).length = nx at *
      have hpos : 0 < nx := by omega
      split_ifs at he with h1 h2 h3
      have h1 : (d :: ds).length % nx = 0 := by simpa using h1
      have h2 : ((rows nx ((d :: ds).length / nx) (d :: ds)).tail.all
          (checkX exact (((d :: ds).take nx).map xCell))) = true := not_not_true.mp h2
      have h3 := not_not_true.mp h3
      have hlen : (d :: ds).length = nx * ((d :: ds).length / nx) := by
        have := Nat.div_add_mod (d :: ds).length nx
        omega
      have hdiv : ∃ n, (d :: ds).length / nx = n + 1 := by
        rcases Nat.eq_zero_or_pos ((d :: ds).length / nx) with h0 | h0
        · rw [h0] at hlen; simp at hlen
        · exact ⟨_, (Nat.succ_pred_eq_of_pos h0).symm⟩
      obtain ⟨n, hn⟩ := hdiv
      rw [hgx, hgy]
      obtain ⟨f1, f2⟩ := rows_flatten nx _ (d :: ds) hlen
      conv_lhs => rw [← f1]
      refine rows_boxes _ _ ?_ ?_ h3
      · cases nx with
        | zero => omega
        | succ k => simp
      · intro r hr
        have htl : ((d :: ds).take nx).length = nx := by
          rw [List.length_take]
          have : nx * (n + 1) = nx * n + nx := by ring
          rw [hn] at hlen
          omega
        rw [hn, rows] at hr h2
        rw [List.tail_cons, List.all_eq_true] at h2
        rcases List.mem_cons.mp hr with rfl | hr'
        · rfl
        · have hl := f2 r (by rw [hn, rows]; exact List.mem_cons_of_mem _ hr')
          exact (checkX_iff _ _ (by rw [List.length_map, htl, hl])).mp (h2 r hr')

/-- C84: the domains of a grid give the axes of the grid back. -/
theorem setup_boxes (xs ys : Cells K) (hx : xs ≠ []) (hy : Valid ys) :
    ∃ g, setup exact (boxes xs ys) = .ok g ∧ g.x.cells = xs ∧ g.y.cells = ys := by
  obtain ⟨x, xs', rfl⟩ := List.exists_cons_of_ne_nil hx
  obtain ⟨y, ys', rfl⟩ := List.exists_cons_of_ne_nil hy.1
  set xs := x :: xs' with hxs
  have hrow : ∀ y : K × K, (xs.map fun x => (⟨x.1, y.1, x.2, y.2⟩ : Box K)).map xCell = xs := by
    intro y
    rw [List.map_map]
    conv_rhs => rw [← List.map_id xs]
    exact List.map_congr_left fun c _ => rfl
  set d : Box K := ⟨x.1, y.1, x.2, y.2⟩ with hd
  set ds := (xs'.map fun x => (⟨x.1, y.1, x.2, y.2⟩ : Box K)) ++ boxes xs ys' with hds
  have hcons : boxes xs (y :: ys') = d :: ds := rfl
  have htw : ds.takeWhile (fun e => decide (d.lowerY = e.lowerY)) =
      xs'.map fun x => (⟨x.1, y.1, x.2, y.2⟩ : Box K) := by
    rw [hds, List.takeWhile_append_of_pos (by
      intro a ha
      obtain ⟨c, -, rfl⟩ := List.mem_map.mp ha
      simp [hd])]
    have : (boxes xs ys').takeWhile (fun e => decide (d.lowerY = e.lowerY)) = [] := by
      cases ys' with
      | nil => rfl
      | cons z ys' =>
        rw [boxes, List.flatMap_cons, hxs, List.map_cons, List.cons_append, List.takeWhile_cons, if_neg]
        have h1 := (List.pairwise_cons.mp hy.2.2).1 z (by simp)
        have h2 := hy.2.1 y (by simp)
        simp only [hd, decide_eq_true_eq]
        exact fun e => by linarith
    rw [this, List.append_nil]
  have hnx : xs.length = 1 + (ds.takeWhile fun e => decide (d.lowerY = e.lowerY)).length := by
    rw [htw, List.length_map, hxs, List.length_cons]; omega
  have hpos : 0 < xs.length := by rw [hxs]; simp
  have hlen : (d :: ds).length = xs.length * (y :: ys').length := by
    rw [← hcons, boxes_length]
  have hrows : rows xs.length ((d :: ds).length / xs.length) (d :: ds) =
      (y :: ys').map fun y => xs.map fun x => (⟨x.1, y.1, x.2, y.2⟩ : Box K) := by
    rw [hlen, Nat.mul_div_cancel_left _ hpos, ← hcons, boxes, List.flatMap_def]
    conv_lhs => rw [← List.length_map (as := y :: ys') fun y : K × K =>
      xs.map fun x => (⟨x.1, y.1, x.2, y.2⟩ : Box K)]
    refine rows_map _ _ ?_
    intro r hr
    obtain ⟨z, -, rfl⟩ := List.mem_map.mp hr
    simp
  have htake : ((d :: ds).take xs.length).map xCell = xs := by
    rw [← hcons, boxes, List.flatMap_cons, List.take_left' (by simp), hrow]
  have hys : ((y :: ys').map fun y => xs.map fun x => (⟨x.1, y.1, x.2, y.2⟩ : Box K)).flatMap rowY =
      y :: ys' := by
    rw [List.flatMap_map]
    have : ∀ z ∈ y :: ys', rowY (xs.map fun x => (⟨x.1, z.1, x.2, z.2⟩ : Box K)) = [z] := by
      intro z _; rfl
    rw [List.flatMap_congr this, List.flatMap_singleton']
  rcases setup_eval d ds xs.length hnx with ⟨e, he⟩ | ⟨g, he, hgx, hgy⟩
  · exfalso
    simp only [setup] at he
    rw [scanX_count, ← hnx] at he
    rw [hrows, hys] at he
    have c1 : ¬ ((d :: ds).length % xs.length ≠ 0) := by
      rw [hlen, Nat.mul_mod_right]; simp
    rw [if_neg c1] at he
    have htake' : ((d :: ds).take xs.length).map (fun d => (d.lowerX, d.upperX)) = xs := htake
    rw [htake', if_neg, if_neg] at he
    · exact absurd he (by simp)
    · rw [not_not_true]
      rw [List.all_eq_true]
      rintro ⟨z, r⟩ hz
      rw [checkY_iff]
      have hzr : r = xs.map fun x => (⟨x.1, z.1, x.2, z.2⟩ : Box K) :=
        zip_map _ _ z r hz
      intro b hb
      rw [hzr] at hb
      obtain ⟨c, -, rfl⟩ := List.mem_map.mp (List.mem_of_mem_tail hb)
      rfl
    · rw [not_not_true]
      rw [List.all_eq_true]
      intro r hr
      obtain ⟨z, -, rfl⟩ := List.mem_map.mp (List.mem_of_mem_tail hr)
      exact (checkX_iff _ _ (by simp)).mpr (hrow z)
  · rw [hcons]
    exact ⟨g, he, by rw [hgx, htake], by rw [hgy, hrows, hys]⟩

private theorem boxLt_total (a b : Box K) : (!boxLt b a || !boxLt a b) = true := by
  simp only [boxLt, Bool.or_eq_true, Bool.not_eq_true', Bool.or_eq_false_iff, Bool.and_eq_false_iff,
    decide_eq_false_iff_not]
  by_cases h1 : b.lowerY < a.lowerY
  · right
    refine ⟨not_lt.mpr h1.le, .inl h1.ne'⟩
  · by_cases h2 : a.lowerY < b.lowerY
    · left; exact ⟨h1, .inl h2.ne'⟩
    · have e : a.lowerY = b.lowerY := le_antisymm (not_lt.mp h1) (not_lt.mp h2)
      by_cases h3 : b.lowerX < a.lowerX
      · right; exact ⟨h2, .inr (not_lt.mpr h3.le)⟩
      · left; exact ⟨h1, .inr h3⟩

private theorem boxLe_iff (a b : Box K) : (!boxLt b a) = true ↔
    a.lowerY < b.lowerY ∨ (a.lowerY = b.lowerY ∧ a.lowerX ≤ b.lowerX) := by
  simp only [boxLt, Bool.not_eq_true', Bool.or_eq_false_iff, Bool.and_eq_false_iff, decide_eq_false_iff_not,
    not_lt]
  constructor
  · rintro ⟨h1, h2⟩
    rcases lt_or_eq_of_le h1 with h | h
    · exact .inl h
    · rcases h2 with h2 | h2
      · exact absurd h.symm h2
      · exact .inr ⟨h, h2⟩
  · rintro (h | ⟨h1, h2⟩)
    · exact ⟨h.le, .inl h.ne'⟩
    · exact ⟨h1.le, .inr h2⟩

private theorem boxes_sorted (xs ys : Cells K) (hx : Valid xs) (hy : Valid ys) :
    (boxes xs ys).Pairwise fun a b => (!boxLt b a) = true := by
  obtain ⟨-, wx, sx⟩ := hx
  obtain ⟨-, wy, sy⟩ := hy
  rw [boxes, List.pairwise_flatMap]
  constructor
  · intro y _
    rw [List.pairwise_map]
    refine (List.Pairwise.and_mem.mp sx).imp ?_
    rintro a b ⟨ha, -, hab⟩
    rw [boxLe_iff]
    right
    have := wx a ha
    exact ⟨rfl, by show a.1 ≤ b.1; linarith⟩
  · refine (List.Pairwise.and_mem.mp sy).imp ?_
    rintro a b ⟨ha, -, hab⟩ c hc d hd
    obtain ⟨x1, -, rfl⟩ := List.mem_map.mp hc
    obtain ⟨x2, -, rfl⟩ := List.mem_map.mp hd
    rw [boxLe_iff]
    left
    have := wy a ha
    show a.1 < b.1
    linarith

private theorem lower_unique {l : Cells K} (h : Valid l) {a b : K × K} (ha : a ∈ l) (hb : b ∈ l)
    (e : a.1 = b.1) : a = b := by
  obtain ⟨-, w, s⟩ := h
  obtain ⟨i, hi⟩ := List.mem_iff_getElem.mp ha
  obtain ⟨j, hj⟩ := List.mem_iff_getElem.mp hb
  obtain ⟨hi1, hi2⟩ := hi
  obtain ⟨hj1, hj2⟩ := hj
  rw [List.pairwise_iff_getElem] at s
  rcases Nat.lt_trichotomy i j with h | h | h
  · have := s i j hi1 hj1 h
    rw [hi2, hj2] at this
    have := w a ha
    exfalso; linarith
  · subst h; rw [← hi2, ← hj2]
  · have := s j i hj1 hi1 h
    rw [hi2, hj2] at this
    have := w b hb
    exfalso; linarith

/-- C84: the domains of a grid in any order give the axes of the grid back, when sorting is asked for. -/
theorem gridOf_permuted (xs ys : Cells K) (hx : Valid xs) (hy : Valid ys) (domains : List (Box K))
    (hp : domains.Perm (boxes xs ys)) :
    ∃ g, gridOf exact domains true = .ok g ∧ g.x.cells = xs ∧ g.y.cells = ys := by
  have hne : domains ≠ [] := by
    intro e
    rw [e] at hp
    have := hp.length_eq
    have h1 := List.length_pos_iff.mpr hx.1
    have h2 := List.length_pos_iff.mpr hy.1
    rw [boxes_length, List.length_nil] at this
    have := Nat.mul_pos h1 h2
    omega
  have hsort : (domains.mergeSort fun a b => !boxLt b a) = boxes xs ys := by
    refine List.Perm.eq_of_pairwise (le := fun a b => (!boxLt b a) = true) ?_
      (List.pairwise_mergeSort ?_ ?_ _) (boxes_sorted xs ys hx hy) ((List.mergeSort_perm _ _).trans hp)
    · intro a b ha hb h1 h2
      have ha : a ∈ boxes xs ys := ((List.mergeSort_perm _ _).trans hp).subset ha
      rw [boxLe_iff] at h1 h2
      have e : a.lowerY = b.lowerY ∧ a.lowerX = b.lowerX := by
        rcases h1 with h1 | ⟨h1, h1'⟩
        · rcases h2 with h2 | ⟨h2, -⟩
          · exact absurd h2 (not_lt.mpr h1.le)
          · exact absurd h2 h1.ne'
        · rcases h2 with h2 | ⟨-, h2'⟩
          · exact absurd h1 h2.ne'
          · exact ⟨h1, le_antisymm h1' h2'⟩
      simp only [boxes, List.mem_flatMap, List.mem_map] at ha hb
      obtain ⟨y1, hy1, x1, hx1, rfl⟩ := ha
      obtain ⟨y2, hy2, x2, hx2, rfl⟩ := hb
      rw [lower_unique hx hx1 hx2 e.2, lower_unique hy hy1 hy2 e.1]
    · intro a b c h1 h2
      rw [boxLe_iff] at *
      rcases h1 with h1 | ⟨h1, h1'⟩ <;> rcases h2 with h2 | ⟨h2, h2'⟩
      · exact .inl (h1.trans h2)
      · exact .inl (h2 ▸ h1)
      · exact .inl (h1 ▸ h2)
      · exact .inr ⟨h1.trans h2, h1'.trans h2'⟩
    · intro a b; exact boxLt_total a b
  rw [gridOf, if_neg hne, if_pos rfl, hsort]
  exact setup_boxes xs ys hx.1 hy

/-! ## Locating points -/

/-- C84: a point is located in the cell that contains it. -/
theorem locateGrid_inside (g : Grid K) (hx : Valid g.x.cells) (hy : Valid g.y.cells) (p : K × K)
    (bias : Bool) (i j : Nat) (a b : K × K) (ha : g.x.cells[i]? = some a) (hb : g.y.cells[j]? = some b)
    (h1 : In bias p.1 a) (h2 : In bias p.2 b) : locateGrid exact g p bias = .ok (i, j) := by
  simp only [locateGrid, locate]
  rw [find_inside _ hx p.1 bias 0 i a ha h1, find_inside _ hy p.2 bias 0 j b hb h2]
  rfl

/-- C84: a point outside of all cells is not located. -/
theorem locateGrid_outside (g : Grid K) (hx : Valid g.x.cells) (hy : Valid g.y.cells) (p : K × K)
    (bias : Bool) (h : (∀ c ∈ g.x.cells, ¬ In bias p.1 c) ∨ (∀ c ∈ g.y.cells, ¬ In bias p.2 c)) :
    locateGrid exact g p bias = .error .throws := by
  have key : ∀ cells : Cells K, Valid cells → ∀ x,
      (∃ i, locate exact cells x bias 0 = .ok i) ∨ locate exact cells x bias 0 = .error .throws := by
    intro cells _ x
    simp only [locate]
    split_ifs
    · exact .inl ⟨_, rfl⟩
    · exact .inr rfl
  rcases h with h | h
  · simp only [locateGrid]
    rw [locate_outside _ hx p.1 bias 0 h]
  · simp only [locateGrid]
    rw [locate_outside _ hy p.2 bias 0 h]
    rcases key _ hx p.1 with ⟨i, e⟩ | e <;> rw [e]

/-! ## The iterator over cells -/

/-- The locations of a rectangle, row by row. -/
def rectangle (start stop : Nat × Nat) : List (Nat × Nat) :=
  (List.range' start.2 (stop.2 + 1 - start.2)).flatMap fun y =>
    (List.range' start.1 (stop.1 + 1 - start.1)).map fun x => (x, y)

private theorem visit_row (start stop : Nat × Nat) (x y : Nat) (n fuel : Nat) (hy : y ≤ stop.2)
    (hx : x + n = stop.1 + 1) (hn : 0 < n) (l : List (Nat × Nat))
    (h : CellIter.visit fuel ⟨start, stop, (start.1, y + 1)⟩ = .ok l) :
    CellIter.visit (fuel + n) ⟨start, stop, (x, y)⟩ =
      .ok ((List.range' x n).map (fun x => (x, y)) ++ l) := by
  induction n generalizing x with
  | zero => omega
  | succ n ih =>
    have hend : ¬ (CellIter.atEnd ⟨start, stop, (x, y)⟩ = true) := by
      simp [CellIter.atEnd]; omega
    rw [← Nat.add_assoc, CellIter.visit, if_neg hend]
    rcases Nat.eq_zero_or_pos n with h0 | h0
    · subst h0
      have hnext : CellIter.next ⟨start, stop, (x, y)⟩ = ⟨start, stop, (start.1, y + 1)⟩ := by
        simp only [CellIter.next]
        rw [if_pos (by omega)]
      rw [hnext, Nat.add_zero, h]
      rfl
    · have hnext : CellIter.next ⟨start, stop, (x, y)⟩ = ⟨start, stop, (x + 1, y)⟩ := by
        simp only [CellIter.next]
        rw [if_neg (by omega)]
      rw [hnext, ih (x + 1) (by omega) h0]
      rw [List.range'_succ, List.map_cons, List.cons_append]

private theorem visit_rows (start stop : Nat × Nat) (hx : start.1 ≤ stop.1) (y m fuel : Nat)
    (hy : y + m = stop.2 + 1) :
    CellIter.visit (fuel + 1 + m * (stop.1 + 1 - start.1)) ⟨start, stop, (start.1, y)⟩ =
      .ok ((List.range' y m).flatMap fun y =>
        (List.range' start.1 (stop.1 + 1 - start.1)).map fun x => (x, y)) := by
  induction m generalizing y with
  | zero =>
    rw [Nat.zero_mul, Nat.add_zero, CellIter.visit, if_pos (by simp [CellIter.atEnd]; omega)]
    rfl
  | succ m ih =>
    have e : fuel + 1 + (m + 1) * (stop.1 + 1 - start.1) =
        fuel + 1 + m * (stop.1 + 1 - start.1) + (stop.1 + 1 - start.1) := by ring
    rw [e, visit_row start stop start.1 y (stop.1 + 1 - start.1) _ (by omega) (by omega) (by omega) _
      (ih (y + 1) (by omega)), List.range'_succ, List.flatMap_cons]

/-- C84: the iterator visits the cells of a rectangle, its last row and column included, row by row. -/
theorem iterator_visits (start stop : Nat × Nat) (h1 : start.1 ≤ stop.1) (h2 : start.2 ≤ stop.2)
    (fuel : Nat) (hf : (stop.2 + 1 - start.2) * (stop.1 + 1 - start.1) < fuel) :
    CellIter.visit fuel (CellIter.make start stop) = .ok (rectangle start stop) := by
  obtain ⟨k, rfl⟩ : ∃ k, fuel = k + 1 + (stop.2 + 1 - start.2) * (stop.1 + 1 - start.1) :=
    ⟨fuel - 1 - (stop.2 + 1 - start.2) * (stop.1 + 1 - start.1), by omega⟩
  exact visit_rows start stop h1 start.2 (stop.2 + 1 - start.2) k (by omega)

/-- C84: these are the locations between both corners, each once. -/
theorem rectangle_spec (start stop : Nat × Nat) :
    (rectangle start stop).Nodup ∧ ∀ x y, (x, y) ∈ rectangle start stop ↔
      start.1 ≤ x ∧ x ≤ stop.1 ∧ start.2 ≤ y ∧ y ≤ stop.2 := by
  constructor
  · rw [rectangle, List.Nodup, List.pairwise_flatMap]
    constructor
    · intro y _
      rw [List.pairwise_map]
      refine (List.nodup_range' (step := 1)).imp ?_
      intro a b hab e
      exact hab (Prod.mk.inj e).1
    · refine (List.nodup_range' (step := 1)).imp ?_
      intro a b hab p hp q hq e
      simp only [List.mem_map] at hp hq
      obtain ⟨_, _, rfl⟩ := hp
      obtain ⟨_, _, rfl⟩ := hq
      exact hab (Prod.mk.inj e).2
  · intro x y
    simp only [rectangle, List.mem_flatMap, List.mem_map, List.mem_range'_1, Prod.mk.injEq]
    constructor
    · rintro ⟨y', hy, x', hx, rfl, rfl⟩; omega
    · intro h
      exact ⟨y, by omega, x, by omega, rfl, rfl⟩

/-! ## Examples -/

/-- A grid of three by two cells. -/
def sampleGrid : Grid ℚ := ⟨⟨none, [(0, 1), (1, 3), (4, 5)]⟩, regularAxis 10 5 2⟩

example : cellId 3 (2, 1) = 5 ∧ cellLocation 3 5 = (2, 1) := by decide
example : sampleGrid.y.cells.length ≤ sampleGrid.x.cells.length := by decide
example : (toDomains sampleGrid []).toOption = some
    [⟨0, 10, 1, 15⟩, ⟨1, 10, 3, 15⟩, ⟨4, 10, 5, 15⟩, ⟨0, 15, 1, 20⟩, ⟨1, 15, 3, 20⟩, ⟨4, 15, 5, 20⟩] := by
  decide +kernel
example : (toDomains (⟨sampleGrid.y, sampleGrid.x⟩ : Grid ℚ) []) = .error .ub :=
  toDomains_overrun _ _ (by decide)
example : (setup exact (boxes sampleGrid.x.cells sampleGrid.y.cells)).toOption = some sampleGrid := by
  decide +kernel
example : setup exact ([⟨0, 0, 1, 1⟩, ⟨1, 0, 2, 1⟩, ⟨0, 1, 1, 2⟩] : List (Box ℚ)) = .error .throws := by
  decide +kernel
example : Valid sampleGrid.x.cells ∧ Valid sampleGrid.y.cells :=
  ⟨⟨by decide, by decide +kernel, by decide +kernel⟩, ⟨by decide, by decide +kernel, by decide +kernel⟩⟩
example : locateGrid exact sampleGrid (2, 15) true = .ok (1, 1) ∧
    locateGrid exact sampleGrid (2, 15) false = .ok (1, 0) ∧
    locateGrid exact sampleGrid (7 / 2, 15) true = .error .throws := by decide +kernel
example : CellIter.visit 10 (CellIter.make (1, 2) (2, 3)) = .ok [(1, 2), (2, 2), (1, 3), (2, 3)] := by decide

end DP3.ParmGrid
