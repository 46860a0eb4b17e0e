import Verif.ParmEval.PolyProps
import Mathlib.Data.Nat.Choose.Sum
import Mathlib.Tactic.FieldSimp

/-!
# C188: polynomials on other domains
-/

namespace DP3.ParmEval

open DP3.StringTools DP3.ParmGrid Finset

set_option linter.unusedSectionVars false
set_option linter.unusedSimpArgs false

variable {K : Type} [Field K] [LinearOrder K] [IsStrictOrderedRing K]

theorem pascal_choose (j i : Nat) : pascal j i = i.choose j := by
  induction i generalizing j with
  | zero => cases j <;> simp [pascal]
  | succ i ih =>
    cases j with
    | zero => simp [pascal]
    | succ j => rw [pascal, ih, ih, Nat.choose_succ_succ]

/-- The polynomial of a function of two indices. -/
def polyOf (nx ny : Nat) (s : Nat → Nat → K) (x y : K) : K :=
  ∑ j ∈ range ny, ∑ i ∈ range nx, s i j * x ^ i * y ^ j

private theorem addAt_poly (nx ny : Nat) (s : Nat → Nat → K) (jx jy : Nat) (hx : jx < nx) (hy : jy < ny) (v x y : K) :
    polyOf nx ny (addAt s jx jy v) x y = polyOf nx ny s x y + v * x ^ jx * y ^ jy := by
  have e : ∀ i j, addAt s jx jy v i j * x ^ i * y ^ j =
      s i j * x ^ i * y ^ j + (if j = jy then (if i = jx then v * x ^ i * y ^ j else 0) else 0) := by
    intro i j
    simp only [addAt]
    by_cases h1 : i = jx <;> by_cases h2 : j = jy <;> simp [h1, h2]
    ring
  simp only [polyOf, e, sum_add_distrib]
  congr 1
  have e2 : ∀ j, (∑ i ∈ range nx, if j = jy then (if i = jx then v * x ^ i * y ^ j else 0) else 0) =
      if j = jy then v * x ^ jx * y ^ j else 0 := by
    intro j
    by_cases h : j = jy
    · simp only [if_pos h]
      rw [sum_ite_eq' (range nx) jx, if_pos (mem_range.mpr hx)]
    · simp [h]
  simp only [e2]
  rw [sum_ite_eq' (range ny) jy, if_pos (mem_range.mpr hy)]

private theorem scaleX_poly (nx ny : Nat) (offx : K) (ix jy : Nat) (hy : jy < ny) (jx : Nat) (hx : jx < nx)
    (off : K) (s : Nat → Nat → K) (x y : K) :
    polyOf nx ny (scaleX offx ix jy jx off s) x y = polyOf nx ny s x y +
      off * (∑ k ∈ range (jx + 1), (ix.choose k : K) * offx ^ (jx - k) * x ^ k) * y ^ jy := by
  induction jx generalizing off s with
  | zero =>
    rw [scaleX, addAt_poly nx ny s 0 jy hx hy, pascal_choose]
    simp
  | succ jx ih =>
    rw [scaleX, ih (by omega), addAt_poly nx ny s _ jy hx hy, pascal_choose, sum_range_succ _ (jx + 1)]
    have e : ∑ k ∈ range (jx + 1), (ix.choose k : K) * offx ^ (jx + 1 - k) * x ^ k =
        offx * ∑ k ∈ range (jx + 1), (ix.choose k : K) * offx ^ (jx - k) * x ^ k := by
      rw [mul_sum]
      refine sum_congr rfl fun k hk => ?_
      have := mem_range.mp hk
      rw [show jx + 1 - k = (jx - k) + 1 by omega, pow_succ]
      ring
    rw [e, Nat.sub_self, pow_zero]
    ring

private theorem binom (n : Nat) (o x : K) :
    ∑ k ∈ range (n + 1), (n.choose k : K) * o ^ (n - k) * x ^ k = (x + o) ^ n := by
  rw [add_pow]
  exact sum_congr rfl fun k _ => by ring

private theorem scaleY_poly (nx ny : Nat) (offx offy : K) (ix iy : Nat) (hx : ix < nx) (jy : Nat) (hy : jy < ny)
    (off : K) (s : Nat → Nat → K) (x y : K) :
    polyOf nx ny (scaleY offx offy ix iy jy off s) x y = polyOf nx ny s x y +
      off * (x + offx) ^ ix * ∑ k ∈ range (jy + 1), (iy.choose k : K) * offy ^ (jy - k) * y ^ k := by
  induction jy generalizing off s with
  | zero =>
    rw [scaleY, scaleX_poly nx ny offx ix 0 hy ix hx, binom, pascal_choose]
    simp
  | succ jy ih =>
    rw [scaleY, ih (by omega), scaleX_poly nx ny offx ix _ hy ix hx, binom, pascal_choose,
      sum_range_succ _ (jy + 1)]
    have e : ∑ k ∈ range (jy + 1), (iy.choose k : K) * offy ^ (jy + 1 - k) * y ^ k =
        offy * ∑ k ∈ range (jy + 1), (iy.choose k : K) * offy ^ (jy - k) * y ^ k := by
      rw [mul_sum]
      refine sum_congr rfl fun k hk => ?_
      have := mem_range.mp hk
      rw [show jy + 1 - k = (jy - k) + 1 by omega, pow_succ]
      ring
    rw [e, Nat.sub_self, pow_zero]
    ring

private theorem scaleRow_poly (c : Nat → Nat → K) (nx ny : Nat) (offx offy : K) (iy : Nat) (hy : iy < ny)
    (n : Nat) (hn : n ≤ nx) (s : Nat → Nat → K) (x y : K) :
    polyOf nx ny (scaleRow c offx offy n iy s) x y = polyOf nx ny s x y +
      ∑ i ∈ range n, c i iy * (x + offx) ^ i * (y + offy) ^ iy := by
  induction n with
  | zero => simp [scaleRow]
  | succ n ih =>
    have e : scaleRow c offx offy (n + 1) iy s =
        scaleY offx offy n iy iy (c n iy) (scaleRow c offx offy n iy s) := by
      simp only [scaleRow, List.range_succ, List.foldl_append, List.foldl_cons, List.foldl_nil]
    rw [e, scaleY_poly nx ny offx offy n iy (by omega) iy hy, ih (by omega), binom, sum_range_succ]
    ring

private theorem scaleAll_poly (c : Nat → Nat → K) (nx ny : Nat) (offx offy : K) (n : Nat) (hn : n ≤ ny) (x y : K) :
    polyOf nx ny (scaleAll c offx offy nx n) x y =
      ∑ j ∈ range n, ∑ i ∈ range nx, c i j * (x + offx) ^ i * (y + offy) ^ j := by
  induction n with
  | zero => simp [scaleAll, polyOf]
  | succ n ih =>
    have e : scaleAll c offx offy nx (n + 1) = scaleRow c offx offy nx n (scaleAll c offx offy nx n) := by
      simp only [scaleAll, List.range_succ, List.foldl_append, List.foldl_cons, List.foldl_nil]
    rw [e, scaleRow_poly c nx ny offx offy n (by omega) nx le_rfl, ih (by omega), sum_range_succ]

private theorem foldl_pow (s a : K) (n : Nat) : (List.range n).foldl (fun s _ => s * a) s = s * a ^ n := by
  induction n with
  | zero => simp
  | succ n ih => rw [List.range_succ, List.foldl_append, List.foldl_cons, List.foldl_nil, ih, pow_succ, mul_assoc]

/-- C188: `scale2` gives the polynomial of the scaled coordinates. -/
theorem scale2_spec (m n : Mat K) (offx offy scalex scaley : K) (h : scale2 m offx offy scalex scaley = .ok n) :
    n.nx = m.nx ∧ n.ny = m.ny ∧
      ∀ x y, poly n x y = poly m (x * scalex + offx) (y * scaley + offy) := by
  rw [scale2] at h
  split_ifs at h with hc
  obtain rfl := Except.ok.inj h
  refine ⟨rfl, rfl, fun x y => ?_⟩
  have h1 := scaleAll_poly m.at_ m.nx m.ny offx offy m.ny le_rfl (x * scalex) (y * scaley)
  simp only [poly]
  rw [← h1, polyOf]
  refine sum_congr rfl fun j _ => sum_congr rfl fun i _ => ?_
  rw [scaleFactor, foldl_pow, foldl_pow, one_mul, mul_pow, mul_pow]
  ring

/-- A polynomial that is the same in x does not depend on x. -/
private theorem poly_nx_one (m : Mat K) (h : m.nx = 1) (x x' y : K) : poly m x y = poly m x' y := by
  simp [poly, h]

private theorem poly_ny_one (m : Mat K) (h : m.ny = 1) (x y y' : K) : poly m x y = poly m x y' := by
  simp [poly, h]

/-- C188: rescaling keeps the polynomial the same function of the coordinates: on the scale of the new domain it has
the values that the old one has on the scale of the old domain. The polynomial must have a domain, and the new
domain must not be empty. -/
theorem rescale_spec (m n : Mat K) (sx ex sy ey : K) (old : Box K) (hx : sx ≠ ex) (hy : sy ≠ ey)
    (ho : empty exact old = false) (h : rescale exact m sx ex sy ey old = .ok n) :
    n.nx = m.nx ∧ n.ny = m.ny ∧ ∀ X Y,
      poly n ((X - sx) / (ex - sx)) ((Y - sy) / (ey - sy)) =
        poly m ((X - old.lowerX) / (old.upperX - old.lowerX)) ((Y - old.lowerY) / (old.upperY - old.lowerY)) := by
  simp only [empty, ParmGrid.exact, Bool.or_eq_false_iff, decide_eq_false_iff_not] at ho
  have ox : old.upperX - old.lowerX ≠ 0 := fun e => ho.1 (sub_eq_zero.mp e).symm
  have oy : old.upperY - old.lowerY ≠ 0 := fun e => ho.2 (sub_eq_zero.mp e).symm
  have nx : ex - sx ≠ 0 := fun e => hx (sub_eq_zero.mp e).symm
  have ny : ey - sy ≠ 0 := fun e => hy (sub_eq_zero.mp e).symm
  rw [rescale] at h
  split_ifs at h with hc
  · obtain rfl := Except.ok.inj h
    refine ⟨rfl, rfl, fun X Y => ?_⟩
    rcases hc with hc | hc | ⟨h1, rfl, rfl⟩ | ⟨h1, rfl, rfl⟩
    · simp only [empty, ParmGrid.exact, Bool.or_eq_true, decide_eq_true_eq] at hc
      exact absurd hc (by push Not; exact ho)
    · have h1 : m.nx = 1 := Nat.eq_one_of_mul_eq_one_right hc
      have h2 : m.ny = 1 := Nat.eq_one_of_mul_eq_one_left hc
      rw [poly_nx_one m h1 _ ((X - old.lowerX) / (old.upperX - old.lowerX)), poly_ny_one m h2]
    · exact poly_nx_one m h1 _ _ _
    · exact poly_ny_one m h1 _ _ _
  · dsimp only at h
    obtain ⟨h1, h2, h3⟩ := scale2_spec _ _ _ _ _ _ h
    refine ⟨h1, h2, fun X Y => ?_⟩
    rw [h3]
    congr 1
    · field_simp; ring
    · field_simp; ring

/-- C188: rescaling succeeds for polynomials of at most ten coefficients in each direction. -/
theorem rescale_ok (m : Mat K) (sx ex sy ey : K) (old : Box K) (h1 : m.nx ≤ 10) (h2 : m.ny ≤ 10) :
    ∃ n, rescale exact m sx ex sy ey old = .ok n := by
  rw [rescale]
  split_ifs
  · exact ⟨_, rfl⟩
  · dsimp only
    rw [scale2, if_neg (by omega)]
    exact ⟨_, rfl⟩

/-- C188: a polynomial with more coefficients makes it read behind the table of binomials. -/
theorem rescale_overrun :
    ((rescale exact (⟨11, 1, fun _ _ => 1⟩ : Mat ℚ) 0 1 0 1 ⟨0, 0, 2, 1⟩).map fun m => m.nx) = .error .ub := by
  decide +kernel

/-! ## A parameter without values -/

theorem collect_ok {α β : Type} (f : α → Except Err (List β)) (l : List α) (w : List β)
    (h : collect f l = .ok w) : ∃ ws, List.Forall₂ (fun a r => f a = .ok r) l ws ∧ w = ws.flatten := by
  induction l generalizing w with
  | nil => simp only [collect, Except.ok.injEq] at h; exact ⟨[], .nil, by simp [← h]⟩
  | cons a as ih =>
    rw [collect] at h
    cases ha : f a with
    | error e => rw [ha] at h; simp at h
    | ok r =>
      rw [ha] at h
      simp only at h
      cases has : collect f as with
      | error e => rw [has] at h; simp at h
      | ok t =>
        rw [has] at h
        simp only [Except.ok.injEq] at h
        obtain ⟨ws, h1, h2⟩ := ih t has
        exact ⟨r :: ws, .cons ha h1, by rw [List.flatten_cons, ← h2, h]⟩

theorem collect_of {α β : Type} (f : α → Except Err (List β)) (l : List α)
    (h : ∀ a ∈ l, ∃ r, f a = .ok r) : ∃ w, collect f l = .ok w := by
  induction l with
  | nil => exact ⟨[], rfl⟩
  | cons a as ih =>
    obtain ⟨r, hr⟩ := h a (by simp)
    obtain ⟨t, ht⟩ := ih fun b hb => h b (by simp [hb])
    exact ⟨r ++ t, by rw [collect, hr]; simp only; rw [ht]⟩

private theorem flatten_index {β : Type} (ws : List (List β)) (n : Nat) (hn : ∀ w ∈ ws, w.length = n) (k j : Nat)
    (hj : j < n) : ws.flatten[j + k * n]? = (ws[k]?.bind fun w => w[j]?) := by
  induction ws generalizing k with
  | nil => simp
  | cons w ws ih =>
    have hw := hn w (by simp)
    cases k with
    | zero =>
      rw [List.flatten_cons, Nat.zero_mul, Nat.add_zero, List.getElem?_append_left (by omega)]
      simp
    | succ k =>
      rw [List.flatten_cons, List.getElem?_append_right (by rw [hw]; nlinarith), hw]
      rw [show j + (k + 1) * n - n = j + k * n by
        rw [Nat.succ_mul, ← Nat.add_assoc, Nat.add_sub_cancel]]
      rw [ih (fun w h => hn w (by simp [h]))]
      simp

private theorem singles {α β : Type} (f : α → Except Err (List β)) (l : List α) (ws : List (List β))
    (h : List.Forall₂ (fun a r => f a = .ok r) l ws) (h1 : ∀ a r, f a = .ok r → r.length = 1) :
    ws.flatten.length = l.length ∧ ∀ (i : Nat) a, l[i]? = some a → ∃ b, ws.flatten[i]? = some b ∧ f a = .ok [b] := by
  induction h with
  | nil => simp
  | @cons a r l ws ha _ ih =>
    obtain ⟨b, rfl⟩ := List.length_eq_one_iff.mp (h1 a r ha)
    refine ⟨by simp [ih.1], fun i c hc => ?_⟩
    cases i with
    | zero => simp at hc; subst hc; exact ⟨b, by simp, ha⟩
    | succ i => simpa using ih.2 i c (by simpa using hc)

theorem forall₂_at {α β : Type} {R : α → β → Prop} {l : List α} {r : List β} (h : List.Forall₂ R l r)
    {i : Nat} {a : α} (ha : l[i]? = some a) : ∃ b, r[i]? = some b ∧ R a b := by
  induction h generalizing i with
  | nil => simp at ha
  | cons h1 _ ih =>
    cases i with
    | zero => simp at ha; subst ha; exact ⟨_, by simp, h1⟩
    | succ i => simpa using ih (by simpa using ha)

/-- A value created for a cell. -/
def createOne (d : PVal K) (dom : Box K) (x y : K × K) : Except Err (List (PVal K)) :=
  if empty exact dom then .ok [d]
  else
    match rescale exact d.values x.1 x.2 y.1 y.2 dom with
    | .error e => .error e
    | .ok m => .ok [{ d with values := m }]

private theorem createOne_len (d : PVal K) (dom : Box K) (x y : K × K) (r : List (PVal K))
    (h : createOne d dom x y = .ok r) : r.length = 1 := by
  rw [createOne] at h
  split_ifs at h
  · obtain rfl := Except.ok.inj h; rfl
  · split at h
    · cases h
    · obtain rfl := Except.ok.inj h; rfl

private theorem createCoeff_eq (d : PVal K) (dom : Box K) (xs ys : Cells K) :
    createCoeff exact d dom xs ys = collect (fun y => collect (fun x => createOne d dom x y) xs) ys := rfl

private theorem createCoeff_at (d : PVal K) (dom : Box K) (xs ys : Cells K) (vs : List (PVal K))
    (h : createCoeff exact d dom xs ys = .ok vs) (kx ky : Nat) (tx ty : K × K) (hx : xs[kx]? = some tx)
    (hy : ys[ky]? = some ty) :
    ∃ v, vs[kx + ky * xs.length]? = some v ∧ createOne d dom tx ty = .ok [v] := by
  rw [createCoeff_eq] at h
  obtain ⟨ws, h1, rfl⟩ := collect_ok _ _ _ h
  have hlen : ∀ w ∈ ws, w.length = xs.length := by
    intro w hw
    obtain ⟨i, hi⟩ := List.mem_iff_getElem?.mp hw
    have : i < ys.length := by
      rw [h1.length_eq]; exact (List.getElem?_eq_some_iff.mp hi).1
    obtain ⟨w', h2, h3⟩ := forall₂_at h1 (List.getElem?_eq_getElem this)
    rw [hi] at h2
    obtain rfl := Option.some.inj h2
    obtain ⟨us, h4, rfl⟩ := collect_ok _ _ _ h3
    exact (singles _ _ _ h4 fun a r => createOne_len d dom a _ r).1
  have hkx : kx < xs.length := (List.getElem?_eq_some_iff.mp hx).1
  rw [flatten_index ws xs.length hlen ky kx hkx]
  obtain ⟨w, h2, h3⟩ := forall₂_at h1 hy
  obtain ⟨us, h4, rfl⟩ := collect_ok _ _ _ h3
  obtain ⟨b, h5, h6⟩ := (singles _ _ _ h4 fun a r => createOne_len d dom a _ r).2 kx tx hx
  exact ⟨b, by rw [h2]; exact h5, h6⟩

/-- The centre of a cell on the scale of a range. -/
private theorem nearest_exists (cells : Cells K) (hv : Valid cells) (x : K) : ∃ k t, Nearest cells x k ∧ cells[k]? = some t := by
  obtain ⟨c, h1, h2⟩ := find_nearest cells hv x 0
  exact ⟨_, c, ⟨c, h1, h2⟩, h1⟩

private theorem createCoeff_mem (d : PVal K) (dom : Box K) (xs ys : Cells K) (vs : List (PVal K))
    (h : createCoeff exact d dom xs ys = .ok vs) (v : PVal K) (hv : v ∈ vs) :
    ∃ tx ty, createOne d dom tx ty = .ok [v] := by
  rw [createCoeff_eq] at h
  obtain ⟨ws, h1, rfl⟩ := collect_ok _ _ _ h
  obtain ⟨w, hw, hv⟩ := List.mem_flatten.mp hv
  obtain ⟨i, hi⟩ := List.mem_iff_getElem?.mp hw
  have : i < ys.length := by rw [h1.length_eq]; exact (List.getElem?_eq_some_iff.mp hi).1
  obtain ⟨w', h2, h3⟩ := forall₂_at h1 (List.getElem?_eq_getElem this)
  rw [hi] at h2
  obtain rfl := Option.some.inj h2
  obtain ⟨us, h4, rfl⟩ := collect_ok _ _ _ h3
  have hs := singles _ _ _ h4 fun a r => createOne_len d dom a _ r
  obtain ⟨j, hj⟩ := List.mem_iff_getElem?.mp hv
  have hjl : j < xs.length := by rw [← hs.1]; exact (List.getElem?_eq_some_iff.mp hj).1
  obtain ⟨b, h5, h6⟩ := hs.2 j _ (List.getElem?_eq_getElem hjl)
  rw [hj] at h5
  obtain rfl := Option.some.inj h5
  exact ⟨_, _, h6⟩

/-- C188 (for at most ten coefficients in each direction; without the solve grid the values are other ones, see
`default_not_on_domain`): the solve grid gives a parameter without values one polynomial for each of its cells, which
all are the default polynomial: for every cell of any predict grid the result is the default polynomial at the
center, on the scale of its domain. -/
theorem create_same_partial (s : PSet K) (solve : Grid K) (hs : s.scalar = false) (hv : s.values = [])
    (hx : Valid solve.x.cells) (hy : Valid solve.y.cells) (ho : empty exact s.scaleDomain = false)
    (h0 : 0 < s.dflt.values.nx) (h1 : s.dflt.values.nx ≤ 10) (h2 : s.dflt.values.ny ≤ 10) :
    ∃ t, setSolveGrid exact s solve = .ok t ∧ t.grid = solve ∧ ∀ (predict : Grid K) ix iy fx fy,
      predict.x.cells[ix]? = some fx → predict.y.cells[iy]? = some fy →
      resultCoeff exact t predict ix iy =
        .ok (poly s.dflt.values ((center fx - s.scaleDomain.lowerX) / (s.scaleDomain.upperX - s.scaleDomain.lowerX))
          ((center fy - s.scaleDomain.lowerY) / (s.scaleDomain.upperY - s.scaleDomain.lowerY))) := by
  obtain ⟨vs, e⟩ : ∃ vs, createCoeff exact s.dflt s.scaleDomain solve.x.cells solve.y.cells = .ok vs := by
    rw [createCoeff_eq]
    refine collect_of _ _ fun y _ => collect_of _ _ fun x _ => ?_
    rw [createOne, if_neg (by simp [ho])]
    obtain ⟨n, hn⟩ := rescale_ok s.dflt.values x.1 x.2 y.1 y.2 s.scaleDomain h1 h2
    rw [hn]
    exact ⟨_, rfl⟩
  refine ⟨{ s with values := vs, grid := solve }, ?_, rfl, ?_⟩
  · rw [setSolveGrid, hv, List.isEmpty_nil, if_pos rfl, createValues, hs, if_neg (by simp), e]
  · intro predict ix iy fx fy hfx hfy
    obtain ⟨kx, tx, hkx, htx⟩ := nearest_exists solve.x.cells hx (center fx)
    obtain ⟨ky, ty, hky, hty⟩ := nearest_exists solve.y.cells hy (center fy)
    have hpos : ∀ v ∈ vs, 0 < v.values.nx := by
      intro v hv'
      obtain ⟨a, b, hab⟩ := createCoeff_mem _ _ _ _ _ e v hv'
      rw [createOne, if_neg (by simp [ho])] at hab
      split at hab
      · cases hab
      · rename_i m hm
        simp only [Except.ok.injEq, List.cons.injEq, and_true] at hab
        rw [← hab]
        show 0 < m.nx
        rw [rescale] at hm
        split_ifs at hm
        · obtain rfl := Except.ok.inj hm; exact h0
        · rw [(scale2_spec _ _ _ _ _ _ hm).1]; exact h0
    rw [result_coeff { s with values := vs, grid := solve } predict hx hy h0 hpos ix iy fx fy hfx hfy kx ky hkx hky
      tx ty htx hty]
    obtain ⟨v, h3, h4⟩ := createCoeff_at _ _ _ _ _ e kx ky tx ty htx hty
    rw [createOne, if_neg (by simp [ho])] at h4
    split at h4
    · cases h4
    · rename_i m hm
      simp only [Except.ok.injEq, List.cons.injEq, and_true] at h4
      have wx := hx.2.1 tx (List.mem_of_getElem? htx)
      have wy := hy.2.1 ty (List.mem_of_getElem? hty)
      have := (rescale_spec _ _ _ _ _ _ _ wx.ne wy.ne ho hm).2.2 (center fx) (center fy)
      rw [← this]
      have ev : cellValues { s with values := vs, grid := solve } (kx + ky * solve.x.cells.length) = m := by
        rw [cellValues]
        dsimp only
        rw [h3, ← h4]
      exact congrArg (fun q => Except.ok (poly q ((center fx - tx.1) / (tx.2 - tx.1)) ((center fy - ty.1) / (ty.2 - ty.1)))) ev

/-- A default polynomial `x` on the domain from 0 till 10, for a parameter without values. -/
def sampleDefault : PSet ℚ :=
  ⟨false, 1, false, none, defaultGrid, [], ⟨defaultGrid, ⟨2, 1, fun i _ => if i = 0 then 0 else 10⟩, none⟩,
    ⟨0, 0, 10, 1⟩⟩

/-- C188: without the solve grid the default polynomial is taken on the scale of the default grid, from -1e30 till
1e30. For the default polynomial `x` the result at 1 and at 7 is 5 (up to a relative difference of 1e-29, so it is
5 as a double), with the solve grid it is 1 and 7. -/
theorem default_not_on_domain :
    (resultCoeff exact sampleDefault ⟨regularAxis 0 2 1, regularAxis 0 1 1⟩ 0 0 = .ok (5 + 10 / (2 * 10 ^ 30)) ∧
     resultCoeff exact sampleDefault ⟨regularAxis 6 2 1, regularAxis 0 1 1⟩ 0 0 = .ok (5 + 70 / (2 * 10 ^ 30))) ∧
    ((setSolveGrid exact sampleDefault ⟨regularAxis 0 5 2, regularAxis 0 1 1⟩).bind fun t =>
      resultCoeff exact t ⟨regularAxis 0 2 1, regularAxis 0 1 1⟩ 0 0) = .ok 1 ∧
    ((setSolveGrid exact sampleDefault ⟨regularAxis 0 5 2, regularAxis 0 1 1⟩).bind fun t =>
      resultCoeff exact t ⟨regularAxis 6 2 1, regularAxis 0 1 1⟩ 0 0) = .ok 7 := by
  decide +kernel

example : sampleDefault.values = [] ∧ empty exact sampleDefault.scaleDomain = false ∧
    Valid (regularAxis (0 : ℚ) 5 2).cells := by
  refine ⟨rfl, by decide +kernel, regular_valid _ _ _ (by norm_num) (by norm_num)⟩

end DP3.ParmEval
