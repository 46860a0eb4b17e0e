import Verif.ParmEval.Model
import Verif.ParmGrid.CombineProps
import Mathlib.Algebra.BigOperators.Intervals
import Mathlib.Algebra.BigOperators.Ring.Finset
import Mathlib.Tactic.Ring
import Mathlib.Tactic.Linarith

/-!
# C187: the mapping of axes and the values of polynomials
-/

namespace DP3.ParmEval

open DP3.StringTools DP3.ParmGrid Finset

set_option linter.unusedSectionVars false
set_option linter.unusedSimpArgs false

variable {K : Type} [Field K] [LinearOrder K] [IsStrictOrderedRing K]

/-! ## Mapping -/

/-- The cell that a value belongs to: the one that contains it; for a value in no cell the next one, or the last
one. -/
def Nearest (cells : Cells K) (x : K) (k : Nat) : Prop :=
  ∃ c, cells[k]? = some c ∧
    (In true x c ∨
     (x < c.1 ∧ ∀ j d, j < k → cells[j]? = some d → d.2 ≤ x) ∨
     (c.2 ≤ x ∧ k + 1 = cells.length))

private theorem valid_lt {cells : Cells K} (hv : Valid cells) {i j : Nat} {c d : K × K} (hij : i < j)
    (hc : cells[i]? = some c) (hd : cells[j]? = some d) : c.2 ≤ d.1 := by
  obtain ⟨h1, rfl⟩ := List.getElem?_eq_some_iff.mp hc
  obtain ⟨h2, rfl⟩ := List.getElem?_eq_some_iff.mp hd
  exact List.pairwise_iff_getElem.mp hv.2.2 i j h1 h2 hij

private theorem valid_width {cells : Cells K} (hv : Valid cells) {i : Nat} {c : K × K}
    (hc : cells[i]? = some c) : c.1 < c.2 := hv.2.1 c (List.mem_of_getElem? hc)

/-- C187: a value belongs to at most one cell. -/
theorem nearest_unique (cells : Cells K) (hv : Valid cells) (x : K) (k l : Nat) (hk : Nearest cells x k)
    (hl : Nearest cells x l) : k = l := by
  wlog h : k < l generalizing k l
  · rcases Nat.lt_trichotomy k l with h1 | h1 | h1
    · exact absurd h1 h
    · exact h1
    · exact (this l k hl hk h1).symm
  exfalso
  obtain ⟨c, hc, hk⟩ := hk
  obtain ⟨d, hd, hl⟩ := hl
  have h1 := valid_lt hv h hc hd
  have h2 := valid_width hv hc
  have h3 := valid_width hv hd
  have hlen : l < cells.length := (List.getElem?_eq_some_iff.mp hd).1
  simp only [In, if_true] at hk hl
  rcases hk with hk | hk | hk
  · rcases hl with hl | hl | hl
    · linarith [hk.2, hl.1]
    · linarith [hl.2 k c h hc, hk.2]
    · linarith [hl.1, hk.2]
  · rcases hl with hl | hl | hl
    · linarith [hk.1, hl.1]
    · linarith [hl.2 k c h hc, hk.1]
    · linarith [hl.1, hk.1]
  · omega

/-- The index that the mapping takes is the one that the value belongs to. -/
theorem find_nearest (cells : Cells K) (hv : Valid cells) (x : K) (hint : Nat) :
    Nearest cells x (let i := (find exact cells x true hint).1
      if cells.length - 1 < i then cells.length - 1 else i) := by
  have hpos : 0 < cells.length := List.length_pos_iff.mpr hv.1
  by_cases h : ∃ c ∈ cells, In true x c
  · obtain ⟨c, hc, hin⟩ := h
    obtain ⟨i, hi⟩ := List.mem_iff_getElem?.mp hc
    rw [find_inside cells hv x true hint i c hi hin]
    have hlt := (List.getElem?_eq_some_iff.mp hi).1
    dsimp only
    rw [if_neg (by omega)]
    exact ⟨c, hi, .inl hin⟩
  · push Not at h
    obtain ⟨i, hi, hle, hs⟩ := find_outside cells hv x true hint h
    rw [hi]
    dsimp only
    by_cases he : cells.length - 1 < i
    · rw [if_pos he]
      have hl : cells.length - 1 < cells.length := by omega
      refine ⟨cells[cells.length - 1], List.getElem?_eq_getElem hl, .inr (.inr ⟨?_, by omega⟩)⟩
      have := hs (cells.length - 1) _ (List.getElem?_eq_getElem hl)
      rwa [if_pos he] at this
    · rw [if_neg he]
      have hl : i < cells.length := by omega
      refine ⟨cells[i], List.getElem?_eq_getElem hl, .inr (.inl ⟨?_, ?_⟩)⟩
      · have h1 := hs i _ (List.getElem?_eq_getElem hl)
        rw [if_neg (lt_irrefl _)] at h1
        have h2 := h _ (List.getElem_mem hl)
        have h3 := valid_width hv (List.getElem?_eq_getElem hl)
        simp only [In, if_true, not_and, not_lt] at h2
        rcases lt_or_eq_of_le h1 with h4 | h4
        · exact h4
        · exact absurd (h2 h4.ge) (not_le.mpr (h4 ▸ h3))
      · intro j d hj hd
        have := hs j d hd
        rwa [if_pos hj] at this

/-- What a mapping says about one cell of the first axis: the cell of the second axis that its center belongs to,
and the center on the scale of that cell. -/
def Maps (dst : Cells K) (f : K × K) (r : Nat × K) : Prop :=
  Nearest dst (center f) r.1 ∧ ∀ t, dst[r.1]? = some t → r.2 = (center f - t.1) / (t.2 - t.1)

private theorem mapLoop_spec (dst : Cells K) (hv : Valid dst) (src : Cells K) (i inx : Nat) :
    ∃ r, mapLoop exact dst i inx src = .ok r ∧ List.Forall₂ (Maps dst) src r.1 ∧
      ∀ b, b ∈ r.2 ↔ ∃ k, b = i + k ∧ 0 < b ∧ k < src.length ∧
        (r.1[k]?.map Prod.fst) ≠ (if k = 0 then some inx else r.1[k - 1]?.map Prod.fst) := by
  induction src generalizing i inx with
  | nil => exact ⟨([], []), rfl, .nil, by simp⟩
  | cons f fs ih =>
    rw [mapLoop]
    have hn := find_nearest dst hv (center f) inx
    dsimp only at hn ⊢
    generalize hk : (if dst.length - 1 < (find exact dst (center f) true inx).1 then dst.length - 1
      else (find exact dst (center f) true inx).1) = k at hn ⊢
    obtain ⟨t, ht, h⟩ := hn
    rw [ht]
    obtain ⟨r, hr, h1, h2⟩ := ih (i + 1) k
    simp only [hr]
    refine ⟨_, rfl, .cons ⟨⟨t, ht, h⟩, ?_⟩ h1, ?_⟩
    · intro t' ht'
      rw [ht] at ht'
      obtain rfl := Option.some.inj ht'
      rfl
    · intro b
      have step : (b ∈ r.2) ↔ ∃ j, b = i + (j + 1) ∧ 0 < b ∧ j + 1 < (f :: fs).length ∧
          ((((k, (center f - t.1) / (t.2 - t.1)) :: r.1)[j + 1]?.map Prod.fst) ≠
            (((k, (center f - t.1) / (t.2 - t.1)) :: r.1)[j]?.map Prod.fst)) := by
        rw [h2]
        constructor
        · rintro ⟨j, e1, e2, e3, e4⟩
          refine ⟨j, by omega, e2, by simpa using e3, ?_⟩
          rw [List.getElem?_cons_succ]
          cases j with
          | zero => simpa using e4
          | succ j => simpa using e4
        · rintro ⟨j, e1, e2, e3, e4⟩
          refine ⟨j, by omega, e2, by simpa using e3, ?_⟩
          rw [List.getElem?_cons_succ] at e4
          cases j with
          | zero => simpa using e4
          | succ j => simpa using e4
      have key : (∃ j, b = i + j ∧ 0 < b ∧ j < (f :: fs).length ∧
          ((((k, (center f - t.1) / (t.2 - t.1)) :: r.1)[j]?.map Prod.fst) ≠
            (if j = 0 then some inx else
              ((k, (center f - t.1) / (t.2 - t.1)) :: r.1)[j - 1]?.map Prod.fst))) ↔
          ((b = i ∧ 0 < i ∧ k ≠ inx) ∨ b ∈ r.2) := by
        rw [step]
        constructor
        · rintro ⟨j, e1, e2, e3, e4⟩
          cases j with
          | zero => exact .inl ⟨by omega, by omega, by simpa using e4⟩
          | succ j => exact .inr ⟨j, e1, e2, e3, by simpa using e4⟩
        · rintro (⟨e1, e2, e3⟩ | ⟨j, e1, e2, e3, e4⟩)
          · exact ⟨0, by omega, by omega, by simp, by simpa using e3⟩
          · exact ⟨j + 1, e1, e2, e3, by simpa using e4⟩
      rw [key]
      by_cases hb : k ≠ inx ∧ 0 < i
      · rw [if_pos hb, List.mem_cons]
        constructor
        · rintro (rfl | h)
          · exact .inl ⟨rfl, hb.2, hb.1⟩
          · exact .inr h
        · rintro (⟨rfl, -⟩ | h)
          · exact .inl rfl
          · exact .inr h
      · rw [if_neg hb]
        constructor
        · exact .inr
        · rintro (⟨-, e2, e3⟩ | h)
          · exact absurd ⟨e3, e2⟩ hb
          · exact h

/-- C187: onto an axis with cells every axis can be mapped: each of its cells to the cell that its center belongs
to, with the center on the scale of that cell. The borders are the size of the axis and the cells that are mapped
to another cell than the one before. -/
theorem mapping_spec (src dst : Cells K) (hv : Valid dst) :
    ∃ m, axisMapping exact src dst = .ok m ∧ List.Forall₂ (Maps dst) src m.cells ∧
      ∀ b, b ∈ m.borders ↔ b = src.length ∨ ∃ k, b = k + 1 ∧ k + 1 < src.length ∧
        (m.cells[k + 1]?.map Prod.fst) ≠ (m.cells[k]?.map Prod.fst) := by
  obtain ⟨r, hr, h1, h2⟩ := mapLoop_spec dst hv src 0 0
  refine ⟨⟨r.1, r.2 ++ [src.length]⟩, by rw [axisMapping, hr], h1, ?_⟩
  intro b
  rw [List.mem_append, h2, List.mem_singleton]
  constructor
  · rintro (⟨k, e1, e2, e3, e4⟩ | h)
    · cases k with
      | zero => omega
      | succ k => exact .inr ⟨k, by omega, e3, by simpa using e4⟩
    · exact .inl h
  · rintro (h | ⟨k, e1, e2, e3⟩)
    · exact .inr h
    · exact .inl ⟨k + 1, by omega, by omega, e2, by simpa using e3⟩

private theorem mapLoop_sorted (near : K → K → Bool) (dst src : Cells K) (i inx : Nat) (r : List (Nat × K) × List Nat)
    (h : mapLoop near dst i inx src = .ok r) :
    r.2.Pairwise (· < ·) ∧ ∀ b ∈ r.2, i ≤ b ∧ 0 < b ∧ b < i + src.length := by
  induction src generalizing i inx r with
  | nil => simp only [mapLoop, Except.ok.injEq] at h; subst h; simp
  | cons f fs ih =>
    rw [mapLoop] at h
    split at h
    · cases h
    · split at h
      · cases h
      · rename_i r' hr
        obtain ⟨h1, h2⟩ := ih _ _ _ hr
        obtain rfl := Except.ok.inj h
        dsimp only
        generalize (if dst.length - 1 < (find near dst (center f) true inx).1 then dst.length - 1
          else (find near dst (center f) true inx).1) = n
        by_cases hc : n ≠ inx ∧ 0 < i
        · rw [if_pos hc]
          refine ⟨List.pairwise_cons.mpr ⟨fun b hb => ?_, h1⟩, ?_⟩
          · have := (h2 b hb).1; omega
          · intro b hb
            rcases List.mem_cons.mp hb with rfl | hb
            · simp; omega
            · have := h2 b hb; simp; omega
        · rw [if_neg hc]
          exact ⟨h1, fun b hb => by have := h2 b hb; simp; omega⟩

/-- The borders are in order and end with the size of the axis. -/
theorem mapping_borders (src dst : Cells K) (near : K → K → Bool) (m : AxisMap K)
    (h : axisMapping near src dst = .ok m) (hs : src ≠ []) :
    m.borders.Pairwise (· < ·) ∧ (∀ b ∈ m.borders, 0 < b) ∧ m.borders.getLast? = some src.length := by
  rw [axisMapping] at h
  split at h
  · cases h
  · rename_i r hr
    obtain ⟨h1, h2⟩ := mapLoop_sorted near dst src 0 0 r hr
    obtain rfl := Except.ok.inj h
    have hpos := List.length_pos_iff.mpr hs
    refine ⟨List.pairwise_append.mpr ⟨h1, by simp, ?_⟩, ?_, by simp⟩
    · intro a ha b hb
      rw [List.mem_singleton] at hb
      have := h2 a ha; omega
    · intro b hb
      rcases List.mem_append.mp hb with hb | hb
      · exact (h2 b hb).2.1
      · rw [List.mem_singleton] at hb; omega

/-! ## Polynomials -/

/-- The polynomial with the coefficients of a matrix: sigma(c[i,j] * x^i * y^j). -/
def poly (m : Mat K) (x y : K) : K :=
  ∑ j ∈ range m.ny, ∑ i ∈ range m.nx, m.at_ i j * x ^ i * y ^ j

private theorem hornerLoop_spec (c : Nat → K) (x : K) (n : Nat) (s : K) :
    hornerLoop c x n s = s * x ^ n + ∑ i ∈ range n, c (i + 1) * x ^ (i + 1) := by
  induction n generalizing s with
  | zero => simp [hornerLoop]
  | succ n ih => rw [hornerLoop, ih, sum_range_succ]; ring

theorem evalRow_spec (c : Nat → K) (x : K) (n : Nat) (h : 0 < n) :
    evalRow c x n = ∑ i ∈ range n, c i * x ^ i := by
  obtain ⟨n, rfl⟩ : ∃ k, n = k + 1 := ⟨n - 1, by omega⟩
  rw [evalRow, hornerLoop_spec, sum_range_succ']
  simp

theorem evalLoop_spec (c : Nat → Nat → K) (nx : Nat) (h : 0 < nx) (x y : K) (n j : Nat) (yp val : K) :
    evalLoop c nx x y n j yp val =
      val + yp * ∑ k ∈ range n, y ^ k * ∑ i ∈ range nx, c i (j + k) * x ^ i := by
  induction n generalizing j yp val with
  | zero => simp [evalLoop]
  | succ n ih =>
    rw [evalLoop, ih, evalRow_spec _ _ _ h, sum_range_succ']
    have e : ∀ k, j + 1 + k = j + (k + 1) := fun k => by omega
    simp only [e, pow_succ, pow_zero, Nat.add_zero, one_mul, mul_add, mul_sum]
    rw [add_assoc, add_comm (∑ i ∈ range nx, yp * (c i j * x ^ i))]
    congr 2
    refine sum_congr rfl fun k _ => sum_congr rfl fun i _ => ?_
    ring

/-- C187: the loops give the polynomial. -/
theorem evalPoly_spec (m : Mat K) (h : 0 < m.nx) (x y : K) : evalPoly m x y = poly m x y := by
  rw [evalPoly, evalLoop_spec _ _ h, poly, zero_add, one_mul]
  refine sum_congr rfl fun j _ => ?_
  rw [mul_sum]
  refine sum_congr rfl fun i _ => ?_
  rw [Nat.zero_add]; ring

private theorem forall₂_get {α β : Type} {R : α → β → Prop} {l : List α} {r : List β} (h : List.Forall₂ R l r)
    {i : Nat} {a : α} (ha : l[i]? = some a) : ∃ b, r[i]? = some b ∧ R a b := by
  induction h generalizing i with
  | nil => simp at ha
  | cons h1 _ ih =>
    cases i with
    | zero => simp at ha; subst ha; exact ⟨_, by simp, h1⟩
    | succ i => simpa using ih (by simpa using ha)

private theorem forall₂_length {α β : Type} {R : α → β → Prop} {l : List α} {r : List β}
    (h : List.Forall₂ R l r) : l.length = r.length := h.length_eq

/-- A cell on an axis that a mapping gives for a cell of the first axis. -/
theorem mapping_at (src dst : Cells K) (hv : Valid dst) (m : AxisMap K) (h : axisMapping exact src dst = .ok m)
    (i : Nat) (f : K × K) (hf : src[i]? = some f) (k : Nat) (hk : Nearest dst (center f) k) (t : K × K)
    (ht : dst[k]? = some t) : m.cells[i]? = some (k, (center f - t.1) / (t.2 - t.1)) := by
  obtain ⟨m', e, h1, -⟩ := mapping_spec src dst hv
  rw [h] at e
  obtain rfl := Except.ok.inj e
  obtain ⟨b, hb, h2, h3⟩ := forall₂_get h1 hf
  have : b.1 = k := nearest_unique dst hv _ _ _ h2 hk
  rw [hb]
  congr 1
  exact Prod.ext this (h3 t (this ▸ ht))

/-- C187: for every cell of the predict grid the result is the polynomial of the cell of the domain grid that the
center belongs to (the default polynomial when there is none), at the center on the scale of that cell. -/
theorem result_coeff (s : PSet K) (predict : Grid K) (hx : Valid s.grid.x.cells) (hy : Valid s.grid.y.cells)
    (hd : 0 < s.dflt.values.nx) (hs : ∀ v ∈ s.values, 0 < v.values.nx) (ix iy : Nat) (fx fy : K × K)
    (hfx : predict.x.cells[ix]? = some fx) (hfy : predict.y.cells[iy]? = some fy) (kx ky : Nat)
    (hkx : Nearest s.grid.x.cells (center fx) kx) (hky : Nearest s.grid.y.cells (center fy) ky)
    (tx ty : K × K) (htx : s.grid.x.cells[kx]? = some tx) (hty : s.grid.y.cells[ky]? = some ty) :
    resultCoeff exact s predict ix iy =
      .ok (poly (cellValues s (kx + ky * s.grid.x.cells.length))
        ((center fx - tx.1) / (tx.2 - tx.1)) ((center fy - ty.1) / (ty.2 - ty.1))) := by
  obtain ⟨mx, ex, -⟩ := mapping_spec predict.x.cells s.grid.x.cells hx
  obtain ⟨my, ey, -⟩ := mapping_spec predict.y.cells s.grid.y.cells hy
  have h1 := mapping_at _ _ hx mx ex ix fx hfx kx hkx tx htx
  have h2 := mapping_at _ _ hy my ey iy fy hfy ky hky ty hty
  simp only [resultCoeff, ex, ey, h1, h2]
  have hpos : 0 < (cellValues s (kx + ky * s.grid.x.cells.length)).nx := by
    rw [cellValues]
    cases hv : s.values[kx + ky * s.grid.x.cells.length]? with
    | none => exact hd
    | some v => exact hs v (List.mem_of_getElem? hv)
  rw [if_neg (by omega), evalPoly_spec _ hpos]

/-! An example: two cells in x with a polynomial of degree one each. -/

def sampleGrid : Grid ℚ := ⟨⟨none, [(0, 2), (2, 6)]⟩, regularAxis 0 10 1⟩

def sampleLine (a b : ℚ) : PVal ℚ := ⟨defaultGrid, ⟨2, 1, fun i _ => if i = 0 then a else b⟩, none⟩

def sampleSet : PSet ℚ :=
  ⟨false, 1, false, none, sampleGrid, [sampleLine 1 4, sampleLine 3 8], sampleLine 0 0, ⟨0, 0, 0, 0⟩⟩

def samplePredict : Grid ℚ := ⟨regularAxis 1 2 3, regularAxis 0 10 1⟩

example : Valid sampleGrid.x.cells ∧ Valid sampleGrid.y.cells := by
  refine ⟨⟨by decide, by decide +kernel, by decide +kernel⟩, ⟨by decide, by decide +kernel, by decide +kernel⟩⟩
example : (List.range 3).map (fun ix => resultCoeff exact sampleSet samplePredict ix 0) =
    [.ok 3, .ok 7, .ok 11] := by decide +kernel

end DP3.ParmEval
