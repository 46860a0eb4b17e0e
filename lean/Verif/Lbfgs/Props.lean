import Verif.Lbfgs.Model
import Mathlib.Analysis.SpecialFunctions.Log.Deriv
import Mathlib.Tactic.Ring
import Mathlib.Tactic.Linarith
import Mathlib.Tactic.FieldSimp
import Mathlib.Algebra.BigOperators.Intervals

/-!
# C213 to C215: the LBFGS solver
-/

namespace DP3.Lbfgs

set_option linter.unusedSimpArgs false
set_option linter.unusedSectionVars false

section Ring
variable {K : Type} [CommRing K]

/-- The Jones matrix of a solution. -/
def Mode.jones (m : Mode) (s : Nat → Cx K) (i : Nat) : M2 K :=
  match m with
  | .full => ⟨s i, s (i + 1), s (i + 2), s (i + 3)⟩
  | .diagonal => ⟨s i, 0, 0, s (i + 1)⟩
  | .scalar => ⟨s i, 0, 0, s i⟩

/-- C213: the residual is that of the measurement equation with the Jones matrices of the mode. -/
theorem predicted_eq (m : Mode) (s : Nat → Cx K) (i1 i2 : Nat) (md : M2 K) :
    m.predicted s i1 i2 md = m.jones s i1 * md * (m.jones s i2).herm := by
  cases m with
  | full => rfl
  | diagonal => ext <;> simp [Mode.predicted, Mode.jones, M2.herm] <;> ring
  | scalar => ext <;> simp [Mode.predicted, Mode.jones, M2.herm, M2.smul] <;> ring

/-- The real inner product of matrices. -/
def ip (x y : M2 K) : K :=
  (x.a.re * y.a.re + x.a.im * y.a.im) + (x.b.re * y.b.re + x.b.im * y.b.im) + (x.c.re * y.c.re + x.c.im * y.c.im) +
    (x.d.re * y.d.re + x.d.im * y.d.im)

/-- The inner product of a change of the solutions with something that is added to the gradient. -/
def pair (m : Mode) (δ : Nat → Cx K) (c : Nat × Cx K) : K := c.2.re * (δ c.1).re + m.sign * c.2.im * (δ c.1).im

private theorem terms_pair (m : Mode) (s δ : Nat → Cx K) (i1 i2 : Nat) (md r : M2 K) :
    ((m.terms s i1 i2 md r).map (pair m δ)).sum =
      ip (r * m.jones s i2 * md.herm) (m.jones δ i1) + ip (r.herm * m.jones s i1 * md) (m.jones δ i2) := by
  cases m with
  | full =>
    simp only [Mode.terms, Mode.jones, matrix, List.map_cons, List.map_nil, List.sum_cons, List.sum_nil, pair, Mode.sign,
      ip]
    ring
  | diagonal =>
    simp only [Mode.terms, Mode.jones, List.map_cons, List.map_nil, List.sum_cons, List.sum_nil, pair, Mode.sign, ip,
      M2.herm, M2.mul_a, M2.mul_b, M2.mul_c, M2.mul_d, Cx.add_re, Cx.add_im, Cx.mul_re, Cx.mul_im, Cx.conj_re, Cx.conj_im,
      Cx.zero_re, Cx.zero_im]
    ring
  | scalar =>
    simp only [Mode.terms, Mode.jones, List.map_cons, List.map_nil, List.sum_cons, List.sum_nil, pair, Mode.sign, ip,
      M2.herm, M2.mul_a, M2.mul_b, M2.mul_c, M2.mul_d, Cx.add_re, Cx.add_im, Cx.mul_re, Cx.mul_im, Cx.conj_re, Cx.conj_im,
      Cx.zero_re, Cx.zero_im]
    ring

/-- The product with a real number. -/
def rs (t : K) (x : M2 K) : M2 K := x.smul (Cx.ofReal t)

private theorem jones_line (m : Mode) (u v : Nat → K) (n i : Nat) (t : K) :
    m.jones (solution (fun j => u j + t * v j) n) i = m.jones (solution u n) i + rs t (m.jones (solution v n) i) := by
  cases m <;> ext <;> simp [Mode.jones, solution, rs, M2.smul, Cx.ofReal] <;> ring

/-- The residual along a line is a polynomial of degree two; what its linear term is. -/
private theorem residual_line (m : Mode) (nDir : Nat) (u v : Nat → K) (n : Nat) (x : Vis K) (l : List Nat) : ∀ r0 : M2 K,
    ∃ r1 r2 : M2 K, (∀ t : K,
      l.foldl (fun r d => r - m.predicted (solution (fun j => u j + t * v j) n) (m.base nDir x.a1 d) (m.base nDir x.a2 d)
        (x.model d)) r0 =
      l.foldl (fun r d => r - m.predicted (solution u n) (m.base nDir x.a1 d) (m.base nDir x.a2 d) (x.model d)) r0 +
        rs t r1 + rs (t * t) r2) ∧
      ∀ w : M2 K, ip w r1 = - (l.map fun d =>
        ip (w * m.jones (solution u n) (m.base nDir x.a2 d) * (x.model d).herm) (m.jones (solution v n) (m.base nDir x.a1 d)) +
        ip (w.herm * m.jones (solution u n) (m.base nDir x.a1 d) * x.model d) (m.jones (solution v n) (m.base nDir x.a2 d))).sum := by
  have shift : ∀ (f : Nat → M2 K) (l : List Nat) (r e : M2 K), l.foldl (fun r d => r - f d) (r + e) =
      l.foldl (fun r d => r - f d) r + e := by
    intro f l
    induction l with
    | nil => intro r e; rfl
    | cons d l ih =>
      intro r e
      rw [List.foldl_cons, List.foldl_cons, ← ih]
      congr 1
      abel
  induction l with
  | nil =>
    intro r0
    refine ⟨0, 0, fun t => ?_, fun w => ?_⟩
    · ext <;> simp [rs, M2.smul]
    · simp [ip]
  | cons d l ih =>
    intro r0
    set a := m.base nDir x.a1 d
    set b := m.base nDir x.a2 d
    set J1 := m.jones (solution u n) a
    set J2 := m.jones (solution u n) b
    set D1 := m.jones (solution v n) a
    set D2 := m.jones (solution v n) b
    set M := x.model d
    obtain ⟨r1, r2, h1, h2⟩ := ih (r0 - m.predicted (solution u n) a b M)
    refine ⟨r1 - (J1 * M * D2.herm + D1 * M * J2.herm), r2 - D1 * M * D2.herm, fun t => ?_, fun w => ?_⟩
    · rw [List.foldl_cons, List.foldl_cons]
      have e : r0 - m.predicted (solution (fun j => u j + t * v j) n) a b M =
          (r0 - m.predicted (solution u n) a b M) +
            -(rs t (J1 * M * D2.herm + D1 * M * J2.herm) + rs (t * t) (D1 * M * D2.herm)) := by
        rw [predicted_eq, predicted_eq, jones_line, jones_line]
        change r0 - (J1 + rs t D1) * M * (J2 + rs t D2).herm = r0 - J1 * M * J2.herm + _
        have : (J1 + rs t D1) * M * (J2 + rs t D2).herm = J1 * M * J2.herm +
            (rs t (J1 * M * D2.herm + D1 * M * J2.herm) + rs (t * t) (D1 * M * D2.herm)) := by
          ext <;> simp only [rs, M2.smul, M2.herm, M2.mul_a, M2.mul_b, M2.mul_c, M2.mul_d, M2.add_a, M2.add_b, M2.add_c,
            M2.add_d, Cx.add_re, Cx.add_im, Cx.mul_re, Cx.mul_im, Cx.conj_re, Cx.conj_im, Cx.ofReal_re, Cx.ofReal_im] <;> ring
        rw [this]
        abel
      rw [e, shift, h1 t]
      ext <;> simp only [rs, M2.smul, M2.sub_a, M2.sub_b, M2.sub_c, M2.sub_d, M2.neg_a, M2.neg_b, M2.neg_c, M2.neg_d,
        M2.add_a, M2.add_b, M2.add_c, M2.add_d, Cx.add_re, Cx.add_im, Cx.sub_re, Cx.sub_im, Cx.neg_re, Cx.neg_im, Cx.mul_re,
        Cx.mul_im, Cx.ofReal_re, Cx.ofReal_im] <;> ring
    · rw [List.map_cons, List.sum_cons, neg_add, ← h2 w]
      have : ip w (J1 * M * D2.herm + D1 * M * J2.herm) = ip (w * J2 * M.herm) D1 + ip (w.herm * J1 * M) D2 := by
        simp only [ip, M2.herm, M2.mul_a, M2.mul_b, M2.mul_c, M2.mul_d, M2.add_a, M2.add_b, M2.add_c, M2.add_d,
          Cx.add_re, Cx.add_im, Cx.mul_re, Cx.mul_im, Cx.conj_re, Cx.conj_im]
        ring
      have e2 : ip w (r1 - (J1 * M * D2.herm + D1 * M * J2.herm)) = ip w r1 - ip w (J1 * M * D2.herm + D1 * M * J2.herm) := by
        simp only [ip, M2.sub_a, M2.sub_b, M2.sub_c, M2.sub_d, Cx.sub_re, Cx.sub_im]
        ring
      rw [e2, this]
      change _ = -(ip (w * J2 * M.herm) D1 + ip (w.herm * J1 * M) D2) + ip w r1
      ring

private theorem norm_line (r0 r1 r2 : M2 K) : ∃ c2 c3 c4 : K, ∀ t : K, (r0 + rs t r1 + rs (t * t) r2).norm =
    r0.norm + t * (2 * ip r0 r1) + t ^ 2 * c2 + t ^ 3 * c3 + t ^ 4 * c4 := by
  refine ⟨r1.norm + 2 * ip r0 r2, 2 * ip r1 r2, r2.norm, fun t => ?_⟩
  simp only [M2.norm, Cx.normSq, ip, rs, M2.smul, M2.add_a, M2.add_b, M2.add_c, M2.add_d, Cx.add_re, Cx.add_im, Cx.mul_re,
    Cx.mul_im, Cx.ofReal_re, Cx.ofReal_im]
  ring

/-- Something that is added to the gradient adds to its inner product with a change. -/
private theorem addAt_sum (m : Mode) (δ : Nat → Cx K) (n : Nat) (l : List (Nat × Cx K)) : ∀ g : Nat → Cx K,
    (∀ c ∈ l, c.1 < n) →
    ∑ i ∈ Finset.range n, pair m δ (i, l.foldl addAt g i) =
      ∑ i ∈ Finset.range n, pair m δ (i, g i) + (l.map (pair m δ)).sum := by
  induction l with
  | nil => intro g _; simp
  | cons c l ih =>
    intro g h
    rw [List.foldl_cons, ih _ (fun c hc => h c (by simp [hc])), List.map_cons, List.sum_cons, ← add_assoc]
    congr 1
    have hc := h c (by simp)
    have : ∀ i, pair m δ (i, addAt g c i) = pair m δ (i, g i) + if i = c.1 then pair m δ c else 0 := by
      intro i
      unfold addAt pair
      split_ifs with hi
      · subst hi
        simp only [Cx.add_re, Cx.add_im]
        ring
      · ring
    rw [Finset.sum_congr rfl (fun i _ => this i), Finset.sum_add_distrib, Finset.sum_ite_eq' (Finset.range n) c.1]
    simp [hc]

end Ring

section Real

private theorem poly_deriv (f : ℝ → ℝ) (c0 c1 c2 c3 c4 : ℝ)
    (h : ∀ t, f t = c0 + t * c1 + t ^ 2 * c2 + t ^ 3 * c3 + t ^ 4 * c4) : HasDerivAt f c1 0 := by
  have e : f = fun t => c0 + t * c1 + t ^ 2 * c2 + t ^ 3 * c3 + t ^ 4 * c4 := funext h
  rw [e]
  have h1 := ((hasDerivAt_id (0 : ℝ)).mul_const c1).const_add c0
  have h2 := ((hasDerivAt_id (0 : ℝ)).pow 2).mul_const c2
  have h3 := ((hasDerivAt_id (0 : ℝ)).pow 3).mul_const c3
  have h4 := ((hasDerivAt_id (0 : ℝ)).pow 4).mul_const c4
  have := ((h1.add h2).add h3).add h4
  exact this.congr_deriv (by simp)

/-- The derivative of the term of one visibility. -/
private theorem vis_deriv (m : Mode) (nDir : Nat) (nu : ℝ) (hnu : 0 < nu) (u v : Nat → ℝ) (n : Nat) (x : Vis ℝ) :
    HasDerivAt (fun t : ℝ => Real.log (1 + (residual m nDir (solution (fun j => u j + t * v j) n) x).norm / nu))
      ((-2 / (nu + (residual m nDir (solution u n) x).norm)) * ((List.range nDir).map fun d =>
        ((m.terms (solution u n) (m.base nDir x.a1 d) (m.base nDir x.a2 d) (x.model d)
          (residual m nDir (solution u n) x)).map (pair m (solution v n))).sum).sum) 0 := by
  obtain ⟨r1, r2, h1, h2⟩ := residual_line m nDir u v n x (List.range nDir) x.data
  set r0 := residual m nDir (solution u n) x with hr0
  have h1' : ∀ t : ℝ, residual m nDir (solution (fun j => u j + t * v j) n) x = r0 + rs t r1 + rs (t * t) r2 := h1
  obtain ⟨c2, c3, c4, hc⟩ := norm_line r0 r1 r2
  have hN : HasDerivAt (fun t : ℝ => (residual m nDir (solution (fun j => u j + t * v j) n) x).norm) (2 * ip r0 r1) 0 :=
    poly_deriv _ r0.norm _ c2 c3 c4 (fun t => by rw [h1' t, hc t])
  have h0 : (residual m nDir (solution (fun j => u j + (0 : ℝ) * v j) n) x).norm = r0.norm := by
    rw [h1' 0, hc 0]; ring
  have hpos : 0 < 1 + r0.norm / nu := by
    have := div_nonneg (M2.norm_nonneg r0) hnu.le
    linarith
  have hnn : 0 < nu + r0.norm := by
    have := M2.norm_nonneg r0
    linarith
  have hd := ((hN.div_const nu).const_add 1).log (by simp only [h0]; exact hpos.ne')
  simp only [h0] at hd
  convert hd using 1
  rw [h2 r0]
  have : (List.range nDir).map (fun d => ((m.terms (solution u n) (m.base nDir x.a1 d) (m.base nDir x.a2 d) (x.model d)
      r0).map (pair m (solution v n))).sum) = (List.range nDir).map fun d =>
        ip (r0 * m.jones (solution u n) (m.base nDir x.a2 d) * (x.model d).herm) (m.jones (solution v n) (m.base nDir x.a1 d)) +
        ip (r0.herm * m.jones (solution u n) (m.base nDir x.a1 d) * x.model d) (m.jones (solution v n) (m.base nDir x.a2 d)) := by
    refine List.map_congr_left ?_
    intro d _
    exact terms_pair m (solution u n) (solution v n) _ _ _ _
  rw [this]
  field_simp

/-- The indices of a visibility are within the solutions. -/
private theorem base_lt (m : Mode) (nAnt nDir a d p : Nat) (ha : a < nAnt) (hd : d < nDir) (hp : p < m.nPol) :
    m.base nDir a d + p < m.nSol nAnt nDir := by
  unfold Mode.base Mode.nSol
  have h1 : (a + 1) * nDir ≤ nAnt * nDir := Nat.mul_le_mul_right nDir ha
  rw [Nat.succ_mul] at h1
  have h2 : (a * nDir + d + 1) * m.nPol ≤ nAnt * nDir * m.nPol := Nat.mul_le_mul_right m.nPol (by omega)
  rw [Nat.succ_mul] at h2
  omega

/-- C215: every place of the gradient that is changed is within it. -/
theorem indices_in_bounds (m : Mode) (nAnt nDir : Nat) (nu : ℝ) (k : Nat) (s : Nat → Cx ℝ) (x : Vis ℝ) (h1 : x.a1 < nAnt)
    (h2 : x.a2 < nAnt) : ∀ c ∈ visTerms m nDir nu k s x, c.1 < m.nSol nAnt nDir := by
  intro c hc
  unfold visTerms at hc
  simp only [List.mem_flatMap, List.mem_range, List.mem_map] at hc
  obtain ⟨d, hd, e, he, rfl⟩ := hc
  have b1 := fun p => base_lt m nAnt nDir x.a1 d p h1 hd
  have b2 := fun p => base_lt m nAnt nDir x.a2 d p h2 hd
  cases m <;> simp only [Mode.terms, List.mem_cons, List.not_mem_nil, or_false, Mode.nPol] at he b1 b2
  · rcases he with rfl | rfl | rfl | rfl | rfl | rfl | rfl | rfl
    · exact b1 0 (by omega)
    · exact b1 1 (by omega)
    · exact b1 2 (by omega)
    · exact b1 3 (by omega)
    · exact b2 0 (by omega)
    · exact b2 1 (by omega)
    · exact b2 2 (by omega)
    · exact b2 3 (by omega)
  · rcases he with rfl | rfl | rfl | rfl
    · exact b2 0 (by omega)
    · exact b2 1 (by omega)
    · exact b1 0 (by omega)
    · exact b1 1 (by omega)
  · rcases he with rfl | rfl
    · exact b1 0 (by omega)
    · exact b2 0 (by omega)

/-- The inner product of the gradient with a change of the unknowns. -/
private theorem gradient_dot (m : Mode) (nAnt nDir : Nat) (nu : ℝ) (vs : List (Vis ℝ))
    (hv : ∀ x ∈ vs, x.a1 < nAnt ∧ x.a2 < nAnt) (u v : Nat → ℝ) :
    ∑ i ∈ Finset.range (2 * m.nSol nAnt nDir), gradient m nAnt nDir nu vs u i * v i =
      ((vs.flatMap (visTerms m nDir nu vs.length (solution u (m.nSol nAnt nDir)))).map
        (pair m (solution v (m.nSol nAnt nDir)))).sum := by
  set n := m.nSol nAnt nDir with hn
  rw [two_mul, Finset.sum_range_add, ← Finset.sum_add_distrib]
  have h := addAt_sum m (solution v n) n (vs.flatMap (visTerms m nDir nu vs.length (solution u n))) (fun _ => 0) (by
    intro c hc
    obtain ⟨x, hx, hc⟩ := List.mem_flatMap.mp hc
    exact indices_in_bounds m nAnt nDir nu _ _ x (hv x hx).1 (hv x hx).2 c hc)
  have hz : ∑ i ∈ Finset.range n, pair m (solution v n) (i, (0 : Cx ℝ)) = 0 := by
    refine Finset.sum_eq_zero ?_
    intro i _
    simp [pair]
  rw [hz, zero_add] at h
  rw [← h]
  refine Finset.sum_congr rfl ?_
  intro i hi
  have hi := Finset.mem_range.mp hi
  simp only [gradient, ← hn, if_pos hi, if_neg (show ¬ n + i < n by omega), Nat.add_sub_cancel_left, complexGradient, pair,
    solution]

/-- C213: in each of the modes, the gradient is the derivative of the cost: for all changes of all unknowns. -/
theorem gradient_is_derivative (m : Mode) (nAnt nDir : Nat) (nu : ℝ) (hnu : 0 < nu) (vs : List (Vis ℝ))
    (hv : ∀ x ∈ vs, x.a1 < nAnt ∧ x.a2 < nAnt) (u v : Nat → ℝ) :
    HasDerivAt (fun t : ℝ => cost Real.log m nAnt nDir nu vs fun i => u i + t * v i)
      (∑ i ∈ Finset.range (2 * m.nSol nAnt nDir), gradient m nAnt nDir nu vs u i * v i) 0 := by
  rw [gradient_dot m nAnt nDir nu vs hv u v]
  set n := m.nSol nAnt nDir with hn
  unfold cost
  have hsum : ∀ l : List (Vis ℝ), HasDerivAt (fun t : ℝ => (l.map fun x =>
      Real.log (1 + (residual m nDir (solution (fun i => u i + t * v i) n) x).norm / nu)).sum)
      (l.map fun x => (-2 / (nu + (residual m nDir (solution u n) x).norm)) * ((List.range nDir).map fun d =>
        ((m.terms (solution u n) (m.base nDir x.a1 d) (m.base nDir x.a2 d) (x.model d)
          (residual m nDir (solution u n) x)).map (pair m (solution v n))).sum).sum).sum 0 := by
    intro l
    induction l with
    | nil => simpa using hasDerivAt_const (0 : ℝ) (0 : ℝ)
    | cons x l ih =>
      simp only [List.map_cons, List.sum_cons]
      exact (vis_deriv m nDir nu hnu u v n x).add ih
  have hd := (hsum vs).div_const (vs.length : ℝ)
  refine hd.congr_deriv ?_
  have key : ∀ l : List (Vis ℝ), ((l.flatMap (visTerms m nDir nu vs.length (solution u n))).map
      (pair m (solution v n))).sum = (l.map fun x => (-2 / (nu + (residual m nDir (solution u n) x).norm)) *
        ((List.range nDir).map fun d => ((m.terms (solution u n) (m.base nDir x.a1 d) (m.base nDir x.a2 d) (x.model d)
          (residual m nDir (solution u n) x)).map (pair m (solution v n))).sum).sum).sum / (vs.length : ℝ) := by
    intro l
    induction l with
    | nil => simp
    | cons x l ih =>
      rw [List.flatMap_cons, List.map_append, List.sum_append, ih, List.map_cons, List.sum_cons, add_div]
      congr 1
      unfold visTerms
      set r := residual m nDir (solution u n) x
      have hp : ∀ c : Nat × Cx ℝ, pair m (solution v n) (c.1, Cx.ofReal (scale nu vs.length r) * c.2) =
          scale nu vs.length r * pair m (solution v n) c := by
        intro c
        simp only [pair, Cx.mul_re, Cx.mul_im, Cx.ofReal_re, Cx.ofReal_im]
        ring
      have hl : ∀ l : List Nat, ((l.flatMap fun d =>
          (m.terms (solution u n) (m.base nDir x.a1 d) (m.base nDir x.a2 d) (x.model d) r).map fun c =>
            (c.1, Cx.ofReal (scale nu vs.length r) * c.2)).map (pair m (solution v n))).sum =
          scale nu vs.length r * (l.map fun d => ((m.terms (solution u n) (m.base nDir x.a1 d) (m.base nDir x.a2 d)
            (x.model d) r).map (pair m (solution v n))).sum).sum := by
        intro l
        induction l with
        | nil => simp
        | cons d l ih =>
          rw [List.flatMap_cons, List.map_append, List.sum_append, ih, List.map_cons, List.sum_cons, mul_add, List.map_map]
          congr 1
          rw [← List.sum_map_mul_left]
          congr 1
          refine List.map_congr_left ?_
          intro c _
          exact hp c
      rw [hl]
      unfold scale
      ring
  exact (key vs).symm

/-! ## C214: the minimum -/

/-- C214: the cost is not negative; it is zero if and only if the solutions predict all data; and then the gradient is
zero. -/
theorem cost_minimum (m : Mode) (nAnt nDir : Nat) (nu : ℝ) (hnu : 0 < nu) (vs : List (Vis ℝ)) (hne : vs ≠ [])
    (u : Nat → ℝ) :
    let s := solution u (m.nSol nAnt nDir)
    0 ≤ cost Real.log m nAnt nDir nu vs u ∧
    (cost Real.log m nAnt nDir nu vs u = 0 ↔ ∀ x ∈ vs, x.data = ((List.range nDir).map fun d =>
      m.jones s (m.base nDir x.a1 d) * x.model d * (m.jones s (m.base nDir x.a2 d)).herm).sum) ∧
    (cost Real.log m nAnt nDir nu vs u = 0 → ∀ i, gradient m nAnt nDir nu vs u i = 0) := by
  intro s
  have hlen : (0 : ℝ) < (vs.length : ℝ) := by exact_mod_cast List.length_pos_iff.mpr hne
  have hterm : ∀ r : M2 ℝ, 0 ≤ Real.log (1 + r.norm / nu) ∧ (Real.log (1 + r.norm / nu) = 0 ↔ r = 0) := by
    intro r
    have h1 := div_nonneg (M2.norm_nonneg r) hnu.le
    refine ⟨Real.log_nonneg (by linarith), ?_⟩
    constructor
    · intro h
      rcases Real.log_eq_zero.mp h with h | h | h
      · linarith
      · have h : r.norm / nu = 0 := by linarith
        rcases div_eq_zero_iff.mp h with h | h
        · exact M2.norm_eq_zero.mp h
        · exact absurd h hnu.ne'
      · linarith
    · rintro rfl; simp
  have hres : ∀ x : Vis ℝ, residual m nDir s x = x.data - ((List.range nDir).map fun d =>
      m.jones s (m.base nDir x.a1 d) * x.model d * (m.jones s (m.base nDir x.a2 d)).herm).sum := by
    intro x
    unfold residual
    have : ∀ (l : List Nat) (r : M2 ℝ), l.foldl (fun r d => r - m.predicted s (m.base nDir x.a1 d) (m.base nDir x.a2 d)
        (x.model d)) r = r - (l.map fun d =>
        m.jones s (m.base nDir x.a1 d) * x.model d * (m.jones s (m.base nDir x.a2 d)).herm).sum := by
      intro l
      induction l with
      | nil => intro r; simp
      | cons d l ih =>
        intro r
        rw [List.foldl_cons, ih, predicted_eq, List.map_cons, List.sum_cons, sub_sub]
    exact this _ _
  have hnn : ∀ l : List (Vis ℝ), 0 ≤ (l.map fun v => Real.log (1 + (residual m nDir s v).norm / nu)).sum := by
    intro l
    refine List.sum_nonneg ?_
    intro y hy
    obtain ⟨x, _, rfl⟩ := List.mem_map.mp hy
    exact (hterm _).1
  have hzero : ∀ l : List (Vis ℝ), (l.map fun v => Real.log (1 + (residual m nDir s v).norm / nu)).sum = 0 ↔
      ∀ x ∈ l, residual m nDir s x = 0 := by
    intro l
    induction l with
    | nil => simp
    | cons x l ih =>
      rw [List.map_cons, List.sum_cons, add_eq_zero_iff_of_nonneg (hterm _).1 (hnn l), ih, (hterm _).2]
      simp
  have hcost : cost Real.log m nAnt nDir nu vs u = 0 ↔ ∀ x ∈ vs, residual m nDir s x = 0 := by
    unfold cost
    rw [div_eq_zero_iff, hzero]
    exact or_iff_left hlen.ne'
  refine ⟨div_nonneg (hnn vs) hlen.le, ?_, ?_⟩
  · rw [hcost]
    refine forall₂_congr ?_
    intro x _
    rw [hres, sub_eq_zero]
  · intro h i
    rw [hcost] at h
    have hg : ∀ j, complexGradient m nDir nu vs s j = 0 := by
      have : ∀ (l : List (Nat × Cx ℝ)) (g : Nat → Cx ℝ), (∀ c ∈ l, c.2 = 0) → ∀ j, l.foldl addAt g j = g j := by
        intro l
        induction l with
        | nil => intro g _ j; rfl
        | cons c l ih =>
          intro g hl j
          rw [List.foldl_cons, ih _ (fun c hc => hl c (by simp [hc]))]
          unfold addAt
          rw [hl c (by simp)]
          split_ifs <;> simp
      intro j
      refine this _ _ ?_ j
      intro c hc
      obtain ⟨x, hx, hc⟩ := List.mem_flatMap.mp hc
      unfold visTerms at hc
      rw [h x hx] at hc
      simp only [List.mem_flatMap, List.mem_map] at hc
      obtain ⟨d, _, e, he, rfl⟩ := hc
      have : e.2 = 0 := by
        cases m <;> simp [Mode.terms, M2.herm] at he
        · rcases he with rfl | rfl | rfl | rfl | rfl | rfl | rfl | rfl <;> rfl
        · rcases he with rfl | rfl | rfl | rfl <;> rfl
        · rcases he with rfl | rfl <;> rfl
      rw [this]
      simp
    simp only [gradient]
    split_ifs
    · rw [hg]; rfl
    · rw [hg]; simp

end Real

/-! ## C215: unknowns -/

/-- C215: the solutions are the ones that were made into unknowns, and the cost functions see them in the same
order. -/
theorem split_merge {K : Type} (l : List (Cx K)) :
    (splitSolutions l).length = 2 * l.length ∧ mergeSolutions l.length (splitSolutions l) = l ∧
    ∀ (u : Nat → K), (∀ i, i < 2 * l.length → (splitSolutions l)[i]? = some (u i)) →
      ∀ i, i < l.length → l[i]? = some (solution u l.length i) := by
  refine ⟨by simp [splitSolutions]; omega, ?_, ?_⟩
  · unfold mergeSolutions splitSolutions
    rw [List.take_left' (by simp), List.drop_left' (by simp), List.take_of_length_le (by simp)]
    rw [List.zipWith_map]
    induction l with
    | nil => rfl
    | cons x l ih => simp [ih]
  · intro u hu i hi
    have h1 := hu i (by omega)
    have h2 := hu (l.length + i) (by omega)
    unfold splitSolutions at h1 h2
    rw [List.getElem?_append_left (by simpa using hi), List.getElem?_map] at h1
    rw [List.getElem?_append_right (by simp), List.length_map, Nat.add_sub_cancel_left, List.getElem?_map] at h2
    obtain ⟨x, hx⟩ : ∃ x, l[i]? = some x := ⟨l[i], List.getElem?_eq_getElem hi⟩
    rw [hx] at h1 h2 ⊢
    simp only [Option.map_some, Option.some.injEq] at h1 h2
    simp [solution, ← h1, ← h2]

/-- C215: after the unknowns were changed, the solutions are those that the cost function saw. -/
theorem merge_unknowns {K : Type} (n : Nat) (d : List K) (hd : d.length = 2 * n) (u : Nat → K)
    (hu : ∀ i, i < 2 * n → d[i]? = some (u i)) :
    (mergeSolutions n d).length = n ∧ ∀ i, i < n → (mergeSolutions n d)[i]? = some (solution u n i) := by
  refine ⟨by simp [mergeSolutions]; omega, ?_⟩
  intro i hi
  unfold mergeSolutions
  rw [List.getElem?_zipWith, List.getElem?_take_of_lt hi, hu i (by omega), List.getElem?_take_of_lt hi, List.getElem?_drop,
    hu (n + i) (by omega)]
  rfl

/-! ## Examples -/

/-- Data for two antennas. -/
def sampleVis : Vis ℚ := ⟨⟨⟨2, 1⟩, 0, 0, ⟨1, 0⟩⟩, fun _ => ⟨⟨1, 0⟩, 0, 0, ⟨1, 0⟩⟩, 0, 1⟩

/-- The same in the real numbers. -/
noncomputable def sampleReal : Vis ℝ := ⟨⟨⟨2, 1⟩, 0, 0, ⟨1, 0⟩⟩, fun _ => ⟨⟨1, 0⟩, 0, 0, ⟨1, 0⟩⟩, 0, 1⟩

example : (0 : ℝ) < 2 ∧ ∀ x ∈ [sampleReal], x.a1 < 2 ∧ x.a2 < 2 := by simp [sampleReal]

example : (List.range 4).map (gradient .scalar 2 1 2 [sampleVis] fun i => if i < 2 then 1 else 0) =
    [-1 / 2, -1 / 2, -1 / 2, 1 / 2] := by decide +kernel

example : (List.range 8).map (gradient .diagonal 2 1 2 [sampleVis] fun i => if i < 4 then 1 else 0) ≠
    List.replicate 8 0 := by decide +kernel

example : mergeSolutions 2 (splitSolutions [(⟨1, 2⟩ : Cx ℚ), ⟨3, 4⟩]) = [⟨1, 2⟩, ⟨3, 4⟩] ∧
    splitSolutions [(⟨1, 2⟩ : Cx ℚ), ⟨3, 4⟩] = [1, 3, 2, 4] := by decide +kernel

end DP3.Lbfgs
