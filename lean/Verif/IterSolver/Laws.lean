import Verif.IterSolver.Lemmas
import Mathlib.Algebra.Group.Prod
import Mathlib.Tactic.FieldSimp
import Mathlib.Tactic.Positivity

/-!
# The formulas of each iterative solver are those of a least squares problem
-/

namespace DP3.IterSolver

set_option linter.unusedSectionVars false
set_option linter.unusedSimpArgs false

variable {K : Type} [Field K] [LinearOrder K] [IsStrictOrderedRing K]

/-! ## Scalars -/

/-- Twice the real part of `n yᴴ`. -/
def linS (n y : Cx K) : K := 2 * (y.re * n.re + y.im * n.im)

/-- The squared size of `y`, times `d`. -/
def quadS (d : K) (y : Cx K) : K := d * y.normSq

theorem quadS_sub (n : Cx K) (d : K) (hd : d ≠ 0) (y : Cx K) :
    quadS d y - linS n y - (quadS d (n.divReal d) - linS n (n.divReal d)) = d * (y - n.divReal d).normSq := by
  simp only [quadS, linS, Cx.normSq, Cx.divReal, Cx.sub_re, Cx.sub_im]
  field_simp; ring

theorem scalar_minimal (n : Cx K) (d : K) (hd : 0 ≤ d) (y : Cx K) :
    quadS d (orElse (finishScalar n d) y) - linS n (orElse (finishScalar n d) y) ≤ quadS d y - linS n y := by
  unfold finishScalar
  split
  · exact le_refl _
  · rename_i h
    have := quadS_sub n d h y
    have h2 := mul_nonneg hd (Cx.normSq_nonneg (y - n.divReal d))
    simp only [orElse, Option.getD_some]
    linarith

theorem scalar_strict (n : Cx K) (d : K) (hd : 0 ≤ d) (y : Cx K)
    (h : quadS d y - linS n y ≤ quadS d (orElse (finishScalar n d) y) - linS n (orElse (finishScalar n d) y)) :
    orElse (finishScalar n d) y = y := by
  unfold finishScalar at *
  split
  · rfl
  · rename_i hz
    rw [if_neg hz] at h
    simp only [orElse, Option.getD_some] at *
    have h1 := quadS_sub n d hz y
    have h2 := mul_nonneg hd (Cx.normSq_nonneg (y - n.divReal d))
    have h3 : d * (y - n.divReal d).normSq = 0 := by linarith
    have h4 := Cx.normSq_eq_zero.mp ((mul_eq_zero.mp h3).resolve_left hz)
    exact (sub_eq_zero.mp h4).symm

theorem law_scalarFull : Law (K := K) scalarFull id scalarMatrix orElse linS quadS (0 ≤ ·) where
  embV_add _ _ := rfl
  contribution m s1 s2 := by
    refine M2.ext ?_ ?_ ?_ ?_ <;> simp [scalarFull, scalarMatrix, M2.smul, M2.herm] <;> ring
  exp1 b m s2 y := by
    simp [scalarFull, scalarMatrix, M2.smul, M2.herm, M2.norm, M2.trace, Cx.normSq, linS, quadS]; ring
  exp2 b m s1 y := by
    simp [scalarFull, scalarMatrix, M2.smul, M2.herm, M2.norm, M2.trace, Cx.normSq, linS, quadS]; ring
  lin_zero y := by simp [linS]
  lin_add n n' y := by simp [linS]; ring
  quad_zero y := by simp [quadS]
  quad_add d d' y := by simp only [quadS]; ring
  good_zero := le_refl _
  good_add _ _ := add_nonneg
  good1 m s2 := M2.norm_nonneg _
  good2 m s1 := M2.norm_nonneg _
  minimal := scalar_minimal
  strict := scalar_strict

theorem law_scalarDuo : Law (K := K) scalarDuo duoMatrix scalarMatrix orElse linS quadS (0 ≤ ·) where
  embV_add _ _ := by simp [duoMatrix, M2.ext_iff]
  contribution m s1 s2 := by
    refine M2.ext ?_ ?_ ?_ ?_ <;> simp [scalarDuo, scalarMatrix, duoMatrix, smulD, M2.herm] <;> ring
  exp1 b m s2 y := by
    simp [scalarDuo, scalarMatrix, duoMatrix, smulD, D2.herm, normD, traceD, M2.herm, M2.norm, Cx.normSq, linS,
      quadS]; ring
  exp2 b m s1 y := by
    simp [scalarDuo, scalarMatrix, duoMatrix, smulD, D2.herm, normD, traceD, M2.herm, M2.norm, Cx.normSq, linS,
      quadS]; ring
  lin_zero y := by simp [linS]
  lin_add n n' y := by simp [linS]; ring
  quad_zero y := by simp [quadS]
  quad_add d d' y := by simp only [quadS]; ring
  good_zero := le_refl _
  good_add _ _ := add_nonneg
  good1 m s2 := add_nonneg (Cx.normSq_nonneg _) (Cx.normSq_nonneg _)
  good2 m s1 := add_nonneg (Cx.normSq_nonneg _) (Cx.normSq_nonneg _)
  minimal := scalar_minimal
  strict := scalar_strict

theorem law_scalarUni : Law (K := K) scalarUni uniMatrix scalarMatrix orElse linS quadS (0 ≤ ·) where
  embV_add _ _ := by simp [uniMatrix, M2.ext_iff]
  contribution m s1 s2 := by
    refine M2.ext ?_ ?_ ?_ ?_ <;> simp [scalarUni, scalarMatrix, uniMatrix, M2.herm]; ring
  exp1 b m s2 y := by
    simp [scalarUni, scalarMatrix, uniMatrix, M2.herm, M2.norm, Cx.normSq, linS, quadS]; ring
  exp2 b m s1 y := by
    simp [scalarUni, scalarMatrix, uniMatrix, M2.herm, M2.norm, Cx.normSq, linS, quadS]; ring
  lin_zero y := by simp [linS]
  lin_add n n' y := by simp [linS]; ring
  quad_zero y := by simp [quadS]
  quad_add d d' y := by simp only [quadS]; ring
  good_zero := le_refl _
  good_add _ _ := add_nonneg
  good1 m s2 := Cx.normSq_nonneg _
  good2 m s1 := Cx.normSq_nonneg _
  minimal := scalar_minimal
  strict := scalar_strict

/-! ## Diagonals -/

/-- The linear part for both polarizations. -/
def linD (n y : D2 K) : K := linS n.x y.x + linS n.y y.y

/-- The quadratic part for both polarizations. -/
def quadD (d : K × K) (y : D2 K) : K := quadS d.1 y.x + quadS d.2 y.y

theorem diagonal_minimal (n : D2 K) (d : K × K) (hd : 0 ≤ d.1 ∧ 0 ≤ d.2) (y : D2 K) :
    quadD d (orElse2 (finishDiagonal n d) y) - linD n (orElse2 (finishDiagonal n d) y) ≤ quadD d y - linD n y := by
  have h1 := scalar_minimal n.x d.1 hd.1 y.x
  have h2 := scalar_minimal n.y d.2 hd.2 y.y
  simp only [orElse] at h1 h2
  simp only [quadD, linD, orElse2, finishDiagonal]
  linarith

theorem diagonal_strict (n : D2 K) (d : K × K) (hd : 0 ≤ d.1 ∧ 0 ≤ d.2) (y : D2 K)
    (h : quadD d y - linD n y ≤
      quadD d (orElse2 (finishDiagonal n d) y) - linD n (orElse2 (finishDiagonal n d) y)) :
    orElse2 (finishDiagonal n d) y = y := by
  have h1 := scalar_minimal n.x d.1 hd.1 y.x
  have h2 := scalar_minimal n.y d.2 hd.2 y.y
  have h3 := scalar_strict n.x d.1 hd.1 y.x
  have h4 := scalar_strict n.y d.2 hd.2 y.y
  simp only [orElse] at h1 h2 h3 h4
  simp only [quadD, linD, orElse2, finishDiagonal] at *
  exact D2.ext (h3 (by linarith)) (h4 (by linarith))

theorem law_diagonalFull : Law (K := K) diagonalFull id duoMatrix orElse2 linD quadD
    (fun d => 0 ≤ d.1 ∧ 0 ≤ d.2) where
  embV_add _ _ := rfl
  contribution m s1 s2 := by
    refine M2.ext ?_ ?_ ?_ ?_ <;> simp [diagonalFull, duoMatrix, D2.toM2, D2.herm, M2.herm]
  exp1 b m s2 y := by
    simp [diagonalFull, duoMatrix, D2.toM2, D2.herm, M2.herm, M2.norm, Cx.normSq, linD, quadD, linS, quadS,
      diagonal, normsFull]; ring
  exp2 b m s1 y := by
    simp [diagonalFull, duoMatrix, D2.toM2, D2.herm, M2.herm, M2.norm, Cx.normSq, linD, quadD, linS, quadS,
      diagonal, normsFull]; ring
  lin_zero y := by simp [linD, linS]
  lin_add n n' y := by simp [linD, linS]; ring
  quad_zero y := by simp [quadD, quadS]
  quad_add d d' y := by simp only [quadD, quadS, Prod.fst_add, Prod.snd_add]; ring
  good_zero := ⟨le_refl _, le_refl _⟩
  good_add _ _ h h' := ⟨add_nonneg h.1 h'.1, add_nonneg h.2 h'.2⟩
  good1 m s2 := ⟨add_nonneg (Cx.normSq_nonneg _) (Cx.normSq_nonneg _),
    add_nonneg (Cx.normSq_nonneg _) (Cx.normSq_nonneg _)⟩
  good2 m s1 := ⟨add_nonneg (Cx.normSq_nonneg _) (Cx.normSq_nonneg _),
    add_nonneg (Cx.normSq_nonneg _) (Cx.normSq_nonneg _)⟩
  minimal := diagonal_minimal
  strict := diagonal_strict

theorem law_diagonalDuo : Law (K := K) diagonalDuo duoMatrix duoMatrix orElse2 linD quadD
    (fun d => 0 ≤ d.1 ∧ 0 ≤ d.2) where
  embV_add _ _ := by simp [duoMatrix, M2.ext_iff]
  contribution m s1 s2 := by
    refine M2.ext ?_ ?_ ?_ ?_ <;> simp [diagonalDuo, duoMatrix, D2.herm, M2.herm]
  exp1 b m s2 y := by
    simp [diagonalDuo, duoMatrix, D2.herm, M2.herm, M2.norm, Cx.normSq, linD, quadD, linS, quadS, normsDuo]; ring
  exp2 b m s1 y := by
    simp [diagonalDuo, duoMatrix, D2.herm, M2.herm, M2.norm, Cx.normSq, linD, quadD, linS, quadS, normsDuo]; ring
  lin_zero y := by simp [linD, linS]
  lin_add n n' y := by simp [linD, linS]; ring
  quad_zero y := by simp [quadD, quadS]
  quad_add d d' y := by simp only [quadD, quadS, Prod.fst_add, Prod.snd_add]; ring
  good_zero := ⟨le_refl _, le_refl _⟩
  good_add _ _ h h' := ⟨add_nonneg h.1 h'.1, add_nonneg h.2 h'.2⟩
  good1 m s2 := ⟨Cx.normSq_nonneg _, Cx.normSq_nonneg _⟩
  good2 m s1 := ⟨Cx.normSq_nonneg _, Cx.normSq_nonneg _⟩
  minimal := diagonal_minimal
  strict := diagonal_strict

/-! ## Full Jones matrices -/

/-- Twice the real part of the trace of `n yᴴ`. -/
def linF (n y : M2 K) : K := 2 * (n * y.herm).trace.re

/-- The real part of the trace of `y d yᴴ`. -/
def quadF (d y : M2 K) : K := (y * d * y.herm).trace.re

/-- A hermitian positive semidefinite matrix. -/
def goodF (d : M2 K) : Prop := d.herm = d ∧ ∀ y, 0 ≤ quadF d y

theorem quadF_gram (c y : M2 K) : quadF (c.herm * c) y = (c * y.herm).norm := by
  simp [quadF, M2.herm, M2.trace, M2.norm, Cx.normSq]; ring

theorem goodF_gram (c : M2 K) : goodF (c.herm * c) :=
  ⟨by rw [M2.herm_mul, M2.herm_herm], fun y => by rw [quadF_gram]; exact M2.norm_nonneg _⟩

theorem quadF_add (d d' y : M2 K) : quadF (d + d') y = quadF d y + quadF d' y := by
  simp [quadF, M2.trace]; ring

theorem linF_sub_left (n y : M2 K) (x : M2 K) : linF n (y - x) = linF n y - linF n x := by
  simp [linF, M2.herm, M2.trace]; ring

theorem trace_herm_re (m : M2 K) : m.herm.trace.re = m.trace.re := by simp [M2.herm, M2.trace]

theorem linF_symm {d : M2 K} (hd : d.herm = d) (x y : M2 K) : linF (x * d) y = linF (y * d) x := by
  have h : (y * d * x.herm).herm = x * d * y.herm := by
    rw [M2.herm_mul, M2.herm_mul, M2.herm_herm, hd, mul_assoc]
  simp only [linF]
  rw [← h, trace_herm_re]

theorem quadF_sub (d x y : M2 K) :
    quadF d (y - x) = quadF d y - (linF (x * d) y + linF (y * d) x) / 2 + quadF d x := by
  have : linF (x * d) y + linF (y * d) x = 2 * ((x * d * y.herm).trace.re + (y * d * x.herm).trace.re) := by
    simp only [linF]; ring
  rw [this, mul_div_cancel_left₀ _ (by norm_num)]
  have hh : (y - x).herm = y.herm - x.herm := M2.herm_sub _ _
  simp only [quadF, hh, sub_mul, mul_sub]
  simp [M2.trace]; ring

theorem inv_mul_self {d i : M2 K} (h : d.inv = some i) : i * d = 1 ∧ d * i = 1 := by
  unfold M2.inv at h
  split at h
  · simp at h
  · rename_i hdet
    have hn : d.det.normSq ≠ 0 := fun c => hdet (Cx.normSq_eq_zero.mp c)
    have hi := (Option.some.inj h).symm
    have key : ∀ z w : Cx K, z = w * d.det → z.div d.det = w := by
      intro z w e
      rw [e]
      simp only [Cx.div, Cx.divReal]
      have e1 : w * d.det * d.det.conj = w * Cx.ofReal d.det.normSq := by rw [mul_assoc, Cx.mul_conj]
      rw [e1]
      ext
      · simp; field_simp
      · simp; field_simp
    have lin : ∀ u v p q : Cx K, u.div d.det * p + v.div d.det * q = (u * p + v * q).div d.det := by
      intro u v p q
      ext <;> simp [Cx.div, Cx.divReal] <;> field_simp <;> ring
    have rin : ∀ u v p q : Cx K, p * u.div d.det + q * v.div d.det = (p * u + q * v).div d.det := by
      intro u v p q
      ext <;> simp [Cx.div, Cx.divReal] <;> field_simp <;> ring
    subst hi
    constructor
    · refine M2.ext ?_ ?_ ?_ ?_
      · simp only [M2.mul_a, M2.one_a, lin]; exact key _ _ (by simp only [M2.det]; ring)
      · simp only [M2.mul_b, M2.one_b, lin]; exact key _ _ (by simp only [M2.det]; ring)
      · simp only [M2.mul_c, M2.one_c, lin]; exact key _ _ (by simp only [M2.det]; ring)
      · simp only [M2.mul_d, M2.one_d, lin]; exact key _ _ (by simp only [M2.det]; ring)
    · refine M2.ext ?_ ?_ ?_ ?_
      · simp only [M2.mul_a, M2.one_a, rin]; exact key _ _ (by simp only [M2.det]; ring)
      · simp only [M2.mul_b, M2.one_b, rin]; exact key _ _ (by simp only [M2.det]; ring)
      · simp only [M2.mul_c, M2.one_c, rin]; exact key _ _ (by simp only [M2.det]; ring)
      · simp only [M2.mul_d, M2.one_d, rin]; exact key _ _ (by simp only [M2.det]; ring)

theorem linF_self (d x : M2 K) : linF (x * d) x = 2 * quadF d x := rfl

theorem full_sub {n d i : M2 K} (hd : goodF d) (hi : d.inv = some i) (y : M2 K) :
    quadF d y - linF n y - (quadF d (n * i) - linF n (n * i)) = quadF d (y - n * i) := by
  have hn : n = n * i * d := by rw [mul_assoc, (inv_mul_self hi).1, mul_one]
  have h1 := quadF_sub d (n * i) y
  have h2 := linF_symm hd.1 (n * i) y
  have h3 := linF_self d (n * i)
  rw [← hn] at h1 h2 h3
  rw [← h2] at h1
  rw [h1, h3]; ring

theorem full_minimal (n d : M2 K) (hd : goodF d) (y : M2 K) :
    quadF d (orElse (finishFull n d) y) - linF n (orElse (finishFull n d) y) ≤ quadF d y - linF n y := by
  unfold finishFull
  split
  · rename_i i hi
    have h1 := full_sub (n := n) hd hi y
    have h2 := hd.2 (y - n * i)
    simp only [orElse, Option.getD_some]
    linarith
  · exact le_refl _

/-- A zero of a positive semidefinite form is in the kernel. -/
theorem quadF_zero {d z : M2 K} (hd : goodF d) (hz : quadF d z = 0) : z * d = 0 := by
  have key : ∀ t : K, 0 ≤ -(t * linF (z * d) (z * d)) + t * t * quadF d (z * d) := by
    intro t
    have h := hd.2 (z - (z * d).smul (Cx.ofReal t))
    rw [quadF_sub, hz, ← linF_symm hd.1] at h
    have e1 : linF (z * d) ((z * d).smul (Cx.ofReal t)) = t * linF (z * d) (z * d) := by
      simp [linF, M2.smul, M2.herm, M2.trace]; ring
    have e2 : quadF d ((z * d).smul (Cx.ofReal t)) = t * t * quadF d (z * d) := by
      simp [quadF, M2.smul, M2.herm, M2.trace]; ring
    rw [e1, e2] at h
    linarith
  have e3 : linF (z * d) (z * d) = 2 * (z * d).norm := by
    simp [linF, M2.herm, M2.trace, M2.norm, Cx.normSq]; ring
  rw [e3] at key
  have hq := hd.2 (z * d)
  have hc := M2.norm_nonneg (z * d)
  refine M2.norm_eq_zero.mp ?_
  generalize (z * d).norm = c at *
  generalize quadF d (z * d) = q at *
  have hq1 : (0 : K) < q + 1 := by linarith
  have h := key (c / (q + 1))
  have h2 : 0 ≤ (-(c / (q + 1) * (2 * c)) + c / (q + 1) * (c / (q + 1)) * q) * ((q + 1) * (q + 1)) :=
    mul_nonneg h (by positivity)
  have h3 : (-(c / (q + 1) * (2 * c)) + c / (q + 1) * (c / (q + 1)) * q) * ((q + 1) * (q + 1)) =
      -(c * c * (q + 2)) := by
    field_simp; ring
  rw [h3] at h2
  have h4 : 0 ≤ c * c * q := by positivity
  have h5 : c * c = 0 := le_antisymm (by nlinarith) (mul_self_nonneg c)
  exact mul_self_eq_zero.mp h5

theorem full_strict (n d : M2 K) (hd : goodF d) (y : M2 K)
    (h : quadF d y - linF n y ≤ quadF d (orElse (finishFull n d) y) - linF n (orElse (finishFull n d) y)) :
    orElse (finishFull n d) y = y := by
  unfold finishFull at *
  cases hi : d.inv with
  | none => rfl
  | some i =>
    rw [hi] at h
    simp only [orElse, Option.getD_some] at *
    have h1 := full_sub (n := n) hd hi y
    have h2 := hd.2 (y - n * i)
    have h3 := quadF_zero hd (le_antisymm (by linarith) h2)
    have h4 : (y - n * i) * d * i = 0 := by rw [h3, zero_mul]
    rw [mul_assoc, (inv_mul_self hi).2, mul_one] at h4
    exact (sub_eq_zero.mp h4).symm

theorem law_fullJones : Law (K := K) fullJones id id orElse linF quadF goodF where
  embV_add _ _ := rfl
  contribution m s1 s2 := (mul_assoc _ _ _).symm
  exp1 b m s2 y := by
    simp only [fullJones, id, quadF_gram, linF]
    simp [M2.herm, M2.norm, M2.trace, Cx.normSq]; ring
  exp2 b m s1 y := by
    simp only [fullJones, id, quadF_gram, linF]
    simp [M2.herm, M2.norm, M2.trace, Cx.normSq]; ring
  lin_zero y := by simp [linF, M2.trace]
  lin_add n n' y := by simp [linF, M2.trace]; ring
  quad_zero y := by simp [quadF, M2.trace]
  quad_add := quadF_add
  good_zero := ⟨by simp [M2.herm, M2.ext_iff], fun y => by simp [quadF, M2.trace]⟩
  good_add d d' h h' := ⟨by rw [M2.herm_add, h.1, h'.1], fun y => by
    rw [quadF_add]; exact add_nonneg (h.2 y) (h'.2 y)⟩
  good1 m s2 := goodF_gram _
  good2 m s1 := goodF_gram _
  minimal := full_minimal
  strict := full_strict

end DP3.IterSolver
