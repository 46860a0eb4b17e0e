import Verif.DirectSolver.Lemmas
import Verif.DirectSolver.Spec
import Mathlib.Algebra.BigOperators.Ring.Finset
import Mathlib.Algebra.Order.BigOperators.Group.Finset

/-!
# The normal equations give a least-squares solution
-/

namespace DP3.DirectSolver

set_option linter.unusedSectionVars false
set_option linter.unusedSimpArgs false

open Finset

theorem list_sum {A : Type} [AddCommMonoid A] (f : Nat → A) (n : Nat) :
    ((List.range n).map f).sum = ∑ i ∈ range n, f i := by
  induction n with
  | zero => rfl
  | succ n ih => rw [List.range_succ, List.map_append, List.sum_append, ih, Finset.sum_range_succ]; simp

variable {K : Type} [Field K] [LinearOrder K] [IsStrictOrderedRing K]

theorem re_sum {Y : Type} (s : Finset Y) (f : Y → Cx K) : (∑ i ∈ s, f i).re = ∑ i ∈ s, (f i).re := by
  classical
  induction s using Finset.induction_on with
  | empty => simp
  | insert a s h ih => rw [Finset.sum_insert h, Finset.sum_insert h, Cx.add_re, ih]

theorem conj_finset_sum {Y : Type} (s : Finset Y) (f : Y → Cx K) :
    (∑ i ∈ s, f i).conj = ∑ i ∈ s, (f i).conj := by
  classical
  induction s using Finset.induction_on with
  | empty => simp
  | insert a s h ih => rw [Finset.sum_insert h, Finset.sum_insert h, Cx.conj_add, ih]

theorem normSq_sub (e w : Cx K) : (e - w).normSq = e.normSq - 2 * (w.conj * e).re + w.normSq := by
  simp [Cx.normSq]; ring

/-- A vector whose residuals are orthogonal to the columns has the smallest residuals. -/
theorem orthogonal_minimizes (m n : Nat) (a : Nat → Nat → Cx K) (b x y : Nat → Cx K)
    (h : ∀ r < n, ∑ i ∈ range m, (a i r).conj * (b i - ∑ c ∈ range n, a i c * x c) = 0) :
    ∑ i ∈ range m, (b i - ∑ c ∈ range n, a i c * x c).normSq ≤
      ∑ i ∈ range m, (b i - ∑ c ∈ range n, a i c * y c).normSq := by
  have hy : ∀ i, b i - ∑ c ∈ range n, a i c * y c =
      (b i - ∑ c ∈ range n, a i c * x c) - ∑ c ∈ range n, a i c * (y c - x c) := by
    intro i
    simp only [mul_sub, Finset.sum_sub_distrib]
    ring
  have hz : ∑ i ∈ range m, ((∑ c ∈ range n, a i c * (y c - x c)).conj * (b i - ∑ c ∈ range n, a i c * x c)).re = 0 := by
    rw [← re_sum]
    have : ∑ i ∈ range m, (∑ c ∈ range n, a i c * (y c - x c)).conj * (b i - ∑ c ∈ range n, a i c * x c) = 0 := by
      simp only [conj_finset_sum, Finset.sum_mul, Cx.conj_mul]
      rw [Finset.sum_comm]
      refine Finset.sum_eq_zero fun r hr => ?_
      have := h r (Finset.mem_range.mp hr)
      have h2 : ∑ i ∈ range m, (a i r).conj * (y r - x r).conj * (b i - ∑ c ∈ range n, a i c * x c) =
          (y r - x r).conj * ∑ i ∈ range m, (a i r).conj * (b i - ∑ c ∈ range n, a i c * x c) := by
        rw [Finset.mul_sum]
        exact Finset.sum_congr rfl fun i _ => by ring
      rw [h2, this, mul_zero]
    rw [this]; rfl
  have : ∑ i ∈ range m, (b i - ∑ c ∈ range n, a i c * y c).normSq =
      ∑ i ∈ range m, (b i - ∑ c ∈ range n, a i c * x c).normSq -
      2 * ∑ i ∈ range m, ((∑ c ∈ range n, a i c * (y c - x c)).conj * (b i - ∑ c ∈ range n, a i c * x c)).re +
      ∑ i ∈ range m, (∑ c ∈ range n, a i c * (y c - x c)).normSq := by
    rw [Finset.mul_sum, ← Finset.sum_sub_distrib, ← Finset.sum_add_distrib]
    exact Finset.sum_congr rfl fun i _ => by rw [hy, normSq_sub]
  rw [this, hz]
  have := Finset.sum_nonneg (fun i (_ : i ∈ range m) => Cx.normSq_nonneg (∑ c ∈ range n, a i c * (y c - x c)))
  linarith

/-- The upper triangle that the code fills is that of the product of the matrix with its conjugated transpose. -/
theorem hermitian_adaggera (m n : Nat) (a : Nat → Cx K) (r c : Nat) (hr : r < n) (hc : c < n) :
    hermitian n (adaggera m n a) r c = ∑ i ∈ range m, (a (i + r * m)).conj * a (i + c * m) := by
  have key : ∀ r c, r < n → c < n → r ≤ c →
      adaggera m n a (r + c * n) = ∑ i ∈ range m, (a (i + r * m)).conj * a (i + c * m) := by
    intro r c hr hc hle
    have h1 : (r + c * n) % n = r := by rw [Nat.add_mul_mod_self_right, Nat.mod_eq_of_lt hr]
    have h2 : (r + c * n) / n = c := by rw [Nat.add_mul_div_right _ _ (by omega), Nat.div_eq_of_lt hr, Nat.zero_add]
    simp only [adaggera, h1, h2]
    rw [if_pos ⟨hle, hc⟩, list_sum]
  unfold hermitian
  split_ifs with h
  · exact key r c hr hc h
  · rw [key c r hc hr (by omega), conj_finset_sum]
    exact Finset.sum_congr rfl fun i _ => by rw [Cx.conj_mul, Cx.conj_conj, mul_comm]

theorem adaggerb_eq (m n : Nat) (a b : Nat → Cx K) (r p : Nat) (hr : r < n) :
    adaggerb m n a b (r + p * n) = ∑ i ∈ range m, (a (i + r * m)).conj * b (i + p * m) := by
  have h1 : (r + p * n) % n = r := by rw [Nat.add_mul_mod_self_right, Nat.mod_eq_of_lt hr]
  have h2 : (r + p * n) / n = p := by rw [Nat.add_mul_div_right _ _ (by omega), Nat.div_eq_of_lt hr, Nat.zero_add]
  simp only [adaggerb, h1, h2]
  rw [list_sum]

theorem residual_eq (m n nrhs ldb ldx : Nat) (a b x : Nat → Cx K) :
    residual m n nrhs ldb ldx a b x = ∑ j ∈ range nrhs, ∑ i ∈ range m,
      (b (i + j * ldb) - ∑ c ∈ range n, a (i + c * m) * x (c + j * ldx)).normSq := by
  unfold residual
  simp only [list_sum]
  rw [Finset.sum_comm]

theorem residual_nonneg (m n nrhs ldb ldx : Nat) (a b x : Nat → Cx K) : 0 ≤ residual m n nrhs ldb ldx a b x := by
  rw [residual_eq]
  exact Finset.sum_nonneg fun j _ => Finset.sum_nonneg fun i _ => Cx.normSq_nonneg _

end DP3.DirectSolver
