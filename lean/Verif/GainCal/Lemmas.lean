import Verif.GainCal.Model
import Mathlib.Algebra.BigOperators.Ring.Finset
import Mathlib.Algebra.BigOperators.Intervals
import Mathlib.Algebra.Order.BigOperators.Group.Finset
import Mathlib.Data.Complex.BigOperators
import Mathlib.Tactic.FieldSimp
import Mathlib.Tactic.Linarith
import Mathlib.Tactic.Ring
import Mathlib.Tactic.NormNum
import Mathlib.Tactic.Positivity

/-!
# Lemmas for GainCal: sums and least squares
-/

namespace DP3.GainCal

open Complex Finset

set_option linter.unusedSectionVars false
set_option linter.unusedSimpArgs false

/-! ## Sums -/

theorem sum_range_mul {M : Type} [AddCommMonoid M] (a b : Nat) (f : Nat → M) :
    ∑ k ∈ range (a * b), f k = ∑ j ∈ range b, ∑ i ∈ range a, f (i + a * j) := by
  induction b with
  | zero => simp
  | succ b ih =>
    rw [Nat.mul_succ, Finset.sum_range_add, ih, Finset.sum_range_succ]
    congr 1
    apply Finset.sum_congr rfl
    intro i _
    rw [Nat.add_comm]

theorem foldl_addSums (c : Cfg) (vis mvis h : Nat → ℂ) (st1 i n : Nat) (r : ℝ × ℂ) :
    (List.range n).foldl (addSums c vis mvis h st1 i) r =
      (r.1 + ∑ st2 ∈ range n, normSq (h st2 * mvis (elem c st1 i st2)),
        r.2 + ∑ st2 ∈ range n, (starRingEnd ℂ) (h st2 * mvis (elem c st1 i st2)) * vis (elem c st1 i st2)) := by
  induction n with
  | zero => simp
  | succ n ih =>
    rw [List.range_succ, List.foldl_append, ih, Finset.sum_range_succ, Finset.sum_range_succ]
    simp only [List.foldl_cons, List.foldl_nil, addSums]
    rw [add_assoc, add_assoc]

theorem sums_flat (c : Cfg) (vis mvis h : Nat → ℂ) (st1 : Nat) :
    sums c vis mvis h st1 =
      (∑ i ∈ range (nSp c * c.nChan * c.solInt * nSp c), ∑ st2 ∈ range (nUn c), normSq (h st2 * mvis (elem c st1 i st2)),
       ∑ i ∈ range (nSp c * c.nChan * c.solInt * nSp c), ∑ st2 ∈ range (nUn c),
        (starRingEnd ℂ) (h st2 * mvis (elem c st1 i st2)) * vis (elem c st1 i st2)) := by
  unfold sums
  induction nSp c * c.nChan * c.solInt * nSp c with
  | zero => simp
  | succ n ih =>
    rw [List.range_succ, List.foldl_append, ih, Finset.sum_range_succ, Finset.sum_range_succ]
    simp only [List.foldl_cons, List.foldl_nil]
    rw [foldl_addSums]

/-- The elements of the arrays that belong to an unknown: polarization of the unknown if the gains are scalar, channel, time,
polarization and station of the other side. -/
def entries (c : Cfg) : Finset (Nat × Nat × Nat × Nat × Nat) :=
  range (if c.scalar then 2 else 1) ×ˢ range c.nChan ×ˢ range c.solInt ×ˢ range 2 ×ˢ range c.nSt

/-- The address of such an element: the polarization of the unknown is the first half or second half of the unknowns if
the gains are not scalar. -/
def addr (c : Cfg) (u : Nat) (e : Nat × Nat × Nat × Nat × Nat) : Nat :=
  offset c e.2.2.2.2 e.2.2.2.1 e.2.2.1 e.2.1 (if c.scalar then e.1 else u / c.nSt) (u % c.nSt)

/-- The unknown of the other side. -/
def other (c : Cfg) (e : Nat × Nat × Nat × Nat × Nat) : Nat :=
  if c.scalar then e.2.2.2.2 else e.2.2.2.2 + c.nSt * e.2.2.2.1

theorem sum_entries {M : Type} [AddCommMonoid M] (c : Cfg) (hm : c.mode ≠ .fullJones) (u : Nat)
    (f : Nat → Nat → M) (hu : u < nUn c) :
    ∑ i ∈ range (nSp c * c.nChan * c.solInt * nSp c), ∑ st2 ∈ range (nUn c), f (elem c u i st2) st2 =
      ∑ e ∈ entries c, f (addr c u e) (other c e) := by
  have hm' : (c.mode == Mode.fullJones) = false := by simpa using hm
  unfold entries
  rw [Finset.sum_product]
  simp_rw [Finset.sum_product]
  by_cases hs : c.scalar = true
  · have h1 : nSp c = 2 := by unfold nSp; rw [hm', hs]; rfl
    have h2 : nUn c = c.nSt := by unfold nUn; rw [hs]; rfl
    rw [h1, h2, if_pos hs]
    rw [show 2 * c.nChan * c.solInt * 2 = 2 * (c.solInt * c.nChan * 2) by ring, sum_range_mul, sum_range_mul,]
    apply Finset.sum_congr rfl
    intro k _
    rw [sum_range_mul]
    apply Finset.sum_congr rfl
    intro ch _
    apply Finset.sum_congr rfl
    intro t _
    apply Finset.sum_congr rfl
    intro p2 _
    apply Finset.sum_congr rfl
    intro st2 _
    rw [h2] at hu
    congr 1
    · unfold elem addr offset
      rw [if_pos hs, h2, Nat.div_eq_of_lt hu]
      ring
    · unfold other; rw [if_pos hs]
  · have hs' : c.scalar = false := by simpa using hs
    have h1 : nSp c = 1 := by unfold nSp; rw [hm', hs']; rfl
    have h2 : nUn c = 2 * c.nSt := by unfold nUn; rw [hs', hm']; rfl
    rw [h1, h2, if_neg hs, Finset.sum_range_one]
    rw [show 1 * c.nChan * c.solInt * 1 = c.solInt * c.nChan by ring, sum_range_mul]
    apply Finset.sum_congr rfl
    intro ch _
    apply Finset.sum_congr rfl
    intro t _
    rw [show 2 * c.nSt = c.nSt * 2 by ring, sum_range_mul]
    apply Finset.sum_congr rfl
    intro p2 _
    apply Finset.sum_congr rfl
    intro st2 _
    congr 1
    · unfold elem addr offset
      rw [if_neg hs, h2]
      ring
    · unfold other; rw [if_neg hs]

/-- The sums of the code as sums over all elements of the unknown. -/
theorem sums_eq (c : Cfg) (hm : c.mode ≠ .fullJones) (vis mvis h : Nat → ℂ) (u : Nat) (hu : u < nUn c) :
    sums c vis mvis h u =
      (∑ e ∈ entries c, normSq (h (other c e) * mvis (addr c u e)),
       ∑ e ∈ entries c, (starRingEnd ℂ) (h (other c e) * mvis (addr c u e)) * vis (addr c u e)) := by
  rw [sums_flat, sum_entries c hm u (fun k s => normSq (h s * mvis k)) hu,
    sum_entries c hm u (fun k s => (starRingEnd ℂ) (h s * mvis k) * vis k) hu]

/-! ## Least squares with one unknown -/

section LS

variable {ι : Type} (S : Finset ι) (Z V : ι → ℂ)

/-- The squared residual. -/
noncomputable def sq (x : ℂ) : ℝ := ∑ e ∈ S, normSq (V e - Z e * x)

theorem normSq_sub_mul (v z x : ℂ) :
    normSq (v - z * x) = normSq v + normSq z * normSq x - 2 * ((starRingEnd ℂ) x * ((starRingEnd ℂ) z * v)).re := by
  simp only [normSq_apply, sub_re, sub_im, mul_re, mul_im, conj_re, conj_im]
  ring

theorem sq_expand (x : ℂ) : sq S Z V x = (∑ e ∈ S, normSq (V e)) + (∑ e ∈ S, normSq (Z e)) * normSq x -
    2 * ((starRingEnd ℂ) x * ∑ e ∈ S, (starRingEnd ℂ) (Z e) * V e).re := by
  unfold sq
  simp_rw [normSq_sub_mul]
  rw [Finset.sum_sub_distrib, Finset.sum_add_distrib, Finset.sum_mul, ← Finset.mul_sum, ← Complex.re_sum, ← Finset.mul_sum]

theorem sq_min (hW : ∑ e ∈ S, normSq (Z e) ≠ 0) (x : ℂ) :
    sq S Z V x = sq S Z V ((∑ e ∈ S, (starRingEnd ℂ) (Z e) * V e) / ((∑ e ∈ S, normSq (Z e) : ℝ) : ℂ)) +
      (∑ e ∈ S, normSq (Z e)) *
        normSq (x - (∑ e ∈ S, (starRingEnd ℂ) (Z e) * V e) / ((∑ e ∈ S, normSq (Z e) : ℝ) : ℂ)) := by
  rw [sq_expand, sq_expand]
  set W := ∑ e ∈ S, normSq (Z e) with hWd
  set T := ∑ e ∈ S, (starRingEnd ℂ) (Z e) * V e
  rw [show T / (W : ℂ) = ((1 / W : ℝ) : ℂ) * T by push_cast; ring]
  simp only [normSq_apply, sub_re, sub_im, mul_re, mul_im, conj_re, conj_im, ofReal_re, ofReal_im, map_mul, conj_ofReal]
  field_simp
  ring

theorem sq_phase (hT : (∑ e ∈ S, (starRingEnd ℂ) (Z e) * V e) ≠ 0) (x : ℂ) (hx : ‖x‖ = 1) :
    sq S Z V x = sq S Z V ((∑ e ∈ S, (starRingEnd ℂ) (Z e) * V e) / (‖∑ e ∈ S, (starRingEnd ℂ) (Z e) * V e‖ : ℂ)) +
      ‖∑ e ∈ S, (starRingEnd ℂ) (Z e) * V e‖ *
        normSq (x - (∑ e ∈ S, (starRingEnd ℂ) (Z e) * V e) / (‖∑ e ∈ S, (starRingEnd ℂ) (Z e) * V e‖ : ℂ)) := by
  rw [sq_expand, sq_expand]
  set W := ∑ e ∈ S, normSq (Z e)
  set T := ∑ e ∈ S, (starRingEnd ℂ) (Z e) * V e
  have hn : ‖T‖ ≠ 0 := by simpa using hT
  have h1 : normSq x = 1 := by rw [normSq_eq_norm_sq, hx]; norm_num
  have h2 : T.re * T.re + T.im * T.im = ‖T‖ * ‖T‖ := by
    rw [← normSq_apply, normSq_eq_norm_sq]; ring
  have h3 : x.re * x.re + x.im * x.im = 1 := by rw [← normSq_apply]; exact h1
  rw [show T / (‖T‖ : ℂ) = ((1 / ‖T‖ : ℝ) : ℂ) * T by push_cast; ring, h1]
  have h4 : normSq (((1 / ‖T‖ : ℝ) : ℂ) * T) = 1 := by
    rw [normSq_mul, normSq_ofReal, normSq_eq_norm_sq]; field_simp
  rw [h4]
  simp only [normSq_apply, sub_re, sub_im, mul_re, mul_im, conj_re, conj_im, ofReal_re, ofReal_im, map_mul, conj_ofReal]
  field_simp
  have h5 : ‖T‖ ^ 2 = T.re ^ 2 + T.im ^ 2 := by rw [pow_two, ← h2]; ring
  have h6 : x.re ^ 2 = 1 - x.im ^ 2 := by linarith
  ring_nf
  rw [h5, h6]
  ring

end LS

end DP3.GainCal
