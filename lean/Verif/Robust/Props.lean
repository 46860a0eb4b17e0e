import Verif.Robust.Model
import Verif.Estimate.Props
import Mathlib.Analysis.SpecialFunctions.Log.Deriv

/-!
# Property C128: the robust cost of the demixer and its gradient
-/

namespace DP3.Robust

open DP3.Estimate

set_option linter.unusedSimpArgs false

/-- The robust cost of the least squares problem of demixing: Student's logarithm of every real and imaginary
residual of the cross-correlations that are not flagged. Not in the code. -/
noncomputable def robustCost (mem : Mem ℝ) (c : Curs) (nDir nSt nBl nCh : ℕ) (ν : ℝ) (u : ℕ → ℝ) : ℝ :=
  ((used mem c nDir nBl nCh).map fun d =>
    Real.log (1 + weightOf mem c d * (observed mem c d - predicted mem c nDir nSt u d).re ^ 2 / ν) +
    Real.log (1 + weightOf mem c d * (observed mem c d - predicted mem c nDir nSt u d).im ^ 2 / ν)).sum

private theorem iter_eq (mem : Mem ℝ) (c : Curs) (nDir nSt nBl nCh : ℕ) (u : ℕ → ℝ) :
    (iteration mem nDir nSt nBl nCh u c).2 = (used mem c nDir nBl nCh).flatMap fun d => datumRows mem c nDir nSt u d.bl d.ch d.cr d.tg :=
  equations_eq mem c nDir nSt nBl nCh u

/-- **C128**: `cost_func` is the robust cost. -/
theorem costFunc_eq (mem : Mem ℝ) (c : Curs) (nDir nSt nBl nCh : ℕ) (ν : ℝ) (u : ℕ → ℝ) :
    costFunc mem c nDir nSt nBl nCh ν u = robustCost mem c nDir nSt nBl nCh ν u := by
  unfold costFunc robustCost
  rw [iter_eq]
  apply rows_sum
  intro d hd
  rw [used_mem] at hd
  obtain ⟨a, b, e, h1, h2, h3, h4, _, _, _, _⟩ := datumRows_eq mem c nDir nSt u d hd.2.2.1
  rw [e]
  simp only [List.map_cons, List.map_nil, List.sum_cons, List.sum_nil, add_zero, cost, h1, h2, h3, h4, pow_two, mul_assoc]

private theorem grad_dot (ν : ℝ) (rows : List (Row ℝ)) (n : ℕ) (h : ∀ r ∈ rows, ∀ i ∈ r.index, i < n) (δ : ℕ → ℝ) :
    (∑ i ∈ Finset.range n, (rows.map (gradRow ν i)).sum * δ i) =
      (rows.map fun r => -(2 * r.weight * r.obs / (ν + r.weight * r.obs * r.obs)) * dot r δ).sum := by
  induction rows with
  | nil => simp
  | cons r rows ih =>
    simp only [List.map_cons, List.sum_cons, add_mul, Finset.sum_add_distrib]
    rw [ih (fun r' hr' => h r' (List.mem_cons_of_mem _ hr'))]
    congr 1
    have := sum_pick (r.index.zip r.coef) n (fun a ha => h r (List.mem_cons_self) a.1 (List.of_mem_zip ha).1)
      (-(2 * r.weight * r.obs / (ν + r.weight * r.obs * r.obs))) δ
    rw [dot, ← this]
    apply Finset.sum_congr rfl
    intro i _
    unfold gradRow
    congr 3
    funext a
    split
    · ring
    · rfl

private theorem hasDeriv_sum {A : Type} (l : List A) (f : A → ℝ → ℝ) (f' : A → ℝ) (x : ℝ) (h : ∀ a ∈ l, HasDerivAt (f a) (f' a) x) :
    HasDerivAt (fun t => (l.map fun a => f a t).sum) (l.map f').sum x := by
  induction l with
  | nil => simpa using hasDerivAt_const x (0 : ℝ)
  | cons a l ih =>
    simp only [List.map_cons, List.sum_cons]
    exact (h a List.mem_cons_self).add (ih fun b hb => h b (List.mem_cons_of_mem _ hb))

private theorem log_deriv (w ν r p q : ℝ) (hν : 0 < ν) (hw : 0 ≤ w) :
    HasDerivAt (fun t : ℝ => Real.log (1 + w * (r - t * p - t * t * q) ^ 2 / ν)) (-(2 * w * r / (ν + w * r * r)) * p) 0 := by
  have h0 : HasDerivAt (fun t : ℝ => r - t * p - t * t * q) (-p) 0 := by
    have a := ((hasDerivAt_const (0 : ℝ) r).sub ((hasDerivAt_id (0 : ℝ)).mul_const p)).sub
      (((hasDerivAt_id (0 : ℝ)).mul (hasDerivAt_id (0 : ℝ))).mul_const q)
    refine a.congr_deriv ?_
    simp
  have h1 := (((h0.pow 2).const_mul w).div_const ν).const_add 1
  have hpos : 0 < 1 + w * (r - 0 * p - 0 * 0 * q) ^ 2 / ν := by positivity
  have h2 := h1.log (ne_of_gt hpos)
  refine h2.congr_deriv ?_
  have hd : ν + w * r * r ≠ 0 := by nlinarith [mul_nonneg hw (mul_self_nonneg r)]
  have hd' : ν + w * r ^ 2 ≠ 0 := by rw [pow_two, ← mul_assoc]; exact hd
  simp only [zero_mul, sub_zero, Nat.cast_ofNat, Pi.pow_apply]
  field_simp
  ring

/-- **C128**: `grad_func` is the gradient of `cost_func`: its derivative in every direction. -/
theorem gradFunc_derivative (mem : Mem ℝ) (c : Curs) (nDir nSt nBl nCh : ℕ) (ν : ℝ) (u δ : ℕ → ℝ) (hν : 0 < ν)
    (hst : ∀ bl < nBl, (pair mem c bl).1 < nSt ∧ (pair mem c bl).2 < nSt)
    (hw : ∀ d ∈ used mem c nDir nBl nCh, 0 ≤ weightOf mem c d) :
    HasDerivAt (fun t => costFunc mem c nDir nSt nBl nCh ν (moved u δ t))
      (∑ i ∈ Finset.range (nUnknowns nDir nSt), gradFunc mem c nDir nSt nBl nCh ν u i * δ i) 0 := by
  have hg : (∑ i ∈ Finset.range (nUnknowns nDir nSt), gradFunc mem c nDir nSt nBl nCh ν u i * δ i) =
      ((used mem c nDir nBl nCh).map fun d =>
        -(2 * weightOf mem c d * (observed mem c d - predicted mem c nDir nSt u d).re / (ν + weightOf mem c d * (observed mem c d - predicted mem c nDir nSt u d).re * (observed mem c d - predicted mem c nDir nSt u d).re)) * (linOf mem c nDir nSt u δ d).re +
        -(2 * weightOf mem c d * (observed mem c d - predicted mem c nDir nSt u d).im / (ν + weightOf mem c d * (observed mem c d - predicted mem c nDir nSt u d).im * (observed mem c d - predicted mem c nDir nSt u d).im)) * (linOf mem c nDir nSt u δ d).im).sum := by
    unfold gradFunc
    rw [grad_dot ν (iteration mem nDir nSt nBl nCh u c).2 _ (rows_range mem c nDir nSt nBl nCh u hst), iter_eq]
    apply rows_sum
    intro d hd
    rw [used_mem] at hd
    obtain ⟨a, b, e, h1, h2, h3, h4, h5, h6, _, _⟩ := datumRows_eq mem c nDir nSt u d hd.2.2.1
    rw [e]
    simp only [List.map_cons, List.map_nil, List.sum_cons, List.sum_nil, add_zero, h1, h2, h3, h4, h5, h6]
  rw [hg]
  have hc : (fun t => costFunc mem c nDir nSt nBl nCh ν (moved u δ t)) = fun t => ((used mem c nDir nBl nCh).map fun d =>
      Real.log (1 + weightOf mem c d * ((observed mem c d - predicted mem c nDir nSt u d).re - t * (linOf mem c nDir nSt u δ d).re - t * t * (predicted mem c nDir nSt δ d).re) ^ 2 / ν) +
      Real.log (1 + weightOf mem c d * ((observed mem c d - predicted mem c nDir nSt u d).im - t * (linOf mem c nDir nSt u δ d).im - t * t * (predicted mem c nDir nSt δ d).im) ^ 2 / ν)).sum := by
    funext t
    rw [costFunc_eq]
    unfold robustCost
    congr 1
    apply List.map_congr_left
    intro d hd
    rw [used_mem] at hd
    rw [predicted_moved _ _ _ _ _ _ _ _ hd.2.2.1]
    simp only [Cx.sub_re, Cx.sub_im, Cx.add_re, Cx.add_im, Cx.mul_re, Cx.mul_im, Cx.ofReal_re, Cx.ofReal_im, zero_mul, sub_zero, add_zero]
    congr 5
    · ring
    · ring
  rw [hc]
  apply hasDeriv_sum
  intro d hd
  exact (log_deriv _ _ _ _ _ hν (hw d hd)).add (log_deriv _ _ _ _ _ hν (hw d hd))

/-- **C128**: the cost is not negative, and zero exactly where the gains explain all data that have a weight. -/
theorem costFunc_zero (mem : Mem ℝ) (c : Curs) (nDir nSt nBl nCh : ℕ) (ν : ℝ) (u : ℕ → ℝ) (hν : 0 < ν)
    (hw : ∀ d ∈ used mem c nDir nBl nCh, 0 ≤ weightOf mem c d) :
    0 ≤ costFunc mem c nDir nSt nBl nCh ν u ∧ (costFunc mem c nDir nSt nBl nCh ν u = 0 ↔
      ∀ d ∈ used mem c nDir nBl nCh, weightOf mem c d = 0 ∨ observed mem c d = predicted mem c nDir nSt u d) := by
  rw [costFunc_eq]
  unfold robustCost
  have hl : ∀ w r : ℝ, 0 ≤ w → 0 ≤ Real.log (1 + w * r ^ 2 / ν) := by
    intro w r hw
    apply Real.log_nonneg
    have : 0 ≤ w * r ^ 2 / ν := by positivity
    linarith
  have hz : ∀ w r : ℝ, 0 ≤ w → Real.log (1 + w * r ^ 2 / ν) = 0 → w = 0 ∨ r = 0 := by
    intro w r hw h
    have h1 : 0 ≤ w * r ^ 2 / ν := by positivity
    rcases Real.log_eq_zero.mp h with h | h | h
    · linarith
    · have : w * r ^ 2 / ν = 0 := by linarith
      rcases div_eq_zero_iff.mp this with h' | h'
      · rcases mul_eq_zero.mp h' with h'' | h''
        · exact Or.inl h''
        · exact Or.inr (pow_eq_zero_iff (two_ne_zero) |>.mp h'')
      · exact absurd h' (ne_of_gt hν)
    · linarith
  generalize used mem c nDir nBl nCh = l at hw ⊢
  induction l with
  | nil => simp
  | cons d l ih =>
    obtain ⟨i1, i2⟩ := ih (fun e he => hw e (List.mem_cons_of_mem _ he))
    have w0 := hw d List.mem_cons_self
    have a := hl _ (observed mem c d - predicted mem c nDir nSt u d).re w0
    have b := hl _ (observed mem c d - predicted mem c nDir nSt u d).im w0
    rw [List.map_cons, List.sum_cons]
    refine ⟨by linarith, ?_⟩
    constructor
    · intro h e he
      rcases List.mem_cons.mp he with rfl | he
      · rcases hz _ (observed mem c e - predicted mem c nDir nSt u e).re w0 (by linarith) with h1 | h1
        · exact Or.inl h1
        · rcases hz _ (observed mem c e - predicted mem c nDir nSt u e).im w0 (by linarith) with h2 | h2
          · exact Or.inl h2
          · right
            have : observed mem c e - predicted mem c nDir nSt u e = 0 := Cx.ext h1 h2
            exact sub_eq_zero.mp this
      · exact i2.mp (by linarith) e he
    · intro h
      have h2 := i2.mpr fun e he => h e (List.mem_cons_of_mem _ he)
      rw [h2]
      rcases h d List.mem_cons_self with h1 | h1
      · simp [h1]
      · simp [h1]

/-- **C128**: the cost is at most that of least squares, divided by the degrees of freedom. -/
theorem costFunc_le (mem : Mem ℝ) (c : Curs) (nDir nSt nBl nCh : ℕ) (ν : ℝ) (u : ℕ → ℝ) (hν : 0 < ν)
    (hw : ∀ d ∈ used mem c nDir nBl nCh, 0 ≤ weightOf mem c d) :
    ν * costFunc mem c nDir nSt nBl nCh ν u ≤ chi2 mem c nDir nSt nBl nCh u := by
  rw [costFunc_eq]
  unfold robustCost chi2
  have hl : ∀ w r : ℝ, 0 ≤ w → ν * Real.log (1 + w * r ^ 2 / ν) ≤ w * r ^ 2 := by
    intro w r hw
    have h1 : 0 < 1 + w * r ^ 2 / ν := by positivity
    have h2 := Real.log_le_sub_one_of_pos h1
    have h3 : Real.log (1 + w * r ^ 2 / ν) ≤ w * r ^ 2 / ν := by linarith
    have h4 := mul_le_mul_of_nonneg_left h3 hν.le
    rwa [mul_div_cancel₀ _ (ne_of_gt hν)] at h4
  generalize used mem c nDir nBl nCh = l at hw ⊢
  induction l with
  | nil => simp
  | cons d l ih =>
    have i := ih (fun e he => hw e (List.mem_cons_of_mem _ he))
    have w0 := hw d List.mem_cons_self
    have a := hl _ (observed mem c d - predicted mem c nDir nSt u d).re w0
    have b := hl _ (observed mem c d - predicted mem c nDir nSt u d).im w0
    rw [List.map_cons, List.sum_cons, List.map_cons, List.sum_cons]
    have e : weightOf mem c d * (observed mem c d - predicted mem c nDir nSt u d).normSq =
        weightOf mem c d * (observed mem c d - predicted mem c nDir nSt u d).re ^ 2 + weightOf mem c d * (observed mem c d - predicted mem c nDir nSt u d).im ^ 2 := by
      simp only [Cx.normSq]; ring
    rw [e, mul_add, mul_add]
    linarith

private theorem robust_bound (w o ν : ℝ) (hν : 0 < ν) (hw : 0 ≤ w) : |2 * w * o / (ν + w * o * o)| ≤ 1 + w / ν := by
  have hd : 0 < ν + w * o * o := by nlinarith [mul_nonneg hw (mul_self_nonneg o)]
  rw [abs_div, abs_of_pos hd, div_le_iff₀ hd, abs_mul, abs_mul, abs_two, abs_of_nonneg hw]
  have h1 : 2 * w * |o| ≤ w + w * (o * o) := by nlinarith [mul_nonneg hw (sq_nonneg (|o| - 1)), abs_mul_abs_self o]
  have h2 : 0 ≤ w * (o * o) := mul_nonneg hw (mul_self_nonneg o)
  have h3 : 0 ≤ w / ν * (w * (o * o)) := mul_nonneg (div_nonneg hw hν.le) h2
  have e : (1 + w / ν) * (ν + w * o * o) = ν + w * (o * o) + w + w / ν * (w * (o * o)) := by
    field_simp
    ring
  rw [e]
  linarith

private theorem abs_sum_le (l : List ℝ) : |l.sum| ≤ (l.map fun x => |x|).sum := by
  induction l with
  | nil => simp
  | cons a l ih =>
    rw [List.sum_cons, List.map_cons, List.sum_cons]
    exact le_trans (abs_add_le _ _) (by linarith)

/-- **C128**: the influence of the data on the gradient is bounded: whatever the observed values, however far off, a
component of the gradient does not exceed a number that depends on the model, the weights, the mixing factors and the
gains only. -/
theorem gradFunc_bounded (mem : Mem ℝ) (c : Curs) (nDir nSt nBl nCh : ℕ) (ν : ℝ) (u : ℕ → ℝ) (i : ℕ) (hν : 0 < ν)
    (hw : ∀ d ∈ used mem c nDir nBl nCh, 0 ≤ weightOf mem c d) :
    ∃ B, ∀ data, |gradFunc { mem with data := data } c nDir nSt nBl nCh ν u i| ≤ B := by
  let bound : Row ℝ → ℝ := fun r => ((r.index.zip r.coef).map fun a => if a.1 = i then |a.2| * (1 + r.weight / ν) else 0).sum
  refine ⟨((iteration mem nDir nSt nBl nCh u c).2.map bound).sum, ?_⟩
  intro data
  have hrow : ∀ r : Row ℝ, 0 ≤ r.weight → |gradRow ν i r| ≤ bound r := by
    intro r hr
    refine le_trans (abs_sum_le _) ?_
    rw [List.map_map]
    apply List.sum_le_sum
    intro a _
    simp only [Function.comp]
    by_cases ha : a.1 = i
    · rw [if_pos ha, if_pos ha]
      have e : -(2 * a.2 * r.weight * r.obs / (ν + r.weight * r.obs * r.obs)) = -(a.2 * (2 * r.weight * r.obs / (ν + r.weight * r.obs * r.obs))) := by ring
      rw [e, abs_neg, abs_mul]
      exact mul_le_mul_of_nonneg_left (robust_bound _ _ _ hν hr) (abs_nonneg _)
    · rw [if_neg ha, if_neg ha, abs_zero]
  unfold gradFunc
  rw [iter_eq, iter_eq]
  have hu : used { mem with data := data } c nDir nBl nCh = used mem c nDir nBl nCh := rfl
  rw [hu]
  have hb : ∀ d : Datum, (datumRows { mem with data := data } c nDir nSt u d.bl d.ch d.cr d.tg).map bound =
      (datumRows mem c nDir nSt u d.bl d.ch d.cr d.tg).map bound := fun d => rfl
  have hwr : ∀ d ∈ used mem c nDir nBl nCh, ∀ r ∈ datumRows { mem with data := data } c nDir nSt u d.bl d.ch d.cr d.tg, 0 ≤ r.weight := by
    intro d hd r hr
    have hr' : r.weight = weightOf mem c d := by
      simp only [datumRows, List.mem_cons, List.not_mem_nil, or_false] at hr
      rcases hr with rfl | rfl <;> rfl
    rw [hr']; exact hw d hd
  generalize used mem c nDir nBl nCh = l at hwr ⊢
  induction l with
  | nil => simp
  | cons d l ih =>
    rw [List.flatMap_cons, List.flatMap_cons, List.map_append, List.map_append, List.sum_append, List.sum_append]
    refine le_trans (abs_add_le _ _) (add_le_add ?_ (ih fun e he => hwr e (List.mem_cons_of_mem _ he)))
    rw [← hb d]
    refine le_trans (abs_sum_le _) ?_
    rw [List.map_map]
    apply List.sum_le_sum
    intro r hr
    exact hrow r (hwr d List.mem_cons_self r hr)

/-- **C128**: as for least squares, the common phase of a direction is not determined: the gradient has no component
along it. -/
theorem gradFunc_phase (mem : Mem ℝ) (c : Curs) (nDir nSt nBl nCh : ℕ) (ν : ℝ) (u : ℕ → ℝ) (dir : ℕ)
    (hst : ∀ bl < nBl, (pair mem c bl).1 < nSt ∧ (pair mem c bl).2 < nSt) :
    (∑ i ∈ Finset.range (nUnknowns nDir nSt), gradFunc mem c nDir nSt nBl nCh ν u i * turn u nSt dir i) = 0 := by
  unfold gradFunc
  rw [grad_dot ν (iteration mem nDir nSt nBl nCh u c).2 _ (rows_range mem c nDir nSt nBl nCh u hst)]
  apply List.sum_eq_zero
  intro z hz
  rw [List.mem_map] at hz
  obtain ⟨r, hr, rfl⟩ := hz
  rw [dot_turn mem c nDir nSt nBl nCh u dir hst r hr, mul_zero]

/-- **C128**: values of flagged visibilities and autocorrelations have no influence on cost and gradient. -/
theorem robust_same (a b : Mem ℝ) (c : Curs) (nDir nSt nBl nCh : ℕ) (ν : ℝ) (u : ℕ → ℝ) (h : SameUsed a b c nDir nBl nCh) :
    costFunc a c nDir nSt nBl nCh ν u = costFunc b c nDir nSt nBl nCh ν u ∧
      ∀ i, gradFunc a c nDir nSt nBl nCh ν u i = gradFunc b c nDir nSt nBl nCh ν u i := by
  have := equations_same a b c nDir nSt nBl nCh u h
  simp only [equations] at this
  unfold costFunc gradFunc
  rw [this]
  exact ⟨rfl, fun _ => rfl⟩

/-- Two stations and one visibility: the gain 1 and a model 1, observed with value 3 and weight 2. -/
noncomputable def exMem : Mem ℝ where
  baselines _ := (0, 1)
  data _ a := if a = 0 then ⟨3, 0⟩ else 0
  model _ a := if a = 0 then 1 else 0
  flag a := a ≠ 0
  weight _ := 2
  mix _ := 1

private theorem ex_used : used exMem exCurs 1 1 1 = [⟨0, 0, 0, 0⟩] := by
  have p : ∀ b, pair exMem exCurs b = (0, 1) := fun _ => rfl
  have f : ∀ cr, exMem.flag (place exCurs.flag 0 0 cr) = decide (cr ≠ 0) := by
    intro cr
    simp [exMem, exCurs, dense, place]
  simp only [used, p, List.range_succ, List.range_zero, List.nil_append, List.flatMap_cons, List.flatMap_nil, List.append_nil, List.cons_append, f]
  simp

/-- The hypotheses of the theorems above are met. -/
example : (∀ bl < 1, (pair exMem exCurs bl).1 < 2 ∧ (pair exMem exCurs bl).2 < 2) ∧
    ∀ d ∈ used exMem exCurs 1 1 1, 0 ≤ weightOf exMem exCurs d := by
  refine ⟨fun _ _ => by simp [pair, exMem], fun d _ => ?_⟩
  simp [weightOf, exMem]

/-- With unit gains the residual is 2, and the cost with two degrees of freedom is the logarithm of 5. -/
example : costFunc exMem exCurs 1 2 1 1 2 (fun i => if i % 8 = 0 then 1 else 0) = Real.log 5 := by
  rw [costFunc_eq, robustCost, ex_used]
  simp [predicted, observed, weightOf, corrupted, entry, jones, exMem, exCurs, dense, mixDense, place, mixPlace, pair, modelVis, M2.herm, blCursor]
  norm_num

end DP3.Robust
