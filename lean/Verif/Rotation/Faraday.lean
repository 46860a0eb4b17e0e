import Verif.Rotation.FaradayModel
import Verif.Rotation.Antenna
import Verif.PhaseLine.RangeProps
import Mathlib.Algebra.BigOperators.Group.Finset.Basic
import Mathlib.Tactic.Positivity

/-!
# Properties of the Faraday rotation constraint (C104)
-/

namespace DP3.Rotation

open Real

/-- C104. The fitter gets one sample per channel block with its squared wavelength, twice the angle and the weight, or
weight zero if the solution is NaN; for ascending frequencies the samples ascend. -/
theorem samples_spec (c : Faraday) (weights : Nat → ℝ) (sol : Nat → Option J) :
    (samples c weights sol).length = c.nCh ∧
    (∀ ch < c.nCh, ∃ x ∈ samples c weights sol, x.x = (c.speedOfLight / c.freqs ch) ^ 2 ∧
      (sol ch = none → x.weight = 0) ∧
      ∀ j, sol ch = some j → x.weight = weights ch ∧ x.y = 2 * fitRotation j) ∧
    (0 < c.speedOfLight → (∀ i < c.nCh, 0 < c.freqs i) → (∀ i k, i < k → k < c.nCh → c.freqs i < c.freqs k) →
      (samples c weights sol).Pairwise fun a b => a.x < b.x) := by
  refine ⟨by simp [samples], fun ch hch => ?_, fun hl hp hf => ?_⟩
  · refine ⟨sample c weights sol ch, ?_, ?_, ?_, ?_⟩
    · refine List.mem_map.mpr ⟨c.nCh - 1 - ch, List.mem_range.mpr (by omega), ?_⟩
      congr 1
      omega
    · unfold sample lambda2
      split <;> exact (sq _).symm
    · intro hn
      unfold sample
      rw [hn]
    · intro j hj
      unfold sample
      rw [hj]
      exact ⟨rfl, mul_comm _ _⟩
  · unfold samples
    rw [List.pairwise_map]
    refine List.Pairwise.imp_of_mem ?_ List.pairwise_lt_range
    intro a b ha hb hab
    rw [List.mem_range] at ha hb
    have hx : ∀ ch, (sample c weights sol ch).x = lambda2 c ch := by
      intro ch; unfold sample; split <;> rfl
    rw [hx, hx]
    have h1 := hp (c.nCh - b - 1) (by omega)
    have h2 := hf (c.nCh - b - 1) (c.nCh - a - 1) (by omega) (by omega)
    have h3 : c.speedOfLight / c.freqs (c.nCh - a - 1) < c.speedOfLight / c.freqs (c.nCh - b - 1) :=
      div_lt_div_of_pos_left hl h1 h2
    have h4 : 0 < c.speedOfLight / c.freqs (c.nCh - a - 1) := div_pos hl (by linarith)
    unfold lambda2
    exact mul_lt_mul'' h3 h3 h4.le h4.le

private theorem derotated_rebuild (d : ℂ × ℂ) (φ : ℝ) : derotated (rebuild d φ) φ = d := by
  have hcs : (Real.cos φ : ℂ) * Real.cos φ + Real.sin φ * Real.sin φ = 1 := by
    rw [← Complex.ofReal_mul, ← Complex.ofReal_mul, ← Complex.ofReal_add, ← sq, ← sq, Real.cos_sq_add_sin_sq,
      Complex.ofReal_one]
  unfold derotated rebuild
  generalize (Real.cos φ : ℂ) = x at *
  generalize (Real.sin φ : ℂ) = y at *
  refine Prod.ext ?_ ?_
  · show d.1 * x * x - -d.1 * y * y = d.1
    linear_combination d.1 * hcs
  · show d.2 * y * y + d.2 * x * x = d.2
    linear_combination d.2 * hcs

private theorem columns_eq_rebuild_iff (d : ℂ × ℂ) (φ : ℝ) : columns d φ = rebuild d φ ↔ d.1 = d.2 ∨ Real.sin φ = 0 := by
  constructor
  · intro h
    have h1 := congrArg J.d2 h
    simp only [columns, setRotation, rebuild] at h1
    by_cases hs : Real.sin φ = 0
    · exact .inr hs
    · left
      have hs' : (Real.sin φ : ℂ) ≠ 0 := by rwa [Complex.ofReal_ne_zero]
      rw [mul_comm] at h1
      exact mul_right_cancel₀ hs' h1
  · rintro (h | h)
    · obtain ⟨a, b⟩ := d
      simp only at h
      subst h
      ext <;> simp only [columns, setRotation, rebuild] <;> ring
    · ext <;> simp only [columns, setRotation, rebuild, h] <;> push_cast <;> ring

/-- C104, partial: in the scalar modes. A solution that is an allowed scalar times the Faraday rotation of the fitted
rotation measure does not change. Missing: the diagonal modes, see `faraday_diagonal`. -/
theorem faraday_scalar_partial (c : Faraday) (mode : Mode) (hm : c.mode = some mode) (range : PhaseLine.Range) (weights : Nat → ℝ) (sol : Nat → Option J)
    (ch : Nat) (z : ℂ) (ha : Allowed mode (z, z)) (hd : Defined mode (z, z))
    (hsol : sol ch = some (rebuild (z, z) (lambda2 c ch * (performFit c range weights sol).1))) :
    (performFit c range weights sol).2 ch = sol ch := by
  rw [hsol]
  simp only [performFit] at hsol ⊢
  unfold newChannel
  rw [hsol]
  simp only [derotated_rebuild]
  have : constrainMode c.mode (z, z) = (z, z) := by
    rw [hm]; exact (constrain_spec mode _ hd).2 ha
  rw [this]
  congr 1
  exact (columns_eq_rebuild_iff (z, z) _).mpr (.inl rfl)

/-- C104. In the diagonal mode, a solution that is a diagonal times the fitted Faraday rotation changes unless both values
are equal or there is no rotation: the code fits a diagonal times a rotation, and stores a rotation times a diagonal. -/
theorem faraday_diagonal (c : Faraday) (hm : c.mode = some .diagonal) (range : PhaseLine.Range) (weights : Nat → ℝ) (sol : Nat → Option J) (ch : Nat)
    (d : ℂ × ℂ) (hsol : sol ch = some (rebuild d (lambda2 c ch * (performFit c range weights sol).1))) :
    ((performFit c range weights sol).2 ch = sol ch ↔
      d.1 = d.2 ∨ Real.sin (lambda2 c ch * (performFit c range weights sol).1) = 0) := by
  rw [← columns_eq_rebuild_iff, hsol]
  simp only [performFit] at hsol ⊢
  unfold newChannel
  rw [hsol]
  simp only [derotated_rebuild, hm, constrainMode, constrain, Option.some.injEq]

/-- C104. Nor do stored solutions stay: the diagonal that is found in a solution the constraint made has its difference
reduced by cos(2φ). -/
theorem faraday_again (d : ℂ × ℂ) (φ : ℝ) :
    (derotated (columns d φ) φ).1 - (derotated (columns d φ) φ).2 = Real.cos (2 * φ) * (d.1 - d.2) ∧
    (derotated (columns d φ) φ).1 + (derotated (columns d φ) φ).2 = d.1 + d.2 := by
  have hcs : (Real.cos φ : ℂ) * Real.cos φ + Real.sin φ * Real.sin φ = 1 := by
    rw [← Complex.ofReal_mul, ← Complex.ofReal_mul, ← Complex.ofReal_add, ← sq, ← sq, Real.cos_sq_add_sin_sq,
      Complex.ofReal_one]
  have h2 : (Real.cos (2 * φ) : ℂ) = (Real.cos φ : ℂ) * Real.cos φ - Real.sin φ * Real.sin φ := by
    rw [Real.cos_two_mul']; push_cast; ring
  rw [h2]
  unfold derotated columns setRotation
  generalize (Real.cos φ : ℂ) = x at *
  generalize (Real.sin φ : ℂ) = y at *
  constructor
  · show x * d.1 * x - -y * d.2 * y - (y * d.1 * y + x * d.2 * x) = _
    ring
  · show x * d.1 * x - -y * d.2 * y + (y * d.1 * y + x * d.2 * x) = _
    linear_combination (d.1 + d.2) * hcs

/-- C104. Without a diagonal, the new solution is the Faraday rotation, also where the solution was NaN. -/
theorem faraday_rotation (c : Faraday) (hm : c.mode = none) (range : PhaseLine.Range) (weights : Nat → ℝ)
    (sol : Nat → Option J) (ch : Nat) :
    let angle := lambda2 c ch * (performFit c range weights sol).1
    (performFit c range weights sol).2 ch = some ⟨Real.cos angle, -Real.sin angle, Real.sin angle, Real.cos angle⟩ := by
  intro angle
  have h1 : columns (1, 1) angle = ⟨Real.cos angle, -Real.sin angle, Real.sin angle, Real.cos angle⟩ := by
    unfold columns setRotation
    simp only [mul_one]
  show newChannel c _ sol ch = _
  rw [← h1]
  unfold newChannel
  cases sol ch with
  | none => simp only [hm, Option.isNone_none, if_true]; rfl
  | some j => simp only [hm, constrainMode]; rfl

/-- C104. With a diagonal, the new solution is the Faraday rotation times an allowed diagonal; NaN stays NaN. -/
theorem faraday_form (c : Faraday) (mode : Mode) (hm : c.mode = some mode) (range : PhaseLine.Range) (weights : Nat → ℝ)
    (sol : Nat → Option J) (ch : Nat) :
    let angle := lambda2 c ch * (performFit c range weights sol).1
    (sol ch = none → (performFit c range weights sol).2 ch = none) ∧
    ∀ j, sol ch = some j → Defined mode (derotated j angle) → ∃ d, Allowed mode d ∧ (performFit c range weights sol).2 ch =
      some ⟨Real.cos angle * d.1, -Real.sin angle * d.2, Real.sin angle * d.1, Real.cos angle * d.2⟩ := by
  intro angle
  refine ⟨fun h => ?_, fun j hj hd => ⟨constrain mode (derotated j angle), (constrain_spec mode _ hd).1, ?_⟩⟩
  · show newChannel c _ sol ch = none
    unfold newChannel
    rw [h]
    simp [hm]
  · show newChannel c _ sol ch = _
    unfold newChannel
    rw [hj]
    simp only [hm, constrainMode, columns, setRotation]
    rfl

/-- Of `faraday_rotation` and `faraday_form`: a NaN solution. -/
example : (performFit ⟨1, fun _ => 1, 1, none, none⟩ ⟨0, 0⟩ (fun _ => 1) fun _ => none).2 0 ≠ none ∧
    (performFit ⟨1, fun _ => 1, 1, some .scalar, none⟩ ⟨0, 0⟩ (fun _ => 1) fun _ => none).2 0 = none := by
  refine ⟨?_, (faraday_form _ .scalar rfl _ _ _ 0).1 rfl⟩
  rw [faraday_rotation _ rfl]
  simp

/-! ## Weights -/

private theorem flatMap_getElem {X : Type} (n m : Nat) (f : Nat → List X) (hl : ∀ i < n, (f i).length = m) (i k : Nat) (hi : i < n)
    (hk : k < m) : ((List.range n).flatMap f)[i * m + k]? = (f i)[k]? ∧ ((List.range n).flatMap f).length = n * m := by
  induction n with
  | zero => omega
  | succ n ih =>
    have hlen : ((List.range n).flatMap f).length = n * m := by
      rcases Nat.eq_zero_or_pos n with h | h
      · subst h; simp
      · rw [List.length_flatMap]
        have : (List.range n).map (fun i => (f i).length) = (List.range n).map fun _ => m := by
          refine List.map_congr_left fun a ha => hl a ?_
          have := List.mem_range.mp ha; omega
        rw [this]; simp
    rw [List.range_succ, List.flatMap_append, List.flatMap_singleton]
    refine ⟨?_, by rw [List.length_append, hlen, hl n (by omega), Nat.succ_mul]⟩
    rcases Nat.lt_succ_iff_lt_or_eq.mp hi with h | h
    · have h2 : i * m + k < n * m := by
        have := Nat.mul_le_mul_right m h
        rw [Nat.succ_mul] at this
        omega
      rw [List.getElem?_append_left (by rw [hlen]; exact h2)]
      exact (ih (fun a ha => hl a (by omega)) h).1
    · subst h
      rw [List.getElem?_append_right (by rw [hlen]; omega), hlen]
      congr 1
      omega

/-- C104. `SetWeights`: the weight of a result is that of its antenna and channel block. -/
theorem faradayWeights_spec (nAnt nSub nCh nPol : Nat) (weights : Nat → ℝ) (ant sub ch p : Nat) (ha : ant < nAnt) (hs : sub < nSub)
    (hc : ch < nCh) (hp : p < nPol) :
    (faradayWeights nAnt nSub nCh nPol weights)[((ant * nSub + sub) * nCh + ch) * nPol + p]? =
      some (weights (ant * nCh + ch)) := by
  unfold faradayWeights
  have hl3 : ∀ a, ∀ i < nCh, ((fun ch => List.replicate nPol (weights (a * nCh + ch))) i).length = nPol := by simp
  have hl2 : ∀ a, ∀ i < nSub, ((fun _ => (List.range nCh).flatMap fun ch => List.replicate nPol (weights (a * nCh + ch))) i :
      List ℝ).length = nCh * nPol := by
    intro a i _
    exact (flatMap_getElem nCh nPol _ (hl3 a) ch p hc hp).2
  have hk2 : ch * nPol + p < nCh * nPol := by
    have := Nat.mul_le_mul_right nPol hc
    rw [Nat.succ_mul] at this
    omega
  have hl1 : ∀ i < nAnt, ((fun ant => (List.range nSub).flatMap fun _ => (List.range nCh).flatMap fun ch =>
      List.replicate nPol (weights (ant * nCh + ch))) i : List ℝ).length = nSub * (nCh * nPol) := by
    intro i _
    exact (flatMap_getElem nSub (nCh * nPol) _ (hl2 i) sub (ch * nPol + p) hs hk2).2
  have hk1 : sub * (nCh * nPol) + (ch * nPol + p) < nSub * (nCh * nPol) := by
    have := Nat.mul_le_mul_right (nCh * nPol) hs
    rw [Nat.succ_mul] at this
    omega
  have hidx : ((ant * nSub + sub) * nCh + ch) * nPol + p =
      ant * (nSub * (nCh * nPol)) + (sub * (nCh * nPol) + (ch * nPol + p)) := by ring
  rw [hidx, (flatMap_getElem nAnt _ _ hl1 ant _ ha hk1).1, (flatMap_getElem nSub _ _ (hl2 ant) sub _ hs hk2).1,
    (flatMap_getElem nCh _ _ (hl3 ant) ch p hc hp).1]
  simp [hp]

/-- C104. `SetSubSolutionWeights` stores one weight per channel block whatever the number of polarizations: right for one
polarization only. -/
theorem faradaySubWeights_spec (nAnt nSub nCh : Nat) (weights : Nat → Nat → ℝ) (ant sub ch : Nat) (ha : ant < nAnt)
    (hs : sub < nSub) (hc : ch < nCh) :
    (faradaySubWeights nAnt nSub nCh weights)[(ant * nSub + sub) * nCh + ch]? = some (weights sub (ant * nCh + ch)) ∧
    (faradaySubWeights nAnt nSub nCh weights).length = nAnt * nSub * nCh := by
  unfold faradaySubWeights
  have hl2 : ∀ a, ∀ i < nSub, ((fun sub => (List.range nCh).map fun ch => weights sub (a * nCh + ch)) i : List ℝ).length = nCh := by
    simp
  have hl1 : ∀ i < nAnt, ((fun ant => (List.range nSub).flatMap fun sub => (List.range nCh).map fun ch =>
      weights sub (ant * nCh + ch)) i : List ℝ).length = nSub * nCh := by
    intro i _
    exact (flatMap_getElem nSub nCh _ (hl2 i) sub ch hs hc).2
  have hk1 : sub * nCh + ch < nSub * nCh := by
    have := Nat.mul_le_mul_right nCh hs
    rw [Nat.succ_mul] at this
    omega
  have hidx : (ant * nSub + sub) * nCh + ch = ant * (nSub * nCh) + (sub * nCh + ch) := by ring
  rw [hidx, (flatMap_getElem nAnt _ _ hl1 ant _ ha hk1).1, (flatMap_getElem nSub _ _ (hl2 ant) sub _ hs hc).1,
    (flatMap_getElem nAnt _ _ hl1 ant _ ha hk1).2]
  refine ⟨?_, by ring⟩
  simp [hc]

/-- C104. With two polarizations the second one of the first channel block gets the weight of the second channel block,
and the array is too short. -/
theorem faradaySubWeights_wrong (nAnt nSub nCh : Nat) (weights : Nat → Nat → ℝ) (ha : 0 < nAnt) (hs : 0 < nSub) (hc : 2 ≤ nCh) :
    (faradaySubWeights nAnt nSub nCh weights)[((0 * nSub + 0) * nCh + 0) * 2 + 1]? = some (weights 0 1) ∧
    (faradaySubWeights nAnt nSub nCh weights).length < nAnt * nSub * nCh * 2 := by
  have h1 := (faradaySubWeights_spec nAnt nSub nCh weights 0 0 1 ha hs (by omega)).1
  have h2 := (faradaySubWeights_spec nAnt nSub nCh weights 0 0 1 ha hs (by omega)).2
  refine ⟨by simpa using h1, ?_⟩
  rw [h2]
  have : 0 < nAnt * nSub * nCh := by positivity
  omega

/-- C104. The weight of a rotation measure is the sum of those of the channel blocks. -/
theorem measureWeights_spec (nAnt nSub nCh : Nat) (weights : Nat → Nat → ℝ) (ant sub : Nat) (ha : ant < nAnt) (hs : sub < nSub) :
    (measureWeights nAnt nSub nCh weights)[ant * nSub + sub]? =
      some (∑ ch ∈ Finset.range nCh, weights sub (ant * nCh + ch)) := by
  unfold measureWeights
  rw [(flatMap_getElem nAnt nSub _ (by simp) ant sub ha hs).1]
  have : ∀ n, (List.range n).foldl (fun sum ch => sum + weights sub (ant * nCh + ch)) 0 =
      ∑ ch ∈ Finset.range n, weights sub (ant * nCh + ch) := by
    intro n
    induction n with
    | zero => simp
    | succ n ih => rw [List.range_succ, List.foldl_append, ih, Finset.sum_range_succ]; rfl
  simp [hs, this]

/-! ## The rotation measure -/

private theorem mem_samples (c : Faraday) (weights : Nat → ℝ) (sol : Nat → Option J) (s : PhaseLine.Sample) :
    s ∈ samples c weights sol ↔ ∃ ch < c.nCh, s = sample c weights sol ch := by
  unfold samples
  rw [List.mem_map]
  constructor
  · rintro ⟨i, hi, rfl⟩
    rw [List.mem_range] at hi
    exact ⟨c.nCh - i - 1, by omega, rfl⟩
  · rintro ⟨ch, hch, rfl⟩
    refine ⟨c.nCh - 1 - ch, List.mem_range.mpr (by omega), ?_⟩
    congr 1
    omega

private theorem sample_x (c : Faraday) (weights : Nat → ℝ) (sol : Nat → Option J) (ch : Nat) :
    (sample c weights sol ch).x = lambda2 c ch := by
  unfold sample; split <;> rfl

private theorem sample_weight (c : Faraday) (weights : Nat → ℝ) (sol : Nat → Option J) (ch : Nat) (h : 0 ≤ weights ch) :
    0 ≤ (sample c weights sol ch).weight := by
  unfold sample; split
  · exact le_refl _
  · exact h

private theorem map_x (c : Faraday) (weights : Nat → ℝ) (sol : Nat → Option J) :
    (samples c weights sol).map PhaseLine.Sample.x = grid c := by
  unfold samples grid
  rw [List.map_map]
  exact List.map_congr_left fun i _ => sample_x ..

/-- C104. The rotation measure that the constraint finds is bounded by HALF the limit of the user, but for half the step of
the fitter and a wrap of the smallest squared wavelength: the fitter has twice the angles, the limit is not doubled. -/
theorem faraday_limit (c : Faraday) (l : ℝ) (hl : c.limit = some l) (hl0 : 0 < l) (full : PhaseLine.Range)
    (hfull : PhaseLine.getRange (grid c) none = some full) (hstep : 0 < full.wrapStep)
    (hlim : l < full.wrapStep * full.maxWraps) (range : PhaseLine.Range) (hr : fitRange c = some range)
    (weights : Nat → ℝ) (hw : ∀ ch, 0 ≤ weights ch) (xmin : ℝ) (hmin : 0 < xmin) (hx : ∀ ch < c.nCh, xmin ≤ lambda2 c ch)
    (sol : Nat → Option J) :
    |(performFit c range weights sol).1| < l / 2 + full.wrapStep / 2 + Real.pi / xmin := by
  have hrange : range = { full with maxWraps := ⌈l / full.wrapStep⌉ } := by
    unfold fitRange at hr
    rw [hfull, hl] at hr
    simp only [Option.map_some, Option.some.injEq, limitRange] at hr
    rw [if_pos ⟨hlim, hstep.ne'⟩] at hr
    exact hr.symm
  have hq : 0 < l / full.wrapStep := by positivity
  have hb := PhaseLine.fitSlope_bound (samples c weights sol)
    (by
      intro s hs
      obtain ⟨ch, -, rfl⟩ := (mem_samples ..).mp hs
      exact sample_weight _ _ _ _ (hw ch))
    xmin hmin
    (by
      intro s hs _
      obtain ⟨ch, hch, rfl⟩ := (mem_samples ..).mp hs
      rw [sample_x]
      exact hx ch hch)
    range (by rw [hrange]; exact hstep.le) (by rw [hrange]; exact Int.ceil_nonneg hq.le)
  have hc : range.wrapStep * range.maxWraps < l + full.wrapStep := by
    rw [hrange]
    have h1 := Int.ceil_lt_add_one (l / full.wrapStep)
    have h2 : full.wrapStep * ⌈l / full.wrapStep⌉ < full.wrapStep * (l / full.wrapStep + 1) :=
      mul_lt_mul_of_pos_left h1 hstep
    have h3 : full.wrapStep * (l / full.wrapStep + 1) = l + full.wrapStep := by field_simp
    show full.wrapStep * ⌈l / full.wrapStep⌉ < _
    linarith
  have h2 : 2 * π / xmin = π / xmin + π / xmin := by ring
  show |0.5 * PhaseLine.fitSlope (samples c weights sol) range| < _
  rw [abs_mul, abs_of_pos (by norm_num)]
  norm_num
  linarith

/-- C104. Without a limit a rotation measure is found exactly, whatever the gains are that go with the rotations, if the
rotation between the closest two channel blocks is less than about a quarter turn. -/
theorem faraday_recovers (c : Faraday) (hl : c.limit = none) (hn : 20 ≤ c.nCh) (hs : 0 < c.speedOfLight)
    (hf : ∀ i < c.nCh, 0 < c.freqs i) (hasc : ∀ i k, i < k → k < c.nCh → c.freqs i < c.freqs k)
    (range : PhaseLine.Range) (hr : fitRange c = some range)
    (weights : Nat → ℝ) (hw : ∀ ch, 0 ≤ weights ch) (sol : Nat → Option J) (rm : ℝ) (gains : Nat → ℂ × ℂ)
    (hgain : ∀ ch < c.nCh, (gains ch).1 + (gains ch).2 ≠ 0)
    (hsol : ∀ ch < c.nCh, sol ch = none ∨ sol ch = some (rebuild (gains ch) (lambda2 c ch * rm)))
    (p q : Nat) (hqc : q < c.nCh) (hp : 0 < weights p ∧ sol p ≠ none) (hq : 0 < weights q ∧ sol q ≠ none) (hpq : p < q)
    (hδ : PhaseLine.minDelta (grid c) = lambda2 c p - lambda2 c q)
    (hrm : 2 * |rm| < π / (lambda2 c p - lambda2 c q) - π / lambda2 c 0 - π / lambda2 c (c.nCh - 1)) :
    (performFit c range weights sol).1 = rm := by
  have hlt : ∀ i k, i < k → k < c.nCh → lambda2 c k < lambda2 c i := by
    intro i k hik hk
    have h1 := hf i (by omega)
    have h2 := hasc i k hik hk
    have h3 : c.speedOfLight / c.freqs k < c.speedOfLight / c.freqs i := div_lt_div_of_pos_left hs h1 h2
    have h4 : 0 < c.speedOfLight / c.freqs k := div_pos hs (by linarith)
    exact mul_lt_mul'' h3 h3 h4.le h4.le
  have hpos : ∀ i < c.nCh, 0 < lambda2 c i := fun i hi => mul_pos (div_pos hs (hf i hi)) (div_pos hs (hf i hi))
  have hmem : ∀ ch < c.nCh, sample c weights sol ch ∈ samples c weights sol := fun ch hch => (mem_samples ..).mpr ⟨ch, hch, rfl⟩
  have hrange : PhaseLine.getRange (grid c) none = some range := by
    unfold fitRange at hr
    rw [hl] at hr
    cases hg : PhaseLine.getRange (grid c) none with
    | none => rw [hg] at hr; exact absurd hr (by simp)
    | some r => rw [hg] at hr; simpa [limitRange] using hr
  have hweight : ∀ ch, sol ch ≠ none → (sample c weights sol ch).weight = weights ch := by
    intro ch h
    unfold sample
    cases hc : sol ch with
    | none => exact absurd hc h
    | some j => rfl
  have key : PhaseLine.fitSlope (samples c weights sol) range = 2 * rm := by
    refine PhaseLine.fitSlopeAuto_recovers (samples c weights sol) ?_ (by simpa [samples] using hn) (lambda2 c (c.nCh - 1))
      (hpos _ (by omega)) ?_ ?_ (sample c weights sol 0) ?_ (sample c weights sol q) (sample c weights sol p)
      (hmem q hqc) (hmem p (by omega)) ?_ ?_ ?_ ?_ (2 * rm) _ ?_ ?_ ?_
    · intro s hs'
      obtain ⟨ch, -, rfl⟩ := (mem_samples ..).mp hs'
      exact sample_weight _ _ _ _ (hw ch)
    · intro s hs'
      obtain ⟨ch, hch, rfl⟩ := (mem_samples ..).mp hs'
      rw [sample_x]
      rcases Nat.lt_or_ge ch (c.nCh - 1) with h | h
      · exact (hlt ch (c.nCh - 1) h (by omega)).le
      · have : ch = c.nCh - 1 := by omega
        rw [this]
    · unfold samples
      rw [List.pairwise_map]
      refine List.Pairwise.imp_of_mem ?_ List.pairwise_lt_range
      intro a b ha hb hab
      rw [List.mem_range] at ha hb
      rw [sample_x, sample_x]
      exact (hlt _ _ (by omega) (by omega)).le
    · unfold samples
      obtain ⟨n, hn'⟩ : ∃ n, c.nCh = n + 1 := ⟨c.nCh - 1, by omega⟩
      rw [hn', List.range_succ, List.map_append, List.map_singleton, List.getLast?_append]
      simp
    · rw [hweight q hq.2]; exact hq.1
    · rw [hweight p hp.2]; exact hp.1
    · rw [sample_x, sample_x]; exact hlt p q hpq hqc
    · rw [map_x, sample_x, sample_x]; exact hδ
    · rw [sample_x, sample_x, sample_x, abs_mul, abs_of_pos (by norm_num : (0 : ℝ) < 2)]; exact hrm
    · intro s hs' hp'
      obtain ⟨ch, hch, rfl⟩ := (mem_samples ..).mp hs'
      rw [sample_x]
      rcases hsol ch hch with h | h
      · unfold sample at hp'
        rw [h] at hp'
        exact absurd hp' (lt_irrefl _)
      · obtain ⟨k, hk⟩ := fitRotation_rebuild (gains ch) (lambda2 c ch * rm) (hgain ch hch)
        refine ⟨k, ?_⟩
        unfold sample
        rw [h]
        show fitRotation _ * 2 = _
        rw [hk]
        ring
    · unfold PhaseLine.fitSlopeAuto
      rw [map_x, hrange]
      rfl
  show 0.5 * PhaseLine.fitSlope (samples c weights sol) range = rm
  rw [key]
  ring

/-! ## Examples -/

/-- Two channel blocks at frequencies 1 and 2, with a speed of light of 1. -/
private noncomputable def exF (mode : Mode) : Faraday := ⟨2, fun i => i + 1, 1, some mode, none⟩

/-- The rotation measure for the range of only the slope 0: one sample with an angle of π/4. -/
private theorem exF_slope (mode : Mode) (d : ℂ × ℂ) (hd : d.1 + d.2 ≠ 0) (w : Nat → ℝ) (hw0 : w 0 = 1) (hw1 : w 1 = 0) :
    (performFit (exF mode) ⟨0, 1⟩ w fun ch => some (rebuild d (lambda2 (exF mode) ch * (π / 4)))).1 = π / 4 := by
  have hp := Real.pi_pos
  have h0 : lambda2 (exF mode) 0 = 1 := by simp [lambda2, exF]
  have hs : samples (exF mode) w (fun ch => some (rebuild d (lambda2 (exF mode) ch * (π / 4)))) =
      [⟨lambda2 (exF mode) 1, fitRotation (rebuild d (lambda2 (exF mode) 1 * (π / 4))) * 2, 0⟩,
        ⟨1, fitRotation (rebuild d (π / 4)) * 2, 1⟩] := by
    have : samples (exF mode) w (fun ch => some (rebuild d (lambda2 (exF mode) ch * (π / 4)))) =
      [sample (exF mode) w (fun ch => some (rebuild d (lambda2 (exF mode) ch * (π / 4)))) 1,
        sample (exF mode) w (fun ch => some (rebuild d (lambda2 (exF mode) ch * (π / 4)))) 0] := rfl
    rw [this]
    simp only [sample, hw0, hw1, h0, one_mul]
  obtain ⟨k, hk⟩ := fitRotation_rebuild d (π / 4) hd
  have hfit : ∀ u : ℝ, |π / 2 - u| < π → PhaseLine.unwrapAndFit (samples (exF mode) w
      fun ch => some (rebuild d (lambda2 (exF mode) ch * (π / 4)))) u = π / 2 := by
    intro u hu
    rw [hs]
    refine PhaseLine.unwrapAndFit_exact _ (by simp) ⟨⟨1, fitRotation (rebuild d (π / 4)) * 2, 1⟩, by simp, by norm_num, by norm_num⟩ u
      (π / 2) ?_ ?_
    · intro s hs' hpos
      simp only [List.mem_cons, List.not_mem_nil, or_false] at hs'
      rcases hs' with rfl | rfl
      · exact absurd hpos (lt_irrefl _)
      · refine ⟨k, ?_⟩
        show fitRotation (rebuild d (π / 4)) * 2 = _
        rw [hk]; ring
    · intro s hs' hpos
      simp only [List.mem_cons, List.not_mem_nil, or_false] at hs'
      rcases hs' with rfl | rfl
      · exact absurd hpos (lt_irrefl _)
      · simpa using hu
  have h2 : (performFit (exF mode) ⟨0, 1⟩ w fun ch => some (rebuild d (lambda2 (exF mode) ch * (π / 4)))).1 =
      0.5 * (π / 2) := by
    show 0.5 * PhaseLine.fitSlope _ _ = _
    congr 1
    unfold PhaseLine.fitSlope
    rcases (PhaseLine.foldl_tryWrap (samples (exF mode) w fun ch => some (rebuild d (lambda2 (exF mode) ch * (π / 4))))
      ⟨0, 1⟩ (PhaseLine.wraps ⟨0, 1⟩) (PhaseLine.doubleMax, 0)).1 with h | ⟨i, hi, h⟩
    · rw [h]
      exact hfit _ (by rw [abs_of_pos (by linarith)]; linarith)
    · rw [PhaseLine.mem_wraps] at hi
      have : i = 0 := by simp only at hi; omega
      rw [h, this]
      simp only [Int.cast_zero, mul_zero]
      rw [hfit 0 (by rw [abs_of_pos (by linarith)]; linarith)]
      exact hfit _ (by simp [hp])
  rw [h2]
  ring

/-- Of `faraday_diagonal`: gains 1 and 2 and a rotation by an eighth of a turn, which is changed. -/
example : let sol : Nat → Option J := fun ch => some (rebuild (1, 2) (lambda2 (exF .diagonal) ch * (π / 4)))
    (performFit (exF .diagonal) ⟨0, 1⟩ (fun ch => if ch = 0 then 1 else 0) sol).2 0 ≠ sol 0 := by
  intro sol
  have hs := exF_slope .diagonal (1, 2) (by norm_num) (fun ch => if ch = 0 then 1 else 0) rfl rfl
  rw [Ne, faraday_diagonal (exF .diagonal) rfl ⟨0, 1⟩ _ sol 0 (1, 2) (by rw [hs]), hs]
  rintro (h | h)
  · norm_num at h
  · simp [exF, lambda2] at h

/-- Of `faraday_scalar_partial`: gains 2 and 2 in the scalar mode. -/
example : let sol : Nat → Option J := fun ch => some (rebuild (2, 2) (lambda2 (exF .scalar) ch * (π / 4)))
    (performFit (exF .scalar) ⟨0, 1⟩ (fun ch => if ch = 0 then 1 else 0) sol).2 0 = sol 0 := by
  intro sol
  have hs := exF_slope .scalar (2, 2) (by norm_num) (fun ch => if ch = 0 then 1 else 0) rfl rfl
  exact faraday_scalar_partial _ .scalar rfl ⟨0, 1⟩ _ _ 0 2 rfl trivial (by rw [hs])

/-- Of `samples_spec`: the hypotheses on the frequencies. -/
example : 0 < (exF .scalar).speedOfLight ∧ (∀ i < (exF .scalar).nCh, 0 < (exF .scalar).freqs i) ∧
    ∀ i k, i < k → k < (exF .scalar).nCh → (exF .scalar).freqs i < (exF .scalar).freqs k := by
  refine ⟨by simp [exF], fun i _ => ?_, fun i k h _ => ?_⟩
  · show (0 : ℝ) < i + 1
    positivity
  · show (i : ℝ) + 1 < k + 1
    have : (i : ℝ) < k := by exact_mod_cast h
    linarith

/-- Twenty channel blocks with wavelengths 11.9, 11.8, ... 10. -/
private noncomputable def exG (limit : Option ℝ) : Faraday := ⟨20, fun i => 1 / (119 - i), 1 / 10, some .diagonal, limit⟩

private theorem exG_lambda2 (limit : Option ℝ) (ch : Nat) : lambda2 (exG limit) ch = ((119 - ch) / 10) ^ 2 := by
  simp only [lambda2, exG, one_div, div_inv_eq_mul]
  ring

private theorem exG_grid (limit : Option ℝ) (i : Nat) (hi : i < 20) : (grid (exG limit))[i]? = some (((100 + (i : ℝ)) / 10) ^ 2) := by
  have hn : (exG limit).nCh = 20 := rfl
  unfold grid
  rw [List.getElem?_map, hn, List.getElem?_range hi, Option.map_some, exG_lambda2]
  have : ((20 - i - 1 : Nat) : ℝ) = 19 - i := by
    rw [Nat.cast_sub (by omega), Nat.cast_sub (by omega)]; push_cast; ring
  rw [this]
  congr 3
  ring

private theorem exG_minDelta (limit : Option ℝ) : PhaseLine.minDelta (grid (exG limit)) = 201 / 100 := by
  refine PhaseLine.minDelta_spec _ _ (by norm_num) (by have := PhaseLine.four_lt_doubleMax; linarith) ?_
    ⟨0, 100, by rw [exG_grid _ 0 (by norm_num)]; norm_num, by rw [exG_grid _ 1 (by norm_num)]; norm_num⟩
  intro i a b h1 h2 _
  have hi : i + 1 < 20 := by
    obtain ⟨hl, -⟩ := List.getElem?_eq_some_iff.mp h2
    simpa [grid, exG] using hl
  rw [exG_grid _ i (by omega)] at h1
  rw [exG_grid _ (i + 1) hi] at h2
  simp only [Option.some.injEq] at h1 h2
  rw [← h1, ← h2]
  push_cast
  have : (0 : ℝ) ≤ i := Nat.cast_nonneg i
  nlinarith

private theorem exG_range (limit : Option ℝ) :
    PhaseLine.getRange (grid (exG limit)) none = some ⟨71, π / (11.9 ^ 2)⟩ := by
  have hne : grid (exG limit) ≠ [] := by simp [grid, exG]
  have hlen : (grid (exG limit)).length = 20 := by simp [grid, exG]
  have hm : PhaseLine.maxAbsX (grid (exG limit)) = 11.9 ^ 2 := by
    unfold PhaseLine.maxAbsX
    have : (grid (exG limit)).getLastD 0 = 11.9 ^ 2 := by
      rw [List.getLastD_eq_getLast?, List.getLast?_eq_getElem?, hlen, exG_grid _ 19 (by norm_num)]
      norm_num
    rw [this, if_neg (by norm_num)]
  have hc : ⌈(11.9 ^ 2 : ℝ) / (201 / 100)⌉ = 71 := by rw [Int.ceil_eq_iff]; norm_num
  unfold PhaseLine.getRange
  rw [if_neg hne, hm, exG_minDelta, hc, if_pos (by norm_num), hlen]
  simp [PhaseLine.boundWraps]

/-- Of `faraday_recovers`: a rotation measure of 0.1 with gains 1 and 3. -/
example : (performFit (exG none) ⟨71, π / (11.9 ^ 2)⟩ (fun _ => 1)
    fun ch => some (rebuild (1, 3) (lambda2 (exG none) ch * 0.1))).1 = 0.1 := by
  have hp := Real.two_le_pi
  have hsub : ∀ i : Nat, i < 20 → (0 : ℝ) < 119 - i := by
    intro i hi
    have : (i : ℝ) < 20 := by exact_mod_cast hi
    linarith
  refine faraday_recovers (exG none) rfl (le_refl 20) (by norm_num [exG]) ?_ ?_ _
    (by unfold fitRange; rw [exG_range]; rfl) _ (fun _ => by norm_num) _ 0.1 (fun _ => (1, 3)) (fun _ _ => by norm_num)
    (fun _ _ => .inr rfl) 18 19 (by norm_num [exG]) ⟨by norm_num, by simp⟩ ⟨by norm_num, by simp⟩ (by norm_num) ?_ ?_
  · intro i hi
    exact one_div_pos.mpr (hsub i hi)
  · intro i k hik hk
    have h1 : (i : ℝ) < k := by exact_mod_cast hik
    exact one_div_lt_one_div_of_lt (hsub k hk) (by linarith)
  · rw [exG_minDelta, exG_lambda2, exG_lambda2]; norm_num
  · have hn : (exG none).nCh - 1 = 19 := rfl
    rw [hn, exG_lambda2, exG_lambda2, exG_lambda2, abs_of_pos (by norm_num)]
    norm_num
    linarith

/-- Of `faraday_limit`: with a limit of 1 the rotation measure found is at most 0.56, whatever the solutions are. -/
example (range : PhaseLine.Range) (hr : fitRange (exG (some 1)) = some range) (sol : Nat → Option J) :
    |(performFit (exG (some 1)) range (fun _ => 1) sol).1| < 0.56 := by
  have hp := Real.pi_pos
  have h2 := Real.two_le_pi
  have h4 := Real.pi_le_four
  have h := faraday_limit (exG (some 1)) 1 rfl (by norm_num) _ (exG_range _) (by positivity)
    (by push_cast; norm_num; linarith) range hr (fun _ => 1) (fun _ => by norm_num) 100 (by norm_num)
    (by
      intro ch hch
      rw [exG_lambda2]
      have : ch < 20 := hch
      have h19 : ch ≤ 19 := by omega
      have : (ch : ℝ) ≤ 19 := by exact_mod_cast h19
      nlinarith) sol
  refine lt_of_lt_of_le h ?_
  norm_num
  linarith

/-- It is defined. -/
example : ∃ range, fitRange (exG (some 1)) = some range := by
  unfold fitRange; rw [exG_range]; exact ⟨_, rfl⟩

end DP3.Rotation
