import Verif.Simulator.Model
import Verif.PhaseShift.Spec

/-!
# C119: the direction of a patch
-/

namespace DP3.Simulator

open PhaseShift

set_option linter.unusedSimpArgs false

/-- The sum of the vectors of the sources, weighted with their fluxes. -/
noncomputable def weighted (sources : List (Direction × ℝ)) : Fin 3 → ℝ := fun i => (sources.map fun c => c.2 * toward c.1 i).sum

/-- The total flux. -/
noncomputable def totalFlux (sources : List (Direction × ℝ)) : ℝ := (sources.map fun c => c.2).sum

private theorem foldl_sum (sources : List (Direction × ℝ)) (s : PatchSum) :
    sources.foldl (fun (s : PatchSum) c => s.add c.1 c.2) s =
      ⟨s.x + weighted sources 0, s.y + weighted sources 1, s.z + weighted sources 2, s.flux + totalFlux sources⟩ := by
  induction sources generalizing s with
  | nil => simp [weighted, totalFlux]
  | cons c cs ih =>
    rw [List.foldl_cons, ih]
    simp [PatchSum.add, weighted, totalFlux, toward, add_assoc]
    refine ⟨?_, ?_, ?_⟩ <;> ring

theorem patch_eq (sources : List (Direction × ℝ)) :
    patchDirection sources = (⟨weighted sources 0, weighted sources 1, weighted sources 2, totalFlux sources⟩ : PatchSum).direction := by
  unfold patchDirection
  rw [foldl_sum]
  simp

/-- **C119.** The right ascension of a patch is that of the weighted sum of its sources. -/
theorem patch_ra (sources : List (Direction × ℝ)) (d : Direction) (h : patchDirection sources = some d) :
    ∃ k, 0 ≤ k ∧ weighted sources 0 = totalFlux sources * (k * Real.cos d.ra) ∧ weighted sources 1 = totalFlux sources * (k * Real.sin d.ra) := by
  classical
  rw [patch_eq] at h
  unfold PatchSum.direction at h
  simp only at h
  by_cases h0 : totalFlux sources = 0
  · rw [if_pos h0] at h
    exact absurd h (by simp)
  · rw [if_neg h0] at h
    split at h
    · injection h with h
      subst h
      simp only
      generalize hz : (⟨weighted sources 0 / totalFlux sources, weighted sources 1 / totalFlux sources⟩ : ℂ) = z
      refine ⟨‖z‖, norm_nonneg _, ?_, ?_⟩
      · rw [Complex.norm_mul_cos_arg, ← hz]
        field_simp
      · rw [Complex.norm_mul_sin_arg, ← hz]
        field_simp
    · exact absurd h (by simp)

/-- **C119, in part.** When the weighted sum is as long as the total flux, the patch is in its direction. Missing: any other sum. -/
theorem patch_partial (sources : List (Direction × ℝ)) (h0 : totalFlux sources ≠ 0)
    (h : dot (weighted sources) (weighted sources) = totalFlux sources ^ 2) :
    ∃ d, patchDirection sources = some d ∧ ∀ i, weighted sources i = totalFlux sources * toward d i := by
  classical
  rw [patch_eq]
  unfold PatchSum.direction
  simp only [if_neg h0]
  generalize hF : totalFlux sources = F at *
  generalize hx : weighted sources 0 = x
  generalize hy : weighted sources 1 = y
  generalize hz : weighted sources 2 = z
  have hs : x ^ 2 + y ^ 2 + z ^ 2 = F ^ 2 := by
    rw [← h, ← hx, ← hy, ← hz]
    simp only [dot]
    ring
  have hF2 : 0 < F ^ 2 := by positivity
  have hle : (z / F) ^ 2 ≤ 1 := by
    rw [div_pow, div_le_one hF2]
    nlinarith [sq_nonneg x, sq_nonneg y]
  have habs : |z / F| ≤ 1 := by
    rw [← sq_le_one_iff_abs_le_one]
    exact hle
  rw [if_pos habs]
  refine ⟨_, rfl, ?_⟩
  rw [abs_le] at habs
  have hcos : Real.cos (Real.arcsin (z / F)) = ‖(⟨x / F, y / F⟩ : ℂ)‖ := by
    rw [Real.cos_arcsin, Complex.norm_def, Complex.normSq_apply]
    congr 1
    field_simp
    linarith
  intro i
  fin_cases i
  · simp only [toward, Fin.zero_eta, Matrix.cons_val_zero, hx]
    rw [hcos, mul_comm (Real.cos _), Complex.norm_mul_cos_arg]
    field_simp
  · simp only [toward, Fin.mk_one, Matrix.cons_val_one, Matrix.cons_val_zero, hy]
    rw [hcos, mul_comm (Real.sin _), Complex.norm_mul_sin_arg]
    field_simp
  · simp only [toward, Fin.reduceFinMk, Matrix.cons_val, hz]
    rw [Real.sin_arcsin habs.1 habs.2]
    field_simp

private theorem toward_unit (d : Direction) : dot (toward d) (toward d) = 1 := by
  have h1 := Real.sin_sq_add_cos_sq d.ra
  have h2 := Real.sin_sq_add_cos_sq d.dec
  simp [dot, toward]
  linear_combination Real.cos d.dec ^ 2 * h1 + h2

/-- **C119.** A patch of sources in one direction is in this direction. -/
theorem patch_single (d : Direction) (fluxes : List ℝ) (h0 : fluxes.sum ≠ 0) :
    ∃ d', patchDirection (fluxes.map fun f => (d, f)) = some d' ∧ toward d' = toward d := by
  have hF : totalFlux (fluxes.map fun f => (d, f)) = fluxes.sum := by
    unfold totalFlux
    rw [List.map_map]
    congr 1
    exact List.map_id' _
  have hw : ∀ i, weighted (fluxes.map fun f => (d, f)) i = fluxes.sum * toward d i := by
    intro i
    unfold weighted
    rw [List.map_map]
    show (fluxes.map fun f => f * toward d i).sum = _
    rw [List.sum_map_mul_right, List.map_id']
  obtain ⟨d', h1, h2⟩ := patch_partial (fluxes.map fun f => (d, f)) (by rwa [hF]) (by
    have := toward_unit d
    simp only [dot, hw, hF] at this ⊢
    linear_combination fluxes.sum ^ 2 * this)
  refine ⟨d', h1, ?_⟩
  funext i
  have := h2 i
  rw [hw, hF] at this
  exact (mul_left_cancel₀ h0 this).symm

/-- **C119 is violated**: two equal sources on opposite sides of the pole, thirty degrees from it. The middle of the patch is the pole; the
code puts the patch at one of the sources. -/
theorem patch_violated :
    (∀ i, weighted [(⟨0, Real.pi / 3⟩, 1), (⟨Real.pi, Real.pi / 3⟩, 1)] i = Real.sqrt 3 * toward ⟨0, Real.pi / 2⟩ i) ∧
      patchDirection [(⟨0, Real.pi / 3⟩, 1), (⟨Real.pi, Real.pi / 3⟩, 1)] = some ⟨0, Real.pi / 3⟩ := by
  classical
  have hw : ∀ i, weighted [(⟨0, Real.pi / 3⟩, 1), (⟨Real.pi, Real.pi / 3⟩, 1)] i = Real.sqrt 3 * toward ⟨0, Real.pi / 2⟩ i := by
    intro i
    fin_cases i <;> simp [weighted, toward]
  refine ⟨hw, ?_⟩
  rw [patch_eq, hw, hw, hw]
  have hF : totalFlux [(⟨0, Real.pi / 3⟩, 1), (⟨Real.pi, Real.pi / 3⟩, 1)] = 2 := by
    simp [totalFlux]
    norm_num
  rw [hF]
  have hs : Real.sqrt 3 / 2 = Real.sin (Real.pi / 3) := by rw [Real.sin_pi_div_three]
  have hpi := Real.pi_pos
  unfold PatchSum.direction
  simp [toward]
  rw [hs]
  refine ⟨Real.abs_sin_le_one _, ?_, ?_⟩
  · exact Complex.arg_zero
  · exact Real.arcsin_sin (by linarith) (by linarith)

/-- **C119 is violated**: with a negative flux, the arcsine is that of a number above one, and the declination is not a number. -/
theorem patch_nan : totalFlux [(⟨0, Real.pi / 2⟩, 2), (⟨0, -(Real.pi / 2)⟩, -1)] = 1 ∧
    patchDirection [(⟨0, Real.pi / 2⟩, 2), (⟨0, -(Real.pi / 2)⟩, -1)] = none := by
  classical
  have hF : totalFlux [(⟨0, Real.pi / 2⟩, 2), (⟨0, -(Real.pi / 2)⟩, -1)] = 1 := by
    simp [totalFlux]
    norm_num
  refine ⟨hF, ?_⟩
  rw [patch_eq, hF]
  have hz : weighted [(⟨0, Real.pi / 2⟩, 2), (⟨0, -(Real.pi / 2)⟩, -1)] 2 = 3 := by
    simp [weighted, toward]
    norm_num
  rw [hz]
  unfold PatchSum.direction
  simp only [one_ne_zero, if_false]
  rw [if_neg (by norm_num)]

/-! ## Examples -/

example : ∃ d', patchDirection [(⟨1, 1⟩, 2), (⟨1, 1⟩, 3)] = some d' ∧ toward d' = toward ⟨1, 1⟩ :=
  patch_single ⟨1, 1⟩ [2, 3] (by norm_num)

end DP3.Simulator
