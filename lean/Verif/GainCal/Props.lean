import Verif.GainCal.Lemmas
import Mathlib.Analysis.Complex.Basic

/-!
# C109: the gain steps of GainCal (scalar and diagonal)
-/

namespace DP3.GainCal

open Complex Finset

set_option linter.unusedSimpArgs false

/-! ## Statements -/

/-- The squared residual of all elements of an unknown for its value x and the gains g of the others: the visibility of two
unknowns is the model times the one gain times the conjugate of the other. -/
noncomputable def cost (c : Cfg) (vis mvis g : Nat → ℂ) (u : Nat) (x : ℂ) : ℝ :=
  ∑ e ∈ entries c, normSq (vis (addr c u e) - (starRingEnd ℂ) (g (other c e)) * mvis (addr c u e) * x)

/-- There is a model for the unknown, and the visibilities are correlated with it. -/
def HasData (c : Cfg) (vis mvis g : Nat → ℂ) (u : Nat) : Prop :=
  (∃ e ∈ entries c, g (other c e) * mvis (addr c u e) ≠ 0) ∧
    ∑ e ∈ entries c, (starRingEnd ℂ) ((starRingEnd ℂ) (g (other c e)) * mvis (addr c u e)) * vis (addr c u e) ≠ 0

theorem weight_pos (c : Cfg) (mvis g : Nat → ℂ) (u : Nat) :
    (∑ e ∈ entries c, normSq ((starRingEnd ℂ) (g (other c e)) * mvis (addr c u e)) ≠ 0) ↔
      ∃ e ∈ entries c, g (other c e) * mvis (addr c u e) ≠ 0 := by
  rw [Ne, Finset.sum_eq_zero_iff_of_nonneg (fun e _ => normSq_nonneg _)]
  push Not
  constructor
  · rintro ⟨e, he, h⟩
    refine ⟨e, he, ?_⟩
    intro h0
    apply h
    rw [normSq_eq_zero]
    rcases mul_eq_zero.mp h0 with h1 | h1
    · rw [h1, map_zero, zero_mul]
    · rw [h1, mul_zero]
  · rintro ⟨e, he, h⟩
    refine ⟨e, he, ?_⟩
    intro h0
    rw [normSq_eq_zero] at h0
    apply h
    rcases mul_eq_zero.mp h0 with h1 | h1
    · rw [(map_eq_zero _).mp h1, zero_mul]
    · rw [h1, mul_zero]

theorem hasData_iff (c : Cfg) (hm : c.mode ≠ .fullJones) (vis mvis g : Nat → ℂ) (u : Nat) (hu : u < nUn c) :
    HasData c vis mvis g u ↔ ¬ noData c vis mvis (fun u => (starRingEnd ℂ) (g u)) u := by
  unfold HasData noData
  rw [sums_eq c hm vis mvis _ u hu, not_or, ← weight_pos]

/-- The unknowns of a station. -/
theorem unknowns (c : Cfg) (u : Nat) (hu : u < nUn c) : 0 < c.nSt ∧ u % c.nSt < c.nSt ∧
    (nUn c = 2 * c.nSt → partner c u < nUn c ∧ partner c u % c.nSt = u % c.nSt ∧ partner c (partner c u) = u ∧
      partner c u ≠ u) ∧
    (∀ v, v < nUn c → v % c.nSt = u % c.nSt → v = u ∨ (nUn c = 2 * c.nSt ∧ v = partner c u)) := by
  have hn : 0 < c.nSt := by
    rcases Nat.eq_zero_or_pos c.nSt with h | h
    · have : nUn c = 0 := by unfold nUn; split <;> omega
      omega
    · exact h
  have hun : nUn c = c.nSt ∨ nUn c = 2 * c.nSt := by
    unfold nUn; split
    · exact Or.inl rfl
    · exact Or.inr rfl
  have hmod : ∀ v, v < 2 * c.nSt → v % c.nSt = if v < c.nSt then v else v - c.nSt := by
    intro v hv
    split
    · next h => exact Nat.mod_eq_of_lt h
    · next h => rw [Nat.mod_eq_sub_mod (by omega), Nat.mod_eq_of_lt (by omega)]
  refine ⟨hn, Nat.mod_lt _ hn, ?_, ?_⟩
  · intro h2
    rw [h2] at hu ⊢
    have hp : partner c u < 2 * c.nSt := by unfold partner; split <;> omega
    refine ⟨hp, ?_, ?_, ?_⟩
    · rw [hmod _ hp, hmod u hu]
      unfold partner
      split <;> split <;> omega
    · unfold partner
      split <;> split <;> omega
    · unfold partner
      split <;> omega
  · intro v hv hvu
    rcases hun with h | h
    · rw [h] at hu hv
      rw [Nat.mod_eq_of_lt hu, Nat.mod_eq_of_lt hv] at hvu
      exact Or.inl hvu
    · rw [h] at hu hv
      rw [hmod u hu, hmod v hv] at hvu
      by_cases e : v = u
      · exact Or.inl e
      · refine Or.inr ⟨h, ?_⟩
        unfold partner
        split at hvu <;> split at hvu <;> split <;> omega

/-- No unknown of a station with data is skipped, whatever the schedule. -/
theorem not_skipped (c : Cfg) (hm : c.mode ≠ .fullJones) (vis mvis g : Nat → ℂ) (flagged sees : Nat → Bool) (u : Nat)
    (hu : u < nUn c) (hf : flagged (u % c.nSt) = false)
    (hd : ∀ v, v < nUn c → v % c.nSt = u % c.nSt → HasData c vis mvis g v) :
    ¬ skipped c vis mvis (fun u => (starRingEnd ℂ) (g u)) flagged sees u := by
  unfold skipped
  rw [hf]
  rintro (h | ⟨h2, -, -, h3⟩)
  · exact absurd h (by simp)
  · obtain ⟨p1, p2, -⟩ := (unknowns c u hu).2.2.1 h2
    exact (hasData_iff c hm vis mvis g _ p1).mp (hd _ p1 p2) h3

theorem step_value (c : Cfg) (hm : c.mode ≠ .fullJones) (vis mvis g : Nat → ℂ) (flagged sees : Nat → Bool) (u : Nat)
    (hu : u < nUn c) (hf : flagged (u % c.nSt) = false)
    (hd : ∀ v, v < nUn c → v % c.nSt = u % c.nSt → HasData c vis mvis g v) :
    (stepUnpolarized c vis mvis sees g flagged).1 u = constrain c.mode
      ((∑ e ∈ entries c, (starRingEnd ℂ) ((starRingEnd ℂ) (g (other c e)) * mvis (addr c u e)) * vis (addr c u e)) /
       ((∑ e ∈ entries c, normSq ((starRingEnd ℂ) (g (other c e)) * mvis (addr c u e)) : ℝ) : ℂ)) := by
  unfold stepUnpolarized
  simp only
  rw [if_pos ⟨hu, not_skipped c hm vis mvis g flagged sees u hu hf hd⟩,
    if_neg ((hasData_iff c hm vis mvis g u hu).mp (hd u hu rfl)), sums_eq c hm vis mvis _ u hu]

theorem cost_sq (c : Cfg) (vis mvis g : Nat → ℂ) (u : Nat) (x : ℂ) :
    cost c vis mvis g u x = sq (entries c) (fun e => (starRingEnd ℂ) (g (other c e)) * mvis (addr c u e))
      (fun e => vis (addr c u e)) x := rfl

theorem weight_nonneg (c : Cfg) (mvis g : Nat → ℂ) (u : Nat) :
    0 ≤ ∑ e ∈ entries c, normSq ((starRingEnd ℂ) (g (other c e)) * mvis (addr c u e)) :=
  Finset.sum_nonneg fun _ _ => normSq_nonneg _

/-- A station keeps its flag if all its unknowns have data. -/
theorem step_unflagged (c : Cfg) (hm : c.mode ≠ .fullJones) (vis mvis g : Nat → ℂ) (flagged sees : Nat → Bool) (s : Nat)
    (hd : ∀ v, v < nUn c → v % c.nSt = s → HasData c vis mvis g v) :
    (stepUnpolarized c vis mvis sees g flagged).2 s = flagged s := by
  unfold stepUnpolarized
  simp only
  classical
  rw [Bool.or_eq_left_iff_imp]
  intro h
  exfalso
  revert h
  rw [decide_eq_true_iff]
  rintro ⟨v, hv, hvs, -, hn⟩
  exact (hasData_iff c hm vis mvis g v hv).mp (hd v hv hvs) hn

/-- C109: without a constraint a step gives each unknown of an unflagged station with data the one value with the smallest
residual, given the gains of the others before the step. -/
theorem step_best (c : Cfg) (hm : c.mode = .default) (vis mvis g : Nat → ℂ) (flagged sees : Nat → Bool) (u : Nat)
    (hu : u < nUn c) (hf : flagged (u % c.nSt) = false)
    (hd : ∀ v, v < nUn c → v % c.nSt = u % c.nSt → HasData c vis mvis g v) (x : ℂ) :
    cost c vis mvis g u ((stepUnpolarized c vis mvis sees g flagged).1 u) ≤ cost c vis mvis g u x ∧
    (cost c vis mvis g u x ≤ cost c vis mvis g u ((stepUnpolarized c vis mvis sees g flagged).1 u) →
      x = (stepUnpolarized c vis mvis sees g flagged).1 u) := by
  have hm' : c.mode ≠ .fullJones := by rw [hm]; decide
  rw [step_value c hm' vis mvis g flagged sees u hu hf hd, hm]
  simp only [constrain]
  have hW := (weight_pos c mvis g u).mpr (hd u hu rfl).1
  have h0 := weight_nonneg c mvis g u
  rw [cost_sq, cost_sq, sq_min _ _ _ hW x]
  set W := ∑ e ∈ entries c, normSq ((starRingEnd ℂ) (g (other c e)) * mvis (addr c u e))
  have hp : 0 < W := lt_of_le_of_ne h0 (Ne.symm hW)
  constructor
  · have := mul_nonneg h0 (normSq_nonneg (x - (∑ e ∈ entries c, (starRingEnd ℂ) ((starRingEnd ℂ) (g (other c e)) *
      mvis (addr c u e)) * vis (addr c u e)) / (W : ℂ)))
    linarith
  · intro h
    have h1 : W * normSq (x - (∑ e ∈ entries c, (starRingEnd ℂ) ((starRingEnd ℂ) (g (other c e)) *
      mvis (addr c u e)) * vis (addr c u e)) / (W : ℂ)) ≤ 0 := by linarith
    have h2 : normSq (x - (∑ e ∈ entries c, (starRingEnd ℂ) ((starRingEnd ℂ) (g (other c e)) *
      mvis (addr c u e)) * vis (addr c u e)) / (W : ℂ)) = 0 :=
      le_antisymm (by by_contra hc; push Not at hc; have := mul_pos hp hc; linarith) (normSq_nonneg _)
    exact sub_eq_zero.mp (normSq_eq_zero.mp h2)

private theorem unit_of (T : ℂ) (W : ℝ) (hT : T ≠ 0) (hW : 0 < W) :
    T / (W : ℂ) / (‖T / (W : ℂ)‖ : ℂ) = T / (‖T‖ : ℂ) := by
  have hn : (‖T‖ : ℂ) ≠ 0 := by simpa using hT
  have hw : (W : ℂ) ≠ 0 := by exact_mod_cast ne_of_gt hW
  rw [Complex.norm_div, Complex.norm_real, Real.norm_eq_abs, abs_of_pos hW]
  push_cast
  field_simp

/-- C109: for phases a step gives each unknown of an unflagged station with data a value with modulus one, which is the one
with the smallest residual of these. -/
theorem step_phase (c : Cfg) (hm : c.mode = .phaseOnly) (vis mvis g : Nat → ℂ) (flagged sees : Nat → Bool) (u : Nat)
    (hu : u < nUn c) (hf : flagged (u % c.nSt) = false)
    (hd : ∀ v, v < nUn c → v % c.nSt = u % c.nSt → HasData c vis mvis g v) :
    ‖(stepUnpolarized c vis mvis sees g flagged).1 u‖ = 1 ∧ ∀ x : ℂ, ‖x‖ = 1 →
    cost c vis mvis g u ((stepUnpolarized c vis mvis sees g flagged).1 u) ≤ cost c vis mvis g u x ∧
    (cost c vis mvis g u x ≤ cost c vis mvis g u ((stepUnpolarized c vis mvis sees g flagged).1 u) →
      x = (stepUnpolarized c vis mvis sees g flagged).1 u) := by
  have hm' : c.mode ≠ .fullJones := by rw [hm]; decide
  rw [step_value c hm' vis mvis g flagged sees u hu hf hd, hm]
  simp only [constrain]
  have hW := (weight_pos c mvis g u).mpr (hd u hu rfl).1
  have hT := (hd u hu rfl).2
  have h0 := weight_nonneg c mvis g u
  rw [unit_of _ _ hT (lt_of_le_of_ne h0 (Ne.symm hW))]
  have hp : 0 < ‖∑ e ∈ entries c, (starRingEnd ℂ) ((starRingEnd ℂ) (g (other c e)) * mvis (addr c u e)) *
      vis (addr c u e)‖ := by simpa using hT
  refine ⟨?_, ?_⟩
  · rw [Complex.norm_div, Complex.norm_real, norm_norm, div_self (ne_of_gt hp)]
  intro x hx
  rw [cost_sq, cost_sq, sq_phase _ _ _ hT x hx]
  set T := ∑ e ∈ entries c, (starRingEnd ℂ) ((starRingEnd ℂ) (g (other c e)) * mvis (addr c u e)) * vis (addr c u e)
  constructor
  · have := mul_nonneg (le_of_lt hp) (normSq_nonneg (x - T / (‖T‖ : ℂ)))
    linarith
  · intro h
    have h1 : ‖T‖ * normSq (x - T / (‖T‖ : ℂ)) ≤ 0 := by linarith
    have h2 : normSq (x - T / (‖T‖ : ℂ)) = 0 :=
      le_antisymm (by by_contra hc; push Not at hc; have := mul_pos hp hc; linarith) (normSq_nonneg _)
    exact sub_eq_zero.mp (normSq_eq_zero.mp h2)

/-- C109: for amplitudes a step gives each unknown of an unflagged station with data the modulus of the value with the smallest
residual. -/
theorem step_amplitude (c : Cfg) (hm : c.mode = .amplitudeOnly) (vis mvis g : Nat → ℂ) (flagged sees : Nat → Bool) (u : Nat)
    (hu : u < nUn c) (hf : flagged (u % c.nSt) = false)
    (hd : ∀ v, v < nUn c → v % c.nSt = u % c.nSt → HasData c vis mvis g v) :
    ∃ y : ℂ, (stepUnpolarized c vis mvis sees g flagged).1 u = (‖y‖ : ℂ) ∧ y ≠ 0 ∧
      ∀ x, cost c vis mvis g u y ≤ cost c vis mvis g u x := by
  have hm' : c.mode ≠ .fullJones := by rw [hm]; decide
  rw [step_value c hm' vis mvis g flagged sees u hu hf hd, hm]
  have hW := (weight_pos c mvis g u).mpr (hd u hu rfl).1
  have h0 := weight_nonneg c mvis g u
  refine ⟨_, rfl, ?_, ?_⟩
  · exact div_ne_zero (hd u hu rfl).2 (by exact_mod_cast hW)
  · intro x
    rw [cost_sq, cost_sq, sq_min _ _ _ hW x]
    have := mul_nonneg h0 (normSq_nonneg (x - (∑ e ∈ entries c, (starRingEnd ℂ) ((starRingEnd ℂ) (g (other c e)) *
      mvis (addr c u e)) * vis (addr c u e)) /
      ((∑ e ∈ entries c, normSq ((starRingEnd ℂ) (g (other c e)) * mvis (addr c u e)) : ℝ) : ℂ)))
    linarith

/-- C109: a station is flagged by a step exactly if one of its unknowns has no data, whatever the schedule of the tasks; flags
are not removed. -/
theorem step_flag (c : Cfg) (hm : c.mode ≠ .fullJones) (vis mvis g : Nat → ℂ) (flagged sees : Nat → Bool) (s : Nat) :
    (stepUnpolarized c vis mvis sees g flagged).2 s = true ↔
      flagged s = true ∨ ∃ u, u < nUn c ∧ u % c.nSt = s ∧ ¬ HasData c vis mvis g u := by
  unfold stepUnpolarized
  simp only
  classical
  rw [Bool.or_eq_true, decide_eq_true_iff]
  constructor
  · rintro (h | ⟨u, hu, hus, -, hn⟩)
    · exact Or.inl h
    · exact Or.inr ⟨u, hu, hus, fun hd => (hasData_iff c hm vis mvis g u hu).mp hd hn⟩
  · rintro (h | ⟨u, hu, hus, hn⟩)
    · exact Or.inl h
    · by_cases hf : flagged s = true
      · exact Or.inl hf
      · right
        have hnd : noData c vis mvis (fun u => (starRingEnd ℂ) (g u)) u := by
          by_contra h
          exact hn ((hasData_iff c hm vis mvis g u hu).mpr h)
        by_cases hsk : skipped c vis mvis (fun u => (starRingEnd ℂ) (g u)) flagged sees u
        · rcases hsk with h | ⟨h2, h3, h4, h5⟩
          · rw [hus] at h; exact absurd h hf
          · obtain ⟨p1, p2, p3, -⟩ := (unknowns c u hu).2.2.1 h2
            refine ⟨partner c u, p1, by rw [p2, hus], ?_, h5⟩
            rintro (h | ⟨-, h6, -, -⟩)
            · rw [p2, hus] at h; exact hf h
            · rw [h4] at h6; exact absurd h6 (by simp)
        · exact ⟨u, hu, hus, hsk, hnd⟩

/-- C109: a flagged station keeps its gains. -/
theorem step_keep (c : Cfg) (vis mvis g : Nat → ℂ) (flagged sees : Nat → Bool) (u : Nat)
    (h : flagged (u % c.nSt) = true) : (stepUnpolarized c vis mvis sees g flagged).1 u = g u := by
  unfold stepUnpolarized
  simp only
  rw [if_neg]
  rintro ⟨-, h1⟩
  exact h1 (Or.inl h)

/-- C109: the schedule of the tasks has no influence on the flags, and none on the gains of stations of which all unknowns have
data. -/
theorem step_schedule (c : Cfg) (hm : c.mode ≠ .fullJones) (vis mvis g : Nat → ℂ) (flagged sees sees' : Nat → Bool) :
    (stepUnpolarized c vis mvis sees g flagged).2 = (stepUnpolarized c vis mvis sees' g flagged).2 ∧
    ∀ u, u < nUn c → (∀ v, v < nUn c → v % c.nSt = u % c.nSt → HasData c vis mvis g v) →
      (stepUnpolarized c vis mvis sees g flagged).1 u = (stepUnpolarized c vis mvis sees' g flagged).1 u := by
  refine ⟨?_, ?_⟩
  · funext s
    rw [Bool.eq_iff_iff, step_flag c hm, step_flag c hm]
  · intro u hu hd
    by_cases hf : flagged (u % c.nSt) = true
    · rw [step_keep c vis mvis g flagged sees u hf, step_keep c vis mvis g flagged sees' u hf]
    · have hf' : flagged (u % c.nSt) = false := by simpa using hf
      rw [step_value c hm vis mvis g flagged sees u hu hf' hd, step_value c hm vis mvis g flagged sees' u hu hf' hd]

/-- The gains explain the visibilities of an unknown. -/
def Explains (c : Cfg) (vis mvis g : Nat → ℂ) (u : Nat) : Prop :=
  ∀ e ∈ entries c, vis (addr c u e) = (starRingEnd ℂ) (g (other c e)) * mvis (addr c u e) * g u

/-- The values of the modes: phases have modulus one, amplitudes are not negative. -/
def Admissible (m : Mode) (x : ℂ) : Prop :=
  match m with
  | .phaseOnly => ‖x‖ = 1
  | .amplitudeOnly => x = (‖x‖ : ℂ)
  | _ => True

private theorem scaled (c : Cfg) (vis mvis g : Nat → ℂ) (u : Nat) (k : ℂ) (hk : k ≠ 0) (he : Explains c vis mvis g u)
    (hx : ∃ e ∈ entries c, g (other c e) * mvis (addr c u e) ≠ 0) :
    (∑ e ∈ entries c, (starRingEnd ℂ) ((starRingEnd ℂ) (k * g (other c e)) * mvis (addr c u e)) * vis (addr c u e)) =
      k * ((∑ e ∈ entries c, normSq ((starRingEnd ℂ) (g (other c e)) * mvis (addr c u e)) : ℝ) : ℂ) * g u ∧
    (∑ e ∈ entries c, normSq ((starRingEnd ℂ) (k * g (other c e)) * mvis (addr c u e))) =
      normSq k * ∑ e ∈ entries c, normSq ((starRingEnd ℂ) (g (other c e)) * mvis (addr c u e)) ∧
    (g u ≠ 0 → HasData c vis mvis (fun v => k * g v) u) := by
  have h1 : (∑ e ∈ entries c, (starRingEnd ℂ) ((starRingEnd ℂ) (k * g (other c e)) * mvis (addr c u e)) * vis (addr c u e)) =
      k * ((∑ e ∈ entries c, normSq ((starRingEnd ℂ) (g (other c e)) * mvis (addr c u e)) : ℝ) : ℂ) * g u := by
    push_cast
    rw [Finset.mul_sum, Finset.sum_mul]
    apply Finset.sum_congr rfl
    intro e hem
    rw [he e hem, normSq_eq_conj_mul_self]
    simp only [map_mul, Complex.conj_conj]
    ring
  refine ⟨h1, ?_, ?_⟩
  · rw [Finset.mul_sum]
    apply Finset.sum_congr rfl
    intro e _
    simp only [map_mul, normSq_conj]
    ring
  · intro hg
    obtain ⟨e, hem, hne⟩ := hx
    refine ⟨⟨e, hem, ?_⟩, ?_⟩
    · rw [mul_assoc]; exact mul_ne_zero hk hne
    · rw [h1]
      exact mul_ne_zero (mul_ne_zero hk (by exact_mod_cast (weight_pos c mvis g u).mpr ⟨e, hem, hne⟩)) hg

/-- C109: gains that explain the visibilities stay as they are. -/
theorem step_fixed (c : Cfg) (hm : c.mode ≠ .fullJones) (vis mvis g : Nat → ℂ) (flagged sees : Nat → Bool)
    (h : ∀ u, u < nUn c → flagged (u % c.nSt) = true ∨ (Explains c vis mvis g u ∧ g u ≠ 0 ∧ Admissible c.mode (g u) ∧
      ∃ e ∈ entries c, g (other c e) * mvis (addr c u e) ≠ 0)) (u : Nat) (hu : u < nUn c) :
    (stepUnpolarized c vis mvis sees g flagged).1 u = g u ∧
    (stepUnpolarized c vis mvis sees g flagged).2 (u % c.nSt) = flagged (u % c.nSt) := by
  by_cases hf : flagged (u % c.nSt) = true
  · refine ⟨step_keep c vis mvis g flagged sees u hf, ?_⟩
    rw [hf, step_flag c hm]
    exact Or.inl hf
  · have hf' : flagged (u % c.nSt) = false := by simpa using hf
    have hone : (fun v => (1 : ℂ) * g v) = g := by funext v; rw [one_mul]
    have hd : ∀ v, v < nUn c → v % c.nSt = u % c.nSt → HasData c vis mvis g v := by
      intro v hv hvu
      rcases h v hv with h1 | ⟨h1, h2, -, h3⟩
      · rw [hvu] at h1; exact absurd h1 hf
      · have := (scaled c vis mvis g v 1 one_ne_zero h1 h3).2.2 h2
        rwa [hone] at this
    refine ⟨?_, step_unflagged c hm vis mvis g flagged sees _ hd⟩
    rcases h u hu with h1 | ⟨h1, h2, h3, h4⟩
    · exact absurd h1 hf
    · rw [step_value c hm vis mvis g flagged sees u hu hf' hd]
      obtain ⟨e1, -, -⟩ := scaled c vis mvis g u 1 one_ne_zero h1 h4
      simp only [one_mul] at e1
      rw [e1]
      have hw : ((∑ e ∈ entries c, normSq ((starRingEnd ℂ) (g (other c e)) * mvis (addr c u e)) : ℝ) : ℂ) ≠ 0 := by
        exact_mod_cast (weight_pos c mvis g u).mpr h4
      rw [mul_div_cancel_left₀ _ hw]
      unfold constrain
      unfold Admissible at h3
      cases hmode : c.mode with
      | phaseOnly => rw [hmode] at h3; simp only at h3 ⊢; rw [h3]; simp
      | amplitudeOnly => rw [hmode] at h3; simp only at h3 ⊢; exact h3.symm
      | default => rfl
      | fullJones => exact absurd hmode hm

/-- C109: starting from gains that are a factor k off, a step without constraint gives gains that are 1/conj(k) off, so that the
mean after an odd and an even step is (k + 1/conj(k))/2 off: the phase of the factor stays and its modulus takes a step of Newton's
method for the square root of one. -/
theorem step_scale (c : Cfg) (hm : c.mode = .default) (vis mvis g : Nat → ℂ) (flagged sees : Nat → Bool) (k : ℂ) (hk : k ≠ 0)
    (hf : ∀ s, flagged s = false)
    (h : ∀ u, u < nUn c → Explains c vis mvis g u ∧ g u ≠ 0 ∧ ∃ e ∈ entries c, g (other c e) * mvis (addr c u e) ≠ 0)
    (u : Nat) (hu : u < nUn c) :
    (stepUnpolarized c vis mvis sees (fun v => k * g v) flagged).1 u = (1 / (starRingEnd ℂ) k) * g u := by
  have hm' : c.mode ≠ .fullJones := by rw [hm]; decide
  have hd : ∀ v, v < nUn c → v % c.nSt = u % c.nSt → HasData c vis mvis (fun v => k * g v) v := by
    intro v hv _
    obtain ⟨h1, h2, h3⟩ := h v hv
    exact (scaled c vis mvis g v k hk h1 h3).2.2 h2
  rw [step_value c hm' vis mvis _ flagged sees u hu (hf _) hd, hm]
  obtain ⟨h1, h2, h3⟩ := h u hu
  obtain ⟨e1, e2, -⟩ := scaled c vis mvis g u k hk h1 h3
  simp only [constrain]
  rw [e1, e2]
  have hw : ((∑ e ∈ entries c, normSq ((starRingEnd ℂ) (g (other c e)) * mvis (addr c u e)) : ℝ) : ℂ) ≠ 0 := by
    exact_mod_cast (weight_pos c mvis g u).mpr h3
  have hk' : (starRingEnd ℂ) k ≠ 0 := by rw [Ne, map_eq_zero]; exact hk
  rw [ofReal_mul, normSq_eq_conj_mul_self]
  field_simp

/-- C109: a common phase of all gains before a step is a common phase after it, so the iterations keep the phase reference. -/
theorem step_rotate (c : Cfg) (hm : c.mode = .default ∨ c.mode = .phaseOnly) (vis mvis g : Nat → ℂ) (flagged sees : Nat → Bool)
    (k : ℂ) (hk : ‖k‖ = 1) (u : Nat) (hu : u < nUn c) :
    (stepUnpolarized c vis mvis sees (fun v => k * g v) flagged).1 u = k * (stepUnpolarized c vis mvis sees g flagged).1 u := by
  have hm' : c.mode ≠ .fullJones := by rcases hm with h | h <;> rw [h] <;> decide
  have hk0 : k ≠ 0 := by intro h; rw [h] at hk; simp at hk
  have hs : ∀ v, v < nUn c → sums c vis mvis (fun v => (starRingEnd ℂ) (k * g v)) v =
      ((sums c vis mvis (fun v => (starRingEnd ℂ) (g v)) v).1, k * (sums c vis mvis (fun v => (starRingEnd ℂ) (g v)) v).2) := by
    intro v hv
    rw [sums_eq c hm' vis mvis _ v hv, sums_eq c hm' vis mvis _ v hv]
    congr 1
    · apply Finset.sum_congr rfl
      intro e _
      simp only [map_mul, normSq_conj]
      rw [normSq_eq_norm_sq k, hk]; ring
    · rw [Finset.mul_sum]
      apply Finset.sum_congr rfl
      intro e _
      simp only [map_mul, Complex.conj_conj]
      ring
  have hn : ∀ v, v < nUn c → (noData c vis mvis (fun v => (starRingEnd ℂ) (k * g v)) v ↔
      noData c vis mvis (fun v => (starRingEnd ℂ) (g v)) v) := by
    intro v hv
    unfold noData
    rw [hs v hv]
    simp [hk0]
  have hsk : skipped c vis mvis (fun v => (starRingEnd ℂ) (k * g v)) flagged sees u ↔
      skipped c vis mvis (fun v => (starRingEnd ℂ) (g v)) flagged sees u := by
    unfold skipped
    constructor
    · rintro (h | ⟨h1, h2, h3, h4⟩)
      · exact Or.inl h
      · exact Or.inr ⟨h1, h2, h3, (hn _ ((unknowns c u hu).2.2.1 h1).1).mp h4⟩
    · rintro (h | ⟨h1, h2, h3, h4⟩)
      · exact Or.inl h
      · exact Or.inr ⟨h1, h2, h3, (hn _ ((unknowns c u hu).2.2.1 h1).1).mpr h4⟩
  unfold stepUnpolarized
  simp only
  by_cases h1 : u < nUn c ∧ ¬ skipped c vis mvis (fun v => (starRingEnd ℂ) (g v)) flagged sees u
  · rw [if_pos h1, if_pos ⟨hu, fun h => h1.2 (hsk.mp h)⟩]
    by_cases h2 : noData c vis mvis (fun v => (starRingEnd ℂ) (g v)) u
    · rw [if_pos h2, if_pos ((hn u hu).mpr h2), mul_zero]
    · rw [if_neg h2, if_neg (fun h => h2 ((hn u hu).mp h)), hs u hu]
      unfold constrain
      rcases hm with h | h
      · rw [h]; simp only; ring
      · rw [h]; simp only
        rw [Complex.norm_div, Complex.norm_div, Complex.norm_mul, hk, one_mul]
        ring
  · rw [if_neg h1, if_neg]
    rintro ⟨-, h⟩
    exact h1 ⟨hu, fun h' => h (hsk.mpr h')⟩

/-! ## Examples -/

/-- Two stations, one time step, one channel, scalar gains. -/
def exCfg (m : Mode) : Cfg := ⟨2, 1, 1, m, true, 1.0e-5, true⟩

/-- True gains 1 and i. -/
def exGain (u : Nat) : ℂ := if u = 1 then I else 1

/-- A model with all crosscorrelations one. -/
def exModel (a : Nat) : ℂ := if a % 2 = a / 8 then 0 else 1

/-- The visibilities for the true gains. -/
def exVis (a : Nat) : ℂ := (starRingEnd ℂ) (exGain (a % 2)) * exModel a * exGain (a / 8)

theorem ex_addr (m : Mode) (u : Nat) (hu : u < 2) (e : Nat × Nat × Nat × Nat × Nat) (he : e ∈ entries (exCfg m)) :
    addr (exCfg m) u e % 2 = other (exCfg m) e ∧ addr (exCfg m) u e / 8 = u := by
  obtain ⟨k, ch, t, p2, st2⟩ := e
  simp only [entries, exCfg, Finset.mem_product, Finset.mem_range, if_true] at he
  simp only [addr, other, exCfg, offset, if_true]
  omega

theorem ex_explains (m : Mode) (u : Nat) (hu : u < 2) : Explains (exCfg m) exVis exModel exGain u := by
  intro e he
  obtain ⟨h1, h2⟩ := ex_addr m u hu e he
  unfold exVis
  rw [h1, h2]

theorem ex_model (m : Mode) (u : Nat) (hu : u < 2) :
    ∃ e ∈ entries (exCfg m), exGain (other (exCfg m) e) * exModel (addr (exCfg m) u e) ≠ 0 := by
  refine ⟨(0, 0, 0, 0, 1 - u), ?_, ?_⟩
  · simp only [entries, exCfg, Finset.mem_product, Finset.mem_range, if_true]
    omega
  · have h : u = 0 ∨ u = 1 := by omega
    rcases h with rfl | rfl <;> simp [addr, other, exCfg, offset, exGain, exModel]

theorem ex_hasData (m : Mode) (u : Nat) (hu : u < nUn (exCfg m)) : HasData (exCfg m) exVis exModel (fun _ => 1) u := by
  have hu' : u < 2 := by simpa [nUn, exCfg] using hu
  have h : u = 0 ∨ u = 1 := by omega
  constructor
  · refine ⟨(0, 0, 0, 0, 1 - u), ?_, ?_⟩
    · simp only [entries, exCfg, Finset.mem_product, Finset.mem_range, if_true]
      omega
    · rcases h with rfl | rfl <;> simp [addr, exCfg, offset, exModel]
  · rcases h with rfl | rfl <;>
      simp [entries, addr, exCfg, offset, exModel, exVis, exGain, Finset.sum_product, Finset.sum_range_succ]

/-- Example for `step_best`, `step_phase`, `step_amplitude`: gains of one are a start that meets the hypotheses in each mode. -/
example (m : Mode) (u : Nat) (_hu : u < nUn (exCfg m)) : (fun _ : Nat => false) (u % 2) = false ∧
    ∀ v, v < nUn (exCfg m) → v % (exCfg m).nSt = u % (exCfg m).nSt → HasData (exCfg m) exVis exModel (fun _ => 1) v :=
  ⟨rfl, fun v hv _ => ex_hasData m v hv⟩

/-- Example: from gains of one, a step gives the first station the gain -i and the second the gain i. -/
example (sees : Nat → Bool) :
    (stepUnpolarized (exCfg .default) exVis exModel sees (fun _ => 1) fun _ => false).1 0 = -I ∧
    (stepUnpolarized (exCfg .default) exVis exModel sees (fun _ => 1) fun _ => false).1 1 = I := by
  have hd : ∀ u, ∀ v, v < nUn (exCfg .default) → v % (exCfg .default).nSt = u % (exCfg .default).nSt →
      HasData (exCfg .default) exVis exModel (fun _ => 1) v := fun u v hv _ => ex_hasData _ v hv
  constructor
  · rw [step_value _ (by decide) _ _ _ _ _ 0 (by decide) rfl (hd 0)]
    norm_num [entries, addr, exCfg, offset, exModel, exVis, exGain, Finset.sum_product, Finset.sum_range_succ, constrain]
    ring_nf
  · rw [step_value _ (by decide) _ _ _ _ _ 1 (by decide) rfl (hd 1)]
    norm_num [entries, addr, exCfg, offset, exModel, exVis, exGain, Finset.sum_product, Finset.sum_range_succ, constrain]
    ring_nf

/-- Example for `step_fixed` and `step_scale`: the true gains explain the visibilities, are not zero, and have modulus one. -/
example (m : Mode) (hm : m = .default ∨ m = .phaseOnly) (u : Nat) (hu : u < nUn (exCfg m)) (hf : m ≠ .fullJones) :
    Explains (exCfg m) exVis exModel exGain u ∧ exGain u ≠ 0 ∧ Admissible m (exGain u) ∧
      ∃ e ∈ entries (exCfg m), exGain (other (exCfg m) e) * exModel (addr (exCfg m) u e) ≠ 0 := by
  have hu' : u < 2 := by simpa [nUn, exCfg] using hu
  refine ⟨ex_explains m u hu', ?_, ?_, ex_model m u hu'⟩
  · unfold exGain; split <;> simp
  · rcases hm with rfl | rfl
    · trivial
    · show ‖exGain u‖ = 1
      unfold exGain; split
      · exact Complex.norm_I
      · exact norm_one

/-! ## The schedule -/

/-- Two stations with two gains each, one time step and one channel. -/
def raceCfg : Cfg := ⟨2, 1, 1, .default, false, 1.0e-5, true⟩

/-- A model in which the first polarization of the first station has no correlations: the address of the other is for the
second polarization of the first station. -/
def raceModel (a : Nat) : ℂ :=
  if (a % 2 = 0 ∧ a / 2 % 2 = 1 ∧ a / 8 = 1) ∨ (a % 2 = 1 ∧ a / 4 % 2 = 1 ∧ a / 8 = 0) then 1 else 0

/-- The visibilities are two times the model. -/
def raceVis (a : Nat) : ℂ := 2 * raceModel a

private theorem race_sums (g : Nat → ℂ) :
    sums raceCfg raceVis raceModel g 0 = (0, 0) ∧
    sums raceCfg raceVis raceModel g 1 = (normSq (g 2), 2 * (starRingEnd ℂ) (g 2)) ∧
    sums raceCfg raceVis raceModel g 2 = (normSq (g 1) + normSq (g 3), 2 * ((starRingEnd ℂ) (g 1) + (starRingEnd ℂ) (g 3))) ∧
    sums raceCfg raceVis raceModel g 3 = (normSq (g 2), 2 * (starRingEnd ℂ) (g 2)) := by
  refine ⟨?_, ?_, ?_, ?_⟩ <;> rw [sums_eq raceCfg (by decide) _ _ _ _ (by decide)] <;>
    simp [entries, addr, other, raceCfg, offset, raceModel, raceVis, Finset.sum_product, Finset.sum_range_succ, mul_comm, mul_add]

/-- C109 is violated for the schedule: which task of a station is first decides the gain of another station after two steps. In one
schedule the task of the second polarization sees the flag the task of the first has set, and in the other it does not; station 1 has
data in both polarizations and is not flagged, and its gain is 2 in the one and 1 in the other. -/
theorem step_race :
    ((stepUnpolarized raceCfg raceVis raceModel (fun _ => false)
      (stepUnpolarized raceCfg raceVis raceModel (fun u => decide (u = 2)) (fun _ => 1) fun _ => false).1
      (stepUnpolarized raceCfg raceVis raceModel (fun u => decide (u = 2)) (fun _ => 1) fun _ => false).2).1 1 = 2) ∧
    ((stepUnpolarized raceCfg raceVis raceModel (fun _ => false)
      (stepUnpolarized raceCfg raceVis raceModel (fun _ => false) (fun _ => 1) fun _ => false).1
      (stepUnpolarized raceCfg raceVis raceModel (fun _ => false) (fun _ => 1) fun _ => false).2).1 1 = 1) := by
  have hnd : ∀ (g : Nat → ℂ), HasData raceCfg raceVis raceModel g 1 ↔ g 2 ≠ 0 := by
    intro g
    rw [hasData_iff raceCfg (by decide) _ _ _ _ (by decide)]
    unfold noData
    rw [(race_sums _).2.1]
    simp
  have hnd3 : ∀ (g : Nat → ℂ), HasData raceCfg raceVis raceModel g 3 ↔ g 2 ≠ 0 := by
    intro g
    rw [hasData_iff raceCfg (by decide) _ _ _ _ (by decide)]
    unfold noData
    rw [(race_sums _).2.2.2]
    simp
  have hall : ∀ (g : Nat → ℂ), g 2 ≠ 0 → ∀ v, v < nUn raceCfg → v % raceCfg.nSt = 1 →
      HasData raceCfg raceVis raceModel g v := by
    intro g hg v hv h1
    have hv' : v < 4 := hv
    have h1' : v % 2 = 1 := h1
    have : v = 1 ∨ v = 3 := by omega
    rcases this with rfl | rfl
    · exact (hnd g).mpr hg
    · exact (hnd3 g).mpr hg
  have hone : ∀ sees : Nat → Bool,
      (stepUnpolarized raceCfg raceVis raceModel sees (fun _ => 1) fun _ => false).2 1 = false := by
    intro sees
    rw [step_unflagged raceCfg (by decide) _ _ _ _ _ 1 (hall _ one_ne_zero)]
  have hval : ∀ (g : Nat → ℂ) (f : Nat → Bool), f 1 = false → g 2 ≠ 0 →
      (stepUnpolarized raceCfg raceVis raceModel (fun _ => false) g f).1 1 = 2 * g 2 / (normSq (g 2) : ℂ) := by
    intro g f hf hg
    unfold stepUnpolarized
    simp only
    rw [if_pos ⟨by decide, not_skipped raceCfg (by decide) _ _ _ _ _ 1 (by decide) hf (hall g hg)⟩,
      if_neg ((hasData_iff raceCfg (by decide) _ _ _ 1 (by decide)).mp ((hnd g).mpr hg)), (race_sums _).2.1]
    simp [constrain, raceCfg]
  have hnd0 : noData raceCfg raceVis raceModel (fun _ => (starRingEnd ℂ) 1) 0 := by
    left; rw [(race_sums _).1]
  have hA : (stepUnpolarized raceCfg raceVis raceModel (fun u => decide (u = 2)) (fun _ => 1) fun _ => false).1 2 = 1 := by
    unfold stepUnpolarized
    simp only
    rw [if_neg]
    rintro ⟨-, h⟩
    exact h (Or.inr ⟨rfl, rfl, rfl, hnd0⟩)
  have hB : (stepUnpolarized raceCfg raceVis raceModel (fun _ => false) (fun _ => 1) fun _ => false).1 2 = 2 := by
    unfold stepUnpolarized
    simp only
    rw [if_pos, if_neg]
    · rw [(race_sums _).2.2.1]
      simp only [constrain, raceCfg, map_one]
      norm_num
    · unfold noData
      rw [(race_sums _).2.2.1]
      norm_num
    · refine ⟨by decide, ?_⟩
      rintro (h | ⟨-, h, -⟩) <;> exact absurd h (by simp)
  constructor
  · rw [hval _ _ (hone _) (by rw [hA]; exact one_ne_zero), hA]
    norm_num
  · rw [hval _ _ (hone _) (by rw [hB]; exact two_ne_zero), hB]
    norm_num [normSq_apply]

end DP3.GainCal
