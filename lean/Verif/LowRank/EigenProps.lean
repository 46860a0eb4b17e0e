import Verif.LowRank.CorrProps

/-!
# The approximation of rank one

C218: with exact data the true solutions are kept.
-/

namespace DP3.LowRank

set_option linter.unusedSimpArgs false

open ComplexConjugate

variable {n : Nat}

private theorem apply_outer (g v : Fin n → ℂ) (i : Fin n) :
    apply (fun i j => g i * conj (g j)) v i = g i * ∑ j, conj (g j) * v j := by
  unfold apply
  rw [Finset.mul_sum]
  apply Finset.sum_congr rfl
  intro j _
  ring

private theorem norm2_scale (g : Fin n → ℂ) (s : ℂ) : norm2 (fun i => g i * s) = norm2 g * ‖s‖ := by
  unfold norm2
  simp only [Complex.normSq_mul]
  rw [← Finset.sum_mul, Real.sqrt_mul (Finset.sum_nonneg fun i _ => Complex.normSq_nonneg _), Complex.norm_def]

private theorem norm2_sq (g : Fin n → ℂ) : norm2 g ^ 2 = ∑ i, Complex.normSq (g i) :=
  Real.sq_sqrt (Finset.sum_nonneg fun i _ => Complex.normSq_nonneg _)

private theorem inner_self (g : Fin n → ℂ) : ∑ j, conj (g j) * g j = ((norm2 g ^ 2 : ℝ) : ℂ) := by
  rw [norm2_sq, Complex.ofReal_sum]
  apply Finset.sum_congr rfl
  intro j _
  rw [Complex.normSq_eq_conj_mul_self]

private theorem norm2_pos (g : Fin n → ℂ) (i : Fin n) (h : g i ≠ 0) : 0 < norm2 g := by
  unfold norm2
  apply Real.sqrt_pos.2
  exact lt_of_lt_of_le (Complex.normSq_pos.2 h)
    (Finset.single_le_sum (f := fun i => Complex.normSq (g i)) (fun i _ => Complex.normSq_nonneg _) (Finset.mem_univ i))

/-- The power method on a matrix of rank one. -/
private theorem power_outer (g : Fin n → ℂ) (hg : 0 < norm2 g) (k : Nat) : ∀ v : Fin n → ℂ,
    (∑ j, conj (g j) * v j) ≠ 0 → ∃ φ : ℂ, ‖φ‖ = 1 ∧
      power (fun i j => g i * conj (g j)) (k + 1) v = some fun i => g i * φ / norm2 g := by
  induction k with
  | zero =>
    intro v hv
    set s := ∑ j, conj (g j) * v j with hs
    have h1 : apply (fun i j => g i * conj (g j)) v = fun i => g i * s := by
      funext i
      exact apply_outer g v i
    have h2 : norm2 (fun i => g i * s) ≠ 0 := by
      rw [norm2_scale]
      exact ne_of_gt (mul_pos hg (norm_pos_iff.2 hv))
    have hs0 : (‖s‖ : ℂ) ≠ 0 := by exact_mod_cast norm_ne_zero_iff.2 hv
    have hg0 : (norm2 g : ℂ) ≠ 0 := by exact_mod_cast ne_of_gt hg
    refine ⟨s / ‖s‖, ?_, ?_⟩
    · rw [norm_div, Complex.norm_real, norm_norm, div_self (norm_ne_zero_iff.2 hv)]
    · simp only [power, h1, h2, if_false]
      congr 1
      funext i
      rw [norm2_scale, Complex.ofReal_mul]
      field_simp
  | succ k ih =>
    intro v hv
    have hg0 : (norm2 g : ℂ) ≠ 0 := by exact_mod_cast ne_of_gt hg
    set s := ∑ j, conj (g j) * v j with hs
    have h1 : apply (fun i j => g i * conj (g j)) v = fun i => g i * s := by
      funext i
      exact apply_outer g v i
    have h2 : norm2 (fun i => g i * s) ≠ 0 := by
      rw [norm2_scale]
      exact ne_of_gt (mul_pos hg (norm_pos_iff.2 hv))
    have hs0 : (‖s‖ : ℂ) ≠ 0 := by exact_mod_cast norm_ne_zero_iff.2 hv
    have hstep : power (fun i j => g i * conj (g j)) (k + 1 + 1) v =
        power (fun i j => g i * conj (g j)) (k + 1) fun i => g i * s / norm2 fun i => g i * s := by
      conv_lhs => rw [power]
      simp only [h1, h2, if_false]
    rw [hstep]
    apply ih
    have : (∑ j, conj (g j) * (g j * s / (norm2 fun i => g i * s))) = norm2 g * (s / ‖s‖) := by
      have e : ∀ j, conj (g j) * (g j * s / ((norm2 fun i => g i * s : ℝ) : ℂ)) =
          conj (g j) * g j * (s / ((norm2 fun i => g i * s : ℝ) : ℂ)) := fun j => by ring
      simp only [e]
      rw [← Finset.sum_mul, inner_self, norm2_scale, Complex.ofReal_mul, Complex.ofReal_pow]
      field_simp
    rw [this]
    exact mul_ne_zero hg0 (div_ne_zero hv hs0)

private theorem rayleigh_outer (g : Fin n → ℂ) (hg : 0 < norm2 g) (φ : ℂ) (hφ : ‖φ‖ = 1) :
    rayleigh (fun i j => g i * conj (g j)) (fun i => g i * φ / norm2 g) = norm2 g ^ 2 := by
  have hg0 : (norm2 g : ℂ) ≠ 0 := by exact_mod_cast ne_of_gt hg
  have h1 : ∀ j, ∑ i, conj (g i * φ / (norm2 g : ℂ)) * (g i * conj (g j)) = norm2 g * conj φ * conj (g j) := by
    intro j
    have e : ∀ i, conj (g i * φ / (norm2 g : ℂ)) * (g i * conj (g j)) =
        conj (g i) * g i * (conj φ * conj (g j) / norm2 g) := by
      intro i
      rw [map_div₀, map_mul, Complex.conj_ofReal]
      ring
    simp only [e]
    rw [← Finset.sum_mul, inner_self, Complex.ofReal_pow]
    field_simp
  unfold rayleigh
  simp only [h1]
  have e : ∀ j, (norm2 g : ℂ) * conj φ * conj (g j) * (g j * φ / norm2 g) = conj (g j) * g j * (conj φ * φ) := by
    intro j
    field_simp
  simp only [e]
  rw [← Finset.sum_mul, inner_self, ← Complex.normSq_eq_conj_mul_self, Complex.normSq_eq_norm_sq, hφ]
  simp [← Complex.ofReal_pow]

/-- The products of a vector with its own conjugate. -/
private theorem outer_unit (g : Fin n → ℂ) (hg : 0 < norm2 g) (φ : ℂ) (hφ : ‖φ‖ = 1) (i j : Fin n) :
    ((norm2 g ^ 2 : ℝ) : ℂ) * (g i * φ / norm2 g * conj (g j * φ / norm2 g)) = g i * conj (g j) := by
  have hg0 : (norm2 g : ℂ) ≠ 0 := by exact_mod_cast ne_of_gt hg
  have h1 : φ * conj φ = 1 := by
    rw [Complex.mul_conj, Complex.normSq_eq_norm_sq, hφ]
    simp
  rw [map_div₀, map_mul, Complex.conj_ofReal, Complex.ofReal_pow]
  field_simp
  rw [mul_right_comm, mul_assoc, mul_assoc]
  linear_combination g i * conj (g j) * h1

private theorem refine_outer (w : Fin n → Fin n → ℝ) (a : Fin n → Fin n → ℂ) (g : Fin n → ℂ) (hg : 0 < norm2 g)
    (ha : ∀ i j, w i j = 0 ∨ a i j = g i * conj (g j)) (nPower : Nat) (hp : 0 < nPower) (k : Nat) : ∀ φ : ℂ, ‖φ‖ = 1 →
    ∃ φ' : ℂ, ‖φ'‖ = 1 ∧ refine w a nPower k (norm2 g ^ 2, fun i => g i * φ / norm2 g) =
      some (norm2 g ^ 2, fun i => g i * φ' / norm2 g) := by
  induction k with
  | zero => exact fun φ hφ => ⟨φ, hφ, rfl⟩
  | succ k ih =>
    intro φ hφ
    have hg0 : (norm2 g : ℂ) ≠ 0 := by exact_mod_cast ne_of_gt hg
    have ht : term w a (norm2 g ^ 2) (fun i => g i * φ / norm2 g) = fun i j => g i * conj (g j) := by
      funext i j
      unfold term
      rw [outer_unit g hg φ hφ]
      rcases ha i j with h | h
      · rw [h]; simp
      · rw [h]; ring
    obtain ⟨k', rfl⟩ : ∃ k', nPower = k' + 1 := ⟨nPower - 1, by omega⟩
    have hs : (∑ j, conj (g j) * (g j * φ / norm2 g)) ≠ 0 := by
      have e : ∀ j, conj (g j) * (g j * φ / (norm2 g : ℂ)) = conj (g j) * g j * (φ / norm2 g) := fun j => by ring
      simp only [e]
      rw [← Finset.sum_mul, inner_self]
      have : φ ≠ 0 := norm_ne_zero_iff.1 (by rw [hφ]; exact one_ne_zero)
      exact mul_ne_zero (by exact_mod_cast ne_of_gt (pow_pos hg 2)) (div_ne_zero this hg0)
    obtain ⟨φ1, h1, h2⟩ := power_outer g hg k' _ hs
    obtain ⟨φ2, h3, h4⟩ := ih φ1 h1
    refine ⟨φ2, h3, ?_⟩
    simp only [refine, eigenPair, ht, h2, Option.map_some, Option.bind_some, rayleigh_outer g hg φ1 h1]
    exact h4

/-- The approximation before the phase reference. -/
private theorem approximate_outer (h : 0 < n) (w : Fin n → Fin n → ℝ) (a : Fin n → Fin n → ℂ) (nLra nPower : Nat)
    (hp : 0 < nPower) (start x g : Fin n → ℂ) (hgp : 0 < norm2 g) (hs : (∑ j, conj (g j) * start j) ≠ 0)
    (ha : ∀ i j, w i j = 0 ∨ a i j = g i * conj (g j)) (hx : ∀ i j, w i j = 1 ∨ x i * conj (x j) = g i * conj (g j)) :
    approximate h w a nLra nPower start x =
      if g ⟨0, h⟩ = 0 then none else some fun i => g i / (g ⟨0, h⟩ / ‖g ⟨0, h⟩‖) := by
  have hg0 : (norm2 g : ℂ) ≠ 0 := by exact_mod_cast ne_of_gt hgp
  have ht : term w a 1 x = fun i j => g i * conj (g j) := by
    funext i j
    unfold term
    rcases ha i j with h1 | h1 <;> rcases hx i j with h2 | h2
    · rw [h1] at h2; exact absurd h2 (by norm_num)
    · rw [h1, h2]; simp
    · rw [h1, h2]; simp
    · rw [h1, h2]; push_cast; ring
  obtain ⟨k', hk⟩ : ∃ k', nPower * 2 = k' + 1 := ⟨nPower * 2 - 1, by omega⟩
  obtain ⟨φ1, h1, h2⟩ := power_outer g hgp k' start hs
  obtain ⟨φ2, h3, h4⟩ := refine_outer w a g hgp ha nPower hp (nLra - 1) φ1 h1
  have hφ : φ2 ≠ 0 := norm_ne_zero_iff.1 (by rw [h3]; exact one_ne_zero)
  have hsq : csqrt (norm2 g ^ 2) = norm2 g := by
    unfold csqrt
    rw [if_pos (by positivity), Real.sqrt_sq hgp.le]
  unfold approximate
  simp only [eigenPair, ht, hk, h2, Option.map_some, Option.bind_some, rayleigh_outer g hgp φ1 h1, h4]
  have hcopy : ∀ i, g i * φ2 / (norm2 g : ℂ) * norm2 g = g i * φ2 := by
    intro i
    field_simp
  simp only [reference, hsq, hcopy, mul_eq_zero, hφ, or_false, norm_mul, h3, mul_one]
  by_cases hz : g ⟨0, h⟩ = 0
  · rw [if_pos hz, if_pos hz]
  · rw [if_neg hz, if_neg hz]
    congr 1
    funext i
    have hn : (‖g ⟨0, h⟩‖ : ℂ) ≠ 0 := by exact_mod_cast norm_ne_zero_iff.2 hz
    field_simp

/-- C218: if the matrix has rank one where it has weight, and the present solutions agree with it where it does not have
the full weight, then the approximation gives its factor, with the first value made real and positive. -/
theorem approximate_exact (h : 0 < n) (w : Fin n → Fin n → ℝ) (a : Fin n → Fin n → ℂ) (nLra nPower : Nat) (hp : 0 < nPower)
    (start x g : Fin n → ℂ) (hg : g ⟨0, h⟩ ≠ 0) (hs : (∑ j, conj (g j) * start j) ≠ 0)
    (ha : ∀ i j, w i j = 0 ∨ a i j = g i * conj (g j)) (hx : ∀ i j, w i j = 1 ∨ x i * conj (x j) = g i * conj (g j)) :
    approximate h w a nLra nPower start x = some fun i => g i / (g ⟨0, h⟩ / ‖g ⟨0, h⟩‖) := by
  rw [approximate_outer h w a nLra nPower hp start x g (norm2_pos g ⟨0, h⟩ hg) hs ha hx, if_neg hg]

/-- The data of a solution are exact for the gains `g` and have model values. -/
def Exact (sol : Nat) (vs : List Vis) (g : Nat → ℂ) : Prop :=
  ∀ v ∈ vs, v.sol = sol → ∀ r c, r < 2 → c < 2 → ∀ d, v.data (2 * r + c) = some d →
    v.model (2 * r + c) ≠ 0 ∧ d = g (2 * v.a1 + r) * v.model (2 * r + c) * conj (g (2 * v.a2 + c))

private theorem Exact.about {sol : Nat} {vs : List Vis} {g : Nat → ℂ} (he : Exact sol vs g) (i j : Nat) :
    ∀ t ∈ about sol vs i j, t.2.2 ≠ 0 ∧ t.1 = g i * conj (g j) * t.2.2 := by
  intro t ht
  unfold LowRank.about at ht
  rw [List.mem_flatMap] at ht
  obtain ⟨v, hv, ht⟩ := ht
  by_cases hs : v.sol = sol
  · rw [if_pos hs, List.mem_flatMap] at ht
    obtain ⟨r, hr, ht⟩ := ht
    rw [List.mem_flatMap] at ht
    obtain ⟨c, hc, ht⟩ := ht
    rw [List.mem_range] at hr hc
    cases hd : v.data (2 * r + c) with
    | none => rw [hd] at ht; simp at ht
    | some d =>
      rw [hd] at ht
      obtain ⟨h1, h2⟩ := he v hv hs r c hr hc d hd
      simp only [List.mem_append] at ht
      rcases ht with ht | ht
      · split at ht
        · rename_i e
          rw [List.mem_singleton] at ht
          subst ht
          rw [e.1, e.2]
          exact ⟨h1, by rw [h2]; ring⟩
        · simp at ht
      · split at ht
        · rename_i e
          rw [List.mem_singleton] at ht
          subst ht
          rw [e.1, e.2]
          refine ⟨by simpa using h1, ?_⟩
          dsimp only
          rw [h2, map_mul, map_mul, Complex.conj_conj]
          ring
        · simp at ht
  · rw [if_neg hs] at ht; simp at ht

private theorem exact_solution (h : 0 < n) (nLra nPower : Nat) (hp : 0 < nPower) (start x : Fin n → ℂ) (sol : Nat)
    (vs : List Vis) (g : Nat → ℂ) (he : Exact sol vs g) (hg : 0 < norm2 fun i : Fin n => g i)
    (hs : (∑ j : Fin n, conj (g j) * start j) ≠ 0) (hx : ∀ i j : Fin n, x i * conj (x j) = g i * conj (g j)) :
    solveSolution h nLra nPower start x sol vs =
      if g 0 = 0 then none else some fun i : Fin n => g i / (g 0 / ‖g 0‖) := by
  have hc : ∀ i j : Fin n, correlation sol vs i j = some (g i * conj (g j)) ∨
      (correlation sol vs i j = some 0 ∧ variance sol vs i j = 0) :=
    fun i j => correlation_exact sol vs i j g (fun t ht => (he.about i j t ht).1) (fun t ht => (he.about i j t ht).2)
  have hfin : ∀ i j : Fin n, (correlation sol vs i j).isSome := by
    intro i j
    rcases hc i j with e | e
    · rw [e]; rfl
    · rw [e.1]; rfl
  unfold solveSolution finiteMatrix
  rw [if_pos hfin, Option.bind_some]
  apply approximate_outer h _ _ nLra nPower hp start x (fun i => g i) hg hs
  · intro i j
    rcases hc i j with e | e
    · right
      simp only [e]
      rfl
    · left
      unfold weights
      rw [e.2]
      simp
  · exact fun i j => Or.inr (hx i j)

/-- C218: exact data and present solutions with the true products of gains: the new solutions are the true gains, up to the
phase that makes the first one real. -/
theorem exact_kept_partial (h : 0 < n) (nLra nPower : Nat) (hp : 0 < nPower) (start x : Fin n → ℂ) (sol : Nat)
    (vs : List Vis) (g : Nat → ℂ) (he : Exact sol vs g) (hg : g 0 ≠ 0) (hs : (∑ j : Fin n, conj (g j) * start j) ≠ 0)
    (hx : ∀ i j : Fin n, x i * conj (x j) = g i * conj (g j)) :
    ∃ y, solveSolution h nLra nPower start x sol vs = some y ∧ (∀ i j, y i * conj (y j) = g i * conj (g j)) ∧
      y ⟨0, h⟩ = ‖g 0‖ := by
  have hn : (‖g 0‖ : ℂ) ≠ 0 := by exact_mod_cast norm_ne_zero_iff.2 hg
  refine ⟨fun i => g i / (g 0 / ‖g 0‖), ?_, ?_, ?_⟩
  · rw [exact_solution h nLra nPower hp start x sol vs g he (norm2_pos (fun i : Fin n => g i) ⟨0, h⟩ hg) hs hx, if_neg hg]
  · intro i j
    have hgc : conj (g 0) ≠ 0 := by simpa using hg
    have hq : g 0 * conj (g 0) = (‖g 0‖ : ℂ) ^ 2 := by
      rw [Complex.mul_conj, Complex.normSq_eq_norm_sq, Complex.ofReal_pow]
    rw [map_div₀, map_div₀, Complex.conj_ofReal]
    field_simp
    rw [← hq]
    ring
  · dsimp only
    field_simp

/-- C218: if the true gain of the first antenna is zero in its first polarization, the solutions of all antennas become
not finite. -/
theorem first_zero (h : 0 < n) (nLra nPower : Nat) (hp : 0 < nPower) (start x : Fin n → ℂ) (sol : Nat) (vs : List Vis)
    (g : Nat → ℂ) (he : Exact sol vs g) (hg : g 0 = 0) (hs : (∑ j : Fin n, conj (g j) * start j) ≠ 0)
    (hx : ∀ i j : Fin n, x i * conj (x j) = g i * conj (g j)) : solveSolution h nLra nPower start x sol vs = none := by
  have hne : ∃ i : Fin n, g i ≠ 0 := by
    by_contra hall
    push Not at hall
    exact hs (Finset.sum_eq_zero fun j _ => by rw [hall j]; simp)
  obtain ⟨i, hi⟩ := hne
  rw [exact_solution h nLra nPower hp start x sol vs g he (norm2_pos (fun i : Fin n => g i) i hi) hs hx, if_pos hg]

end DP3.LowRank
