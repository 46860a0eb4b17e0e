import Verif.IterSolver.Laws
import Mathlib.Algebra.Field.Rat
import Mathlib.Algebra.Order.Ring.Rat

/-!
# Properties of an iteration of the iterative solvers (C88, C89)
-/

namespace DP3.IterSolver

open DP3.StringTools

set_option linter.unusedSectionVars false

section General

variable {V S N D O : Type} [AddCommGroup V] [AddCommMonoid N] [AddCommMonoid D]

theorem exists_direction (nSol : Nat → Nat) : ∀ (n j : Nat), j < firstSol nSol n →
    ∃ d < n, firstSol nSol d ≤ j ∧ j < firstSol nSol d + nSol d := by
  intro n
  induction n with
  | zero => intro j h; simp [firstSol] at h
  | succ n ih =>
    intro j h
    rw [firstSol_succ] at h
    rcases Nat.lt_or_ge j (firstSol nSol n) with h' | h'
    · obtain ⟨d, hd, h1⟩ := ih j h'
      exact ⟨d, by omega, h1⟩
    · exact ⟨n, by omega, h', h⟩

theorem iteration_error (e : Err) (k : Kernel V S N D O) (split : List (Vis V × V) → List (List (Vis V × V)))
    (nAnt nSub : Nat) (nSol : Nat → Nat) (s : Nat → S) (vs : List (Vis V)) (copy : List V) (l : List Nat) :
    l.foldl (iterateDirection k split nAnt nSub nSol s vs copy) (.error e) = .error e := by
  induction l with
  | nil => rfl
  | cons d ds ih => rw [List.foldl_cons]; exact ih

/-- C88. A channel block without visibilities reads outside the table of solution indices; with visibilities
an iteration always succeeds. -/
theorem succeeds_iff (k : Kernel V S N D O) (split : List (Vis V × V) → List (List (Vis V × V)))
    (nAnt nSub nDirs : Nat) (nSol : Nat → Nat) (s : Nat → S) (vs : List (Vis V)) (old : Nat → Nat → O) :
    (∃ next, performIteration k split nAnt nSub nDirs nSol s vs old = .ok next) ↔ vs ≠ [] ∨ nDirs = 0 := by
  constructor
  · rintro ⟨next, h⟩
    cases vs with
    | cons v w => exact Or.inl (by simp)
    | nil =>
      right
      cases nDirs with
      | zero => rfl
      | succ n =>
        rw [performIteration, List.range_succ_eq_map, List.foldl_cons (f := iterateDirection _ _ _ _ _ _ _ _)] at h
        rw [show iterateDirection k split nAnt nSub nSol s [] _ (.ok old) 0 = .error .ub from rfl,
          iteration_error] at h
        cases h
  · intro h
    suffices ∀ (l : List Nat) (copy : List V) (nx : Nat → Nat → O), vs ≠ [] ∨ l = [] → ∃ next,
        l.foldl (iterateDirection k split nAnt nSub nSol s vs copy) (.ok nx) = .ok next by
      refine this _ _ _ (h.imp id ?_)
      rintro rfl; rfl
    intro l copy
    induction l with
    | nil => intro nx _; exact ⟨nx, rfl⟩
    | cons d ds ih =>
      intro nx hv
      have hv' : vs ≠ [] := hv.resolve_right (by simp)
      rw [List.foldl_cons]
      cases vs with
      | nil => exact absurd rfl hv'
      | cons v w => exact ih _ (Or.inl (by simp))

theorem iteration_solved (k : Kernel V S N D O) {split : List (Vis V × V) → List (List (Vis V × V))}
    (hsplit : ∀ l, (split l).flatten.Perm l) {nAnt nSub nDirs : Nat} {nSol : Nat → Nat} {s : Nat → S}
    {vs : List (Vis V)} {old next : Nat → Nat → O} (hl : Layout nAnt nSub nDirs nSol vs)
    (h : performIteration k split nAnt nSub nDirs nSol s vs old = .ok next) :
    (∀ a < nAnt, ∀ d < nDirs, ∀ j, firstSol nSol d ≤ j → j < firstSol nSol d + nSol d →
      next a j = solved k nSub nDirs (nSol d) (firstSol nSol d) s d vs a j) ∧
    (∀ a j, (a ≥ nAnt ∨ j ≥ nSub) → next a j = old a j) := by
  rcases (succeeds_iff k split nAnt nSub nDirs nSol s vs old).mp ⟨next, h⟩ with hne | h0
  · obtain ⟨nx, h1, h2, h3⟩ := iterate_eq k split hsplit hl hne s old nDirs (Nat.le_refl _)
    have h4 : Except.ok nx = Except.ok next := h1.symm.trans h
    cases h4
    rw [hl.total] at h3
    exact ⟨h2, h3⟩
  · subst h0
    have h4 : Except.ok old = Except.ok next := h
    cases h4
    exact ⟨by intro _ _ d hd; omega, fun _ _ _ => rfl⟩

/-- C88. The division of the visibilities over threads makes no difference. -/
theorem threads_irrelevant (k : Kernel V S N D O) {split split' : List (Vis V × V) → List (List (Vis V × V))}
    (hsplit : ∀ l, (split l).flatten.Perm l) (hsplit' : ∀ l, (split' l).flatten.Perm l)
    {nAnt nSub nDirs : Nat} {nSol : Nat → Nat} {s : Nat → S} {vs : List (Vis V)} {old next next' : Nat → Nat → O}
    (hl : Layout nAnt nSub nDirs nSol vs)
    (h : performIteration k split nAnt nSub nDirs nSol s vs old = .ok next)
    (h' : performIteration k split' nAnt nSub nDirs nSol s vs old = .ok next') : next = next' := by
  obtain ⟨h1, h2⟩ := iteration_solved k hsplit hl h
  obtain ⟨h3, h4⟩ := iteration_solved k hsplit' hl h'
  funext a j
  by_cases ha : a < nAnt
  · by_cases hj : j < nSub
    · obtain ⟨d, hd, hd1, hd2⟩ := exists_direction nSol nDirs j (by rw [hl.total]; exact hj)
      rw [h1 a ha d hd j hd1 hd2, h3 a ha d hd j hd1 hd2]
    · rw [h2 a j (by omega), h4 a j (by omega)]
  · rw [h2 a j (by omega), h4 a j (by omega)]

/-- C88. The new solution of an antenna does not depend on its present value: only on those of other antennas
and directions. -/
theorem own_solution_irrelevant (k : Kernel V S N D O) {split : List (Vis V × V) → List (List (Vis V × V))}
    (hsplit : ∀ l, (split l).flatten.Perm l) {nAnt nSub nDirs : Nat} {nSol : Nat → Nat} {s : Nat → S}
    {vs : List (Vis V)} {old next next' : Nat → Nat → O} (hl : Layout nAnt nSub nDirs nSol vs) {a j : Nat}
    (ha : a < nAnt) (hj : j < nSub) (y : S)
    (h : performIteration k split nAnt nSub nDirs nSol s vs old = .ok next)
    (h' : performIteration k split nAnt nSub nDirs nSol (replace s nSub a j y) vs old = .ok next') :
    next' a j = next a j := by
  obtain ⟨d, hd, hd1, hd2⟩ := exists_direction nSol nDirs j (by rw [hl.total]; exact hj)
  rw [(iteration_solved k hsplit hl h).1 a ha d hd j hd1 hd2,
    (iteration_solved k hsplit hl h').1 a ha d hd j hd1 hd2]
  have key : ∀ v ∈ vs,
      numAt k nSub (nSol d) (firstSol nSol d) (replace s nSub a j y) d (a * nSol d + (j - firstSol nSol d))
        (v, base k nSub nDirs (replace s nSub a j y) d v) =
      numAt k nSub (nSol d) (firstSol nSol d) s d (a * nSol d + (j - firstSol nSol d))
        (v, base k nSub nDirs s d v) ∧
      denAt k nSub (nSol d) (firstSol nSol d) (replace s nSub a j y) d (a * nSol d + (j - firstSol nSol d))
        (v, base k nSub nDirs (replace s nSub a j y) d v) =
      denAt k nSub (nSol d) (firstSol nSol d) s d (a * nSol d + (j - firstSol nSol d))
        (v, base k nSub nDirs s d v) := by
    intro v hv
    obtain ⟨-, -, hne⟩ := hl.ants v hv
    have hsol := hl.sols v hv
    have hlt : ∀ e < nDirs, v.sol e < nSub := by
      intro e he
      have := firstSol_mono nSol (Nat.succ_le_of_lt he)
      rw [Nat.succ_eq_add_one, firstSol_succ, hl.total] at this
      have := hsol e he; omega
    have hrep : ∀ b e, e < nDirs → replace s nSub a j y (b * nSub + v.sol e) =
        if b = a ∧ v.sol e = j then y else s (b * nSub + v.sol e) := by
      intro b e he
      simp only [replace, index_inj (hlt e he) hj]
    have hbase : base k nSub nDirs (replace s nSub a j y) d v = base k nSub nDirs s d v := by
      have := sum_range_update (fun e => term k nSub s e v) (fun e => term k nSub (replace s nSub a j y) e v) d
        nDirs hd (by
          intro e he hed
          have hc : v.sol e ≠ j := fun hc => hed (firstSol_disjoint nSol (hc ▸ hsol e he) ⟨hd1, hd2⟩)
          simp only [term]
          rw [hrep _ e he, hrep _ e he, if_neg (fun c => hc c.2), if_neg (fun c => hc c.2)])
      rw [base, base, this]; abel
    have hsd := hsol d hd
    have hidx : ∀ b, (a * nSol d + (j - firstSol nSol d) = b * nSol d + (v.sol d - firstSol nSol d)) ↔
        (a = b ∧ v.sol d = j) := by
      intro b
      rw [index_inj (by omega) (by omega)]
      exact ⟨fun ⟨x, y⟩ => ⟨x, by omega⟩, fun ⟨x, y⟩ => ⟨x, by omega⟩⟩
    simp only [numAt, denAt, hidx, hbase, hrep _ d hd]
    by_cases hsj : v.sol d = j
    · by_cases h1 : v.ant1 = a
      · have h2 : ¬ v.ant2 = a := fun c => hne (h1.trans c.symm)
        have h2' : ¬ a = v.ant2 := fun c => h2 c.symm
        simp [h2, h2']
      · have h1' : ¬ a = v.ant1 := fun c => h1 c.symm
        simp [h1, h1']
    · simp [hsj]
  simp only [solved]
  rw [List.map_congr_left fun v hv => (key v hv).1, List.map_congr_left fun v hv => (key v hv).2]

end General

section LeastSquares

variable {K V S N D O : Type} [Field K] [LinearOrder K] [IsStrictOrderedRing K]
variable [AddCommGroup V] [AddCommMonoid N] [AddCommMonoid D]
variable {k : Kernel V S N D O} {embV : V → M2 K} {embS : S → M2 K} {fill : O → S → S}
  {lin : N → S → K} {quad : D → S → K} {good : D → Prop}

theorem Law.leastSquares (h : Law k embV embS fill lin quad good) : LeastSquares k embV embS fill := by
  intro split hsplit nAnt nSub nDirs nSol s vs old next hl hp a ha j hj y
  obtain ⟨d, hd, hd1, hd2⟩ := exists_direction nSol nDirs j (by rw [hl.total]; exact hj)
  obtain ⟨P, n, q, hq, hs, hm⟩ := misfit_quadratic h hl s (a := a) hd ⟨hd1, hd2⟩
  rw [(iteration_solved k hsplit hl hp).1 a ha d hd j hd1 hd2, hs, hm, hm]
  have h1 := h.minimal n q hq y
  have h2 := h.strict n q hq y
  exact ⟨by linarith, fun h3 => h2 (by linarith)⟩

theorem replace_self (s : Nat → S) (nSub a j : Nat) : replace s nSub a j (s (a * nSub + j)) = s := by
  funext i
  simp only [replace]
  split
  · rename_i h; rw [h]
  · rfl

theorem misfit_nonneg (nSub nDirs : Nat) (s : Nat → S) (vs : List (Vis V)) :
    0 ≤ misfit embV embS nSub nDirs s vs := by
  unfold misfit
  induction vs with
  | nil => simp
  | cons v vs ih => rw [List.map_cons, List.sum_cons]; exact add_nonneg (M2.norm_nonneg _) ih

theorem LeastSquares.keepsExact (h : LeastSquares k embV embS fill) : KeepsExact k embV embS fill := by
  intro split hsplit nAnt nSub nDirs nSol s vs old next hl hp hexact a ha j hj
  refine (h split hsplit nAnt nSub nDirs nSol s vs old next hl hp a ha j hj (s (a * nSub + j))).2 ?_
  rw [replace_self]
  have h0 : misfit embV embS nSub nDirs s vs = 0 := by
    unfold misfit
    have : (vs.map fun v => (embV v.data - predicted embV embS nSub nDirs s v).norm) = vs.map fun _ => (0 : K) :=
      List.map_congr_left fun v hv => by rw [hexact v hv, sub_self, M2.norm_zero]
    rw [this]; simp
  rw [h0]
  exact misfit_nonneg _ _ _ _

end LeastSquares

section Solvers

variable {K : Type} [Field K] [LinearOrder K] [IsStrictOrderedRing K]

/-- C89. The scalar solver on full visibilities. -/
theorem scalarFull_leastSquares : LeastSquares (K := K) scalarFull id scalarMatrix orElse :=
  law_scalarFull.leastSquares

/-- C89. The scalar solver on XX and YY. -/
theorem scalarDuo_leastSquares : LeastSquares (K := K) scalarDuo duoMatrix scalarMatrix orElse :=
  law_scalarDuo.leastSquares

/-- C89. The scalar solver on one polarization. -/
theorem scalarUni_leastSquares : LeastSquares (K := K) scalarUni uniMatrix scalarMatrix orElse :=
  law_scalarUni.leastSquares

/-- C89. The diagonal solver on full visibilities. -/
theorem diagonalFull_leastSquares : LeastSquares (K := K) diagonalFull id duoMatrix orElse2 :=
  law_diagonalFull.leastSquares

/-- C89. The diagonal solver on XX and YY. -/
theorem diagonalDuo_leastSquares : LeastSquares (K := K) diagonalDuo duoMatrix duoMatrix orElse2 :=
  law_diagonalDuo.leastSquares

/-- C89. The full Jones solver. -/
theorem fullJones_leastSquares : LeastSquares (K := K) fullJones id id orElse :=
  law_fullJones.leastSquares

/-- C88. Exact solutions are kept by every solver. -/
theorem exact_solutions_kept :
    KeepsExact (K := K) scalarFull id scalarMatrix orElse ∧
    KeepsExact (K := K) scalarDuo duoMatrix scalarMatrix orElse ∧
    KeepsExact (K := K) scalarUni uniMatrix scalarMatrix orElse ∧
    KeepsExact (K := K) diagonalFull id duoMatrix orElse2 ∧
    KeepsExact (K := K) diagonalDuo duoMatrix duoMatrix orElse2 ∧
    KeepsExact (K := K) fullJones id id orElse :=
  ⟨scalarFull_leastSquares.keepsExact, scalarDuo_leastSquares.keepsExact, scalarUni_leastSquares.keepsExact,
    diagonalFull_leastSquares.keepsExact, diagonalDuo_leastSquares.keepsExact, fullJones_leastSquares.keepsExact⟩

/-- A linear function that is bounded below is zero. -/
theorem linS_bounded (n : Cx K) (P : K) (h : ∀ y, 0 ≤ P - linS n y) : n = 0 := by
  have h1 := h ⟨n.re * (P + 1), n.im * (P + 1)⟩
  have h0 := h 0
  simp only [linS, Cx.zero_re, Cx.zero_im, zero_mul, add_zero, mul_zero, sub_zero] at h0 h1
  by_contra hn
  have hpos : 0 < n.normSq := lt_of_le_of_ne (Cx.normSq_nonneg n) fun c => hn (Cx.normSq_eq_zero.mp c.symm)
  have h2 := h ⟨n.re * ((P + 1) / n.normSq), n.im * ((P + 1) / n.normSq)⟩
  have e : linS n ⟨n.re * ((P + 1) / n.normSq), n.im * ((P + 1) / n.normSq)⟩ = 2 * (P + 1) := by
    have : linS n ⟨n.re * ((P + 1) / n.normSq), n.im * ((P + 1) / n.normSq)⟩ =
        2 * ((P + 1) / n.normSq * n.normSq) := by simp only [linS, Cx.normSq]; ring
    rw [this, div_mul_cancel₀ _ hpos.ne']
  rw [e] at h2
  linarith

/-- C89. For a scalar solver: the solution is NaN exactly when the misfit does not depend on it. -/
theorem Law.nan_iff {V : Type} [AddCommGroup V] {k : Kernel V (Cx K) (Cx K) K (Option (Cx K))} {embV : V → M2 K}
    {embS : Cx K → M2 K} (h : Law k embV embS orElse linS quadS (0 ≤ ·)) (hfin : k.finish = finishScalar)
    {split : List (Vis V × V) → List (List (Vis V × V))}
    (hsplit : ∀ l, (split l).flatten.Perm l) {nAnt nSub nDirs : Nat} {nSol : Nat → Nat} {s : Nat → Cx K}
    {vs : List (Vis V)} {old next : Nat → Nat → Option (Cx K)} (hl : Layout nAnt nSub nDirs nSol vs)
    (hp : performIteration k split nAnt nSub nDirs nSol s vs old = .ok next) {a j : Nat} (ha : a < nAnt)
    (hj : j < nSub) :
    next a j = none ↔ ∀ y y', misfit embV embS nSub nDirs (replace s nSub a j y) vs =
      misfit embV embS nSub nDirs (replace s nSub a j y') vs := by
  obtain ⟨d, hd, hd1, hd2⟩ := exists_direction nSol nDirs j (by rw [hl.total]; exact hj)
  obtain ⟨P, n, q, hq, hs, hm⟩ := misfit_quadratic h hl s (a := a) hd ⟨hd1, hd2⟩
  rw [(iteration_solved k hsplit hl hp).1 a ha d hd j hd1 hd2, hs, hfin]
  constructor
  · intro hn y y'
    have hq0 : q = 0 := by
      unfold finishScalar at hn
      split at hn
      · assumption
      · cases hn
    have hn0 : n = 0 := by
      refine linS_bounded n P fun z => ?_
      have h1 := hm z
      have h2 := misfit_nonneg (embV := embV) (embS := embS) nSub nDirs (replace s nSub a j z) vs
      rw [h1, hq0, h.quad_zero] at h2
      linarith
    rw [hm, hm, hq0, hn0, h.quad_zero, h.quad_zero, h.lin_zero, h.lin_zero]
  · intro he
    by_contra hne
    obtain ⟨x, hx⟩ := Option.ne_none_iff_exists'.mp hne
    have h1 := h.strict n q hq (x + 1)
    rw [hfin, hx] at h1
    have h2 := he (x + 1) x
    rw [hm, hm] at h2
    have h3 : x = x + 1 := h1 (by simp only [orElse, Option.getD_some]; linarith)
    exact absurd (left_eq_add.mp h3) (fun c => one_ne_zero (congrArg Cx.re c))

/-- C89. NaN, for the scalar solver on full visibilities. -/
theorem scalarFull_nan_iff {split : List (Vis (M2 K) × M2 K) → List (List (Vis (M2 K) × M2 K))}
    (hsplit : ∀ l, (split l).flatten.Perm l) {nAnt nSub nDirs : Nat} {nSol : Nat → Nat} {s : Nat → Cx K}
    {vs : List (Vis (M2 K))} {old next : Nat → Nat → Option (Cx K)} (hl : Layout nAnt nSub nDirs nSol vs)
    (hp : performIteration scalarFull split nAnt nSub nDirs nSol s vs old = .ok next) {a j : Nat} (ha : a < nAnt)
    (hj : j < nSub) :
    next a j = none ↔ ∀ y y', misfit id scalarMatrix nSub nDirs (replace s nSub a j y) vs =
      misfit id scalarMatrix nSub nDirs (replace s nSub a j y') vs :=
  law_scalarFull.nan_iff rfl hsplit hl hp ha hj

/-- C89. NaN, for the scalar solver on XX and YY. -/
theorem scalarDuo_nan_iff {split : List (Vis (D2 K) × D2 K) → List (List (Vis (D2 K) × D2 K))}
    (hsplit : ∀ l, (split l).flatten.Perm l) {nAnt nSub nDirs : Nat} {nSol : Nat → Nat} {s : Nat → Cx K}
    {vs : List (Vis (D2 K))} {old next : Nat → Nat → Option (Cx K)} (hl : Layout nAnt nSub nDirs nSol vs)
    (hp : performIteration scalarDuo split nAnt nSub nDirs nSol s vs old = .ok next) {a j : Nat} (ha : a < nAnt)
    (hj : j < nSub) :
    next a j = none ↔ ∀ y y', misfit duoMatrix scalarMatrix nSub nDirs (replace s nSub a j y) vs =
      misfit duoMatrix scalarMatrix nSub nDirs (replace s nSub a j y') vs :=
  law_scalarDuo.nan_iff rfl hsplit hl hp ha hj

/-- C89. NaN, for the scalar solver on one polarization. -/
theorem scalarUni_nan_iff {split : List (Vis (Cx K) × Cx K) → List (List (Vis (Cx K) × Cx K))}
    (hsplit : ∀ l, (split l).flatten.Perm l) {nAnt nSub nDirs : Nat} {nSol : Nat → Nat} {s : Nat → Cx K}
    {vs : List (Vis (Cx K))} {old next : Nat → Nat → Option (Cx K)} (hl : Layout nAnt nSub nDirs nSol vs)
    (hp : performIteration scalarUni split nAnt nSub nDirs nSol s vs old = .ok next) {a j : Nat} (ha : a < nAnt)
    (hj : j < nSub) :
    next a j = none ↔ ∀ y y', misfit uniMatrix scalarMatrix nSub nDirs (replace s nSub a j y) vs =
      misfit uniMatrix scalarMatrix nSub nDirs (replace s nSub a j y') vs :=
  law_scalarUni.nan_iff rfl hsplit hl hp ha hj

end Solvers

/-! ## An example: three antennas, two directions, the second with two solutions -/

section Example

/-- Visibilities of three antennas in two intervals; antenna 2 has no model data in the second interval. -/
def exVis : List (Vis (Cx ℚ)) :=
  [⟨⟨5, 1⟩, 0, 1, fun d => if d = 0 then ⟨2, 0⟩ else ⟨1, 1⟩, fun d => d⟩,
   ⟨⟨3, -2⟩, 0, 2, fun d => if d = 0 then ⟨1, 0⟩ else ⟨0, 1⟩, fun d => d⟩,
   ⟨⟨1, 4⟩, 0, 1, fun d => if d = 0 then ⟨2, 0⟩ else ⟨1, -1⟩, fun d => 2 * d⟩,
   ⟨⟨2, 2⟩, 1, 2, fun d => if d = 0 then ⟨1, 1⟩ else ⟨0, 0⟩, fun d => 2 * d⟩]

/-- One solution in the first direction, two in the second. -/
def exSol : Nat → Nat := fun d => d + 1

theorem exLayout : Layout 3 3 2 exSol exVis where
  ants := by decide
  sols := by
    intro v hv d hd
    have hd' : d = 0 ∨ d = 1 := by omega
    simp only [exVis, List.mem_cons, List.not_mem_nil, or_false] at hv
    rcases hv with rfl | rfl | rfl | rfl <;> rcases hd' with rfl | rfl <;> decide
  first := by
    intro v hv d hd
    have hd' : d = 0 ∨ d = 1 := by omega
    cases hv
    rcases hd' with rfl | rfl <;> decide
  total := by decide

/-- Two threads that each take half of the visibilities. -/
def exSplit {A : Type} (l : List A) : List (List A) := [l.drop (l.length / 2), l.take (l.length / 2)]

theorem exSplit_perm {A : Type} (l : List A) : (exSplit l).flatten.Perm l := by
  simp only [exSplit, List.flatten_cons, List.flatten_nil, List.append_nil]
  exact List.perm_append_comm.trans (by rw [List.take_append_drop])

/-- The iteration succeeds; the last antenna has no solution in the second interval of direction 1. -/
example : ∃ next, performIteration scalarUni exSplit 3 3 2 exSol (fun _ => 1) exVis (fun _ _ => none) = .ok next ∧
    next 2 2 = none ∧ next 1 2 = some ⟨-5 / 2, -3 / 2⟩ ∧ next 2 0 = some ⟨(7 : ℚ) / 3, 1⟩ := by
  refine ⟨_, rfl, ?_⟩
  decide +kernel

/-- The same visibilities as elements of full matrices, for the full Jones solver: three different baselines
make the denominator of an antenna regular. -/
def exFull : List (Vis (M2 ℚ)) :=
  [⟨⟨⟨4, 0⟩, ⟨0, 0⟩, ⟨0, 0⟩, ⟨6, 0⟩⟩, 0, 1, fun _ => ⟨⟨2, 0⟩, ⟨0, 0⟩, ⟨0, 0⟩, ⟨3, 0⟩⟩, fun d => d⟩,
   ⟨⟨⟨0, 1⟩, ⟨2, 0⟩, ⟨0, 0⟩, ⟨1, 0⟩⟩, 0, 1, fun _ => ⟨⟨1, 0⟩, ⟨0, 1⟩, ⟨0, 0⟩, ⟨1, 0⟩⟩, fun d => d⟩]

example : ∃ next, performIteration fullJones exSplit 2 1 1 (fun _ => 1) (fun _ => 1) exFull (fun _ _ => none) =
    .ok next ∧ next 0 0 ≠ none ∧ next 1 0 ≠ none := by
  refine ⟨_, rfl, ?_⟩
  decide +kernel

/-- Exact solutions: data equal to the model with unit solutions. -/
example : ∃ next, performIteration diagonalFull exSplit 2 1 1 (fun _ => 1) (fun _ => ⟨1, 1⟩)
    (exFull.map fun v => { v with data := v.model 0 }) (fun _ _ => (none, none)) = .ok next ∧
    next 0 0 = (some ⟨1, 0⟩, some ⟨1, 0⟩) := by
  refine ⟨_, rfl, ?_⟩
  decide +kernel

/-- A channel block without visibilities. -/
theorem empty_block_undefined :
    performIteration (scalarUni (K := ℚ)) exSplit 3 3 2 exSol (fun _ => 1) [] (fun _ _ => none) = .error .ub := rfl

end Example

end DP3.IterSolver
