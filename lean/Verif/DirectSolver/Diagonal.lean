import Verif.DirectSolver.Rows

/-!
# The linear systems of the diagonal solver
-/

namespace DP3.DirectSolver

set_option linter.unusedSectionVars false
set_option linter.unusedSimpArgs false

variable {K : Type} [CommRing K]

/-- A row for the first antenna. -/
def diagonalRow1 (n : Nat) (sols : Nat → Cx K) (v : Vis K) (p : Nat) : Row K :=
  ⟨fun c => (sols ((v.ant2 * n + c) * 2 + p % 2)).conj * get (v.model c) p, fun _ => get v.data p⟩

/-- A row for the second antenna. -/
def diagonalRow2 (n : Nat) (sols : Nat → Cx K) (v : Vis K) (p : Nat) : Row K :=
  ⟨fun c => (sols ((v.ant1 * n + c) * 2 + p / 2) * get (v.model c) p).conj, fun _ => (get v.data p).conj⟩

/-- The rows of a correlation for an antenna and polarization. -/
def diagonalRows (n : Nat) (sols : Nat → Cx K) (k : Vis K × Nat) (t : Nat) : List (Row K) :=
  if t = k.1.ant1 * 2 + k.2 / 2 then [diagonalRow1 n sols k.1 k.2]
  else if t = k.1.ant2 * 2 + k.2 % 2 then [diagonalRow2 n sols k.1 k.2] else []

/-- The correlations in the order of the loops. -/
def correlations (vis : List (Vis K)) : List (Vis K × Nat) := vis.flatMap fun v => [0, 1, 2, 3].map fun p => (v, p)

theorem mem_correlations {vis : List (Vis K)} {k : Vis K × Nat} (h : k ∈ correlations vis) : k.1 ∈ vis ∧ k.2 < 4 := by
  simp only [correlations, List.mem_flatMap, List.map_cons, List.map_nil, List.mem_cons, List.not_mem_nil,
    or_false] at h
  obtain ⟨v, hv, rfl | rfl | rfl | rfl⟩ := h <;> exact ⟨hv, by simp⟩

theorem slots_ne (a b p : Nat) (hp : p < 4) (h : a ≠ b) : a * 2 + p / 2 ≠ b * 2 + p % 2 := by omega

theorem diagonal_bumps (k : Vis K × Nat) (n : Nat) (sols : Nat → Cx K)
    (hs : k.1.ant1 * 2 + k.2 / 2 ≠ k.1.ant2 * 2 + k.2 % 2) (pos : Nat → Nat) (t : Nat) :
    ([(k.1.ant1 * 2 + k.2 / 2, 1), (k.1.ant2 * 2 + k.2 % 2, 1)].foldl bump pos t) * 1 =
      pos t * 1 + (diagonalRows n sols k t).length := by
  simp only [List.foldl_cons, List.foldl_nil, bump, diagonalRows]
  by_cases h1 : t = k.1.ant1 * 2 + k.2 / 2
  · rw [if_neg (by rw [h1]; exact hs), if_pos h1, if_pos h1]; simp
  · by_cases h2 : t = k.1.ant2 * 2 + k.2 % 2
    · rw [if_pos h2, if_neg h1, if_neg h1, if_pos h2]; simp
    · rw [if_neg h2, if_neg h1, if_neg h1, if_neg h2]; simp

theorem diagonalRhs_good (k : Vis K × Nat) (n : Nat) (sols : Nat → Cx K)
    (hs : k.1.ant1 * 2 + k.2 / 2 ≠ k.1.ant2 * 2 + k.2 % 2) :
    Good 1 (fun k => diagonalRhs k.1 k.2) (fun k t => (diagonalRows n sols k t).map Row.rhs) (fun c => c < 1) k where
  bumps pos t := by rw [List.length_map]; exact diagonal_bumps k n sols hs pos t
  sound pos w hw := by
    simp only [diagonalRhs, List.mem_cons, List.not_mem_nil, or_false] at hw
    rcases hw with rfl | rfl <;>
      refine ⟨Nat.lt_one_iff.mpr rfl, 0, by simp, ?_⟩ <;>
      simp [diagonalRows, diagonalRow1, diagonalRow2, hs, hs.symm]
  cover pos t i hi c hc := by
    have hc : c = 0 := by omega
    subst hc
    simp only [diagonalRows] at hi
    split_ifs at hi with h1 h2
    · subst h1
      have : i = 0 := by simpa using hi
      subst this
      exact ⟨_, List.mem_cons_self, rfl, by simp, rfl⟩
    · subst h2
      have : i = 0 := by simpa using hi
      subst this
      exact ⟨_, List.mem_cons_of_mem _ List.mem_cons_self, rfl, by simp, rfl⟩
    · simp at hi

theorem diagonalLhs_good (k : Vis K × Nat) (n s : Nat) (sols : Nat → Cx K)
    (hs : k.1.ant1 * 2 + k.2 / 2 ≠ k.1.ant2 * 2 + k.2 % 2) :
    Good 1 (fun k => diagonalLhs n sols s k.1 k.2) (fun k t => (diagonalRows n sols k t).map Row.lhs)
      (fun c => c / 1 = s) k where
  bumps pos t := by rw [List.length_map]; exact diagonal_bumps k n sols hs pos t
  sound pos w hw := by
    simp only [diagonalLhs, List.mem_cons, List.not_mem_nil, or_false] at hw
    rcases hw with rfl | rfl <;>
      refine ⟨Nat.div_one _, 0, by simp, ?_⟩ <;>
      simp [diagonalRows, diagonalRow1, diagonalRow2, hs, hs.symm]
  cover pos t i hi c hc := by
    rw [Nat.div_one] at hc
    subst hc
    simp only [diagonalRows] at hi
    split_ifs at hi with h1 h2
    · subst h1
      have : i = 0 := by simpa using hi
      subst this
      exact ⟨_, List.mem_cons_self, rfl, by simp, rfl⟩
    · subst h2
      have : i = 0 := by simpa using hi
      subst this
      exact ⟨_, List.mem_cons_of_mem _ List.mem_cons_self, rfl, by simp, rfl⟩
    · simp at hi

/-- The rows of a visibility for an antenna and polarization. -/
def diagonalVisRows (n : Nat) (sols : Nat → Cx K) (v : Vis K) (t : Nat) : List (Row K) :=
  [0, 1, 2, 3].flatMap fun p => diagonalRows n sols (v, p) t

theorem rows_of_correlations (vis : List (Vis K)) (n : Nat) (sols : Nat → Cx K) (t : Nat) :
    ((correlations vis).flatMap fun k => diagonalRows n sols k t) = vis.flatMap fun v => diagonalVisRows n sols v t := by
  unfold correlations diagonalVisRows
  induction vis with
  | nil => rfl
  | cons v vis ih => rw [List.flatMap_cons, List.flatMap_append, ih, List.flatMap_cons]; rfl

/-- The rows of a visibility, by case. -/
theorem diagonalVisRows_first (n : Nat) (sols : Nat → Cx K) (v : Vis K) (pol : Nat) (hp : pol < 2)
    (hne : v.ant1 ≠ v.ant2) :
    diagonalVisRows n sols v (v.ant1 * 2 + pol) =
      [diagonalRow1 n sols v (pol * 2), diagonalRow1 n sols v (pol * 2 + 1)] := by
  have : pol = 0 ∨ pol = 1 := by omega
  rcases this with rfl | rfl
  all_goals
    simp only [diagonalVisRows, diagonalRows, List.flatMap_cons, List.flatMap_nil]
    have h1 : ¬ v.ant1 * 2 = v.ant2 * 2 := by omega
    have h2 : ¬ v.ant1 * 2 = v.ant2 * 2 + 1 := by omega
    have h3 : ¬ v.ant1 * 2 + 1 = v.ant2 * 2 := by omega
    have h4 : ¬ v.ant1 * 2 + 1 = v.ant2 * 2 + 1 := by omega
    simp [h1, h2, h3, h4, hne]

theorem diagonalVisRows_second (n : Nat) (sols : Nat → Cx K) (v : Vis K) (pol : Nat) (hp : pol < 2)
    (hne : v.ant1 ≠ v.ant2) :
    diagonalVisRows n sols v (v.ant2 * 2 + pol) =
      [diagonalRow2 n sols v pol, diagonalRow2 n sols v (pol + 2)] := by
  have : pol = 0 ∨ pol = 1 := by omega
  rcases this with rfl | rfl
  all_goals
    simp only [diagonalVisRows, diagonalRows, List.flatMap_cons, List.flatMap_nil]
    have h1 : ¬ v.ant2 * 2 = v.ant1 * 2 := by omega
    have h2 : ¬ v.ant2 * 2 = v.ant1 * 2 + 1 := by omega
    have h3 : ¬ v.ant2 * 2 + 1 = v.ant1 * 2 := by omega
    have h4 : ¬ v.ant2 * 2 + 1 = v.ant1 * 2 + 1 := by omega
    simp [h1, h2, h3, h4, hne.symm]

theorem diagonalVisRows_other (n : Nat) (sols : Nat → Cx K) (v : Vis K) (a pol : Nat) (hp : pol < 2)
    (h1 : v.ant1 ≠ a) (h2 : v.ant2 ≠ a) : diagonalVisRows n sols v (a * 2 + pol) = [] := by
  unfold diagonalVisRows
  rw [List.flatMap_eq_nil_iff]
  intro p hp'
  have hp' : p < 4 := by
    simp only [List.mem_cons, List.not_mem_nil, or_false] at hp'
    omega
  unfold diagonalRows
  rw [if_neg (show ¬ a * 2 + pol = v.ant1 * 2 + p / 2 by omega),
    if_neg (show ¬ a * 2 + pol = v.ant2 * 2 + p % 2 by omega)]

theorem diagonalRows_length (vis : List (Vis K)) (nAnt n : Nat) (sols : Nat → Cx K) (hl : Layout nAnt vis) (t : Nat) :
    ((correlations vis).flatMap fun k => diagonalRows n sols k t).length = nAntennaVis vis (t / 2) * 2 := by
  rw [rows_of_correlations]
  refine rows_length vis 2 (t / 2) _ ?_
  intro v hv
  have hne := (hl v hv).2.2
  have ht : t = t / 2 * 2 + t % 2 := by omega
  have hm : t % 2 < 2 := Nat.mod_lt _ (by decide)
  by_cases h1 : v.ant1 = t / 2
  · rw [ht, ← h1, diagonalVisRows_first n sols v _ hm hne]
    rw [if_pos (by omega), if_neg (by omega)]
    rfl
  · by_cases h2 : v.ant2 = t / 2
    · rw [ht, ← h2, diagonalVisRows_second n sols v _ hm hne]
      rw [if_neg (by omega), if_pos (by omega)]
      rfl
    · rw [if_neg h1, if_neg h2]
      rw [ht, diagonalVisRows_other n sols v _ _ hm h1 h2]
      rfl

theorem diagonalRows_slots (vis : List (Vis K)) (nAnt n : Nat) (sols : Nat → Cx K) (hl : Layout nAnt vis) (t : Nat)
    (h : ((correlations vis).flatMap fun k => diagonalRows n sols k t) ≠ []) : t < nAnt * 2 := by
  rw [Ne, List.flatMap_eq_nil_iff] at h
  push Not at h
  obtain ⟨k, hk, h⟩ := h
  obtain ⟨hv, hp⟩ := mem_correlations hk
  have := hl k.1 hv
  unfold diagonalRows at h
  split_ifs at h with h1 h2
  · omega
  · omega
  · exact absurd rfl h

/-- The matrices of the diagonal solver: no assignment is outside a matrix, and the residuals are those of the
rows. -/
theorem diagonalFill_spec (vis : List (Vis K)) (nAnt n : Nat) (sols : Nat → Cx K) (hl : Layout nAnt vis) :
    ∃ gs vs, diagonalFill nAnt n vis sols = some (gs, vs) ∧
      (∀ t (i : Nat) r, (vis.flatMap fun v => diagonalVisRows n sols v t)[i]? = some r → ∀ c < n,
        gs.val t (i + c * (nAntennaVis vis (t / 2) * 2)) = r.lhs c) ∧
      ∀ t ldx x, residual (nAntennaVis vis (t / 2) * 2) n 1 (max (nAntennaVis vis (t / 2) * 2) n) ldx (gs.val t)
        (vs.val t) x = ((vis.flatMap fun v => diagonalVisRows n sols v t).map (rowCost n 1 ldx x)).sum := by
  have hlen := diagonalRows_length vis nAnt n sols hl
  have hne : ∀ k ∈ correlations vis, k.1.ant1 * 2 + k.2 / 2 ≠ k.1.ant2 * 2 + k.2 % 2 := fun k hk =>
    slots_ne _ _ _ (mem_correlations hk).2 (hl k.1 (mem_correlations hk).1).2.2
  have hl' : ∀ (f : Row K → Nat → Cx K) t, ((correlations vis).flatMap fun k => (diagonalRows n sols k t).map f) =
      ((correlations vis).flatMap fun k => diagonalRows n sols k t).map f := by
    intro f t; rw [List.map_flatMap]
  have hb : ∀ f : Vis K → Nat → Body K, (vis.flatMap fun v => [0, 1, 2, 3].map (f v)) =
      (correlations vis).map fun k => f k.1 k.2 := by
    intro f
    unfold correlations
    rw [List.map_flatMap]
    rfl
  obtain ⟨vs, hvs, hvr, hvv⟩ := filled_once (u := 1) (nAnt * 2) (fun t => max (nAntennaVis vis (t / 2) * 2) n) 1
    (correlations vis) (fun k => diagonalRhs k.1 k.2)
    (fun k t => (diagonalRows n sols k t).map Row.rhs) (fun k hk => diagonalRhs_good k n sols (hne k hk))
    (by intro t; rw [hl', List.length_map, hlen]; exact Nat.le_max_left _ _)
    (by intro t h; refine diagonalRows_slots vis nAnt n sols hl t ?_; intro h'; rw [hl', h'] at h; exact h rfl)
  obtain ⟨gs, hgs, hgr, hgv⟩ := filled_bodies (u := 1) (w := 1) Nat.one_pos (nAnt * 2)
    (fun t => nAntennaVis vis (t / 2) * 2) n
    (correlations vis) (fun s k => diagonalLhs n sols s k.1 k.2)
    (fun k t => (diagonalRows n sols k t).map Row.lhs) (fun s _ k hk => diagonalLhs_good k n s sols (hne k hk))
    (by intro t; rw [hl', List.length_map, hlen])
    (by intro t h; refine diagonalRows_slots vis nAnt n sols hl t ?_; intro h'; rw [hl', h'] at h; exact h rfl)
  rw [Nat.mul_one] at hgs hgv
  have hA : ∀ t (i : Nat) r, (vis.flatMap fun v => diagonalVisRows n sols v t)[i]? = some r → ∀ c < n,
      gs.val t (i + c * (nAntennaVis vis (t / 2) * 2)) = r.lhs c := by
    intro t i r hr c hc
    refine hgv t i r.lhs ?_ c hc
    rw [hl', List.getElem?_map, rows_of_correlations, hr]; rfl
  refine ⟨gs, vs, ?_, hA, ?_⟩
  · unfold diagonalFill
    simp only [Option.bind_eq_bind, hb]
    rw [hvs, Option.bind_some, hgs]; rfl
  · intro t ldx x
    simp only [rows_of_correlations] at hlen
    rw [← residual_rows n 1 (max (nAntennaVis vis (t / 2) * 2) n) ldx (gs.val t) (vs.val t) x
      (vis.flatMap fun v => diagonalVisRows n sols v t), hlen]
    · rw [hlen]; exact hA t
    · intro i r hr j hj
      refine hvv t i r.rhs ?_ j hj
      rw [hl', List.getElem?_map, rows_of_correlations, hr]; rfl

/-- The rows of both polarizations, each with its own unknowns. -/
def bothRows (n : Nat) (sols : Nat → Cx K) (v : Vis K) (a : Nat) : List (Nat × Row K) :=
  (diagonalVisRows n sols v (a * 2)).map (fun r => (0, r)) ++ (diagonalVisRows n sols v (a * 2 + 1)).map fun r => (1, r)

/-- The squared difference of a visibility is that of its rows, for both polarizations. -/
theorem diagonal_vis (n : Nat) (sols : Nat → Cx K) (v : Vis K) (a ldx : Nat) (g : Nat → Nat → Cx K)
    (hne : v.ant1 ≠ v.ant2) (h : v.ant1 = a ∨ v.ant2 = a) :
    (v.data - predicted n (withAntenna (diagonalJones n sols) a fun s => diagonalMatrix (g 0 s) (g 1 s)) v).norm =
      ((diagonalVisRows n sols v (a * 2)).map (rowCost n 1 ldx (g 0))).sum +
      ((diagonalVisRows n sols v (a * 2 + 1)).map (rowCost n 1 ldx (g 1))).sum := by
  have hpred : ∀ x x' y y' : Nat → Cx K, ((List.range n).map fun s =>
      diagonalMatrix (x s) (x' s) * v.model s * (diagonalMatrix (y s) (y' s)).herm).sum =
      ⟨((List.range n).map fun s => x s * (v.model s).a * (y s).conj).sum,
        ((List.range n).map fun s => x s * (v.model s).b * (y' s).conj).sum,
        ((List.range n).map fun s => x' s * (v.model s).c * (y s).conj).sum,
        ((List.range n).map fun s => x' s * (v.model s).d * (y' s).conj).sum⟩ := by
    intro x x' y y'
    refine M2.ext ?_ ?_ ?_ ?_ <;> simp only [sum_a, sum_b, sum_c, sum_d, List.map_map] <;>
      refine sum_congr _ _ _ fun s _ => ?_ <;> simp [diagonalMatrix, M2.herm, Function.comp]
  have key1 : ∀ (d : Cx K) (f : M2 K → Cx K) (g y : Nat → Cx K),
      (d - ((List.range n).map fun s => g s * f (v.model s) * (y s).conj).sum).normSq =
      (d - ((List.range n).map fun s => (y s).conj * f (v.model s) * g s).sum).normSq := by
    intro d f g y
    congr 2
    exact sum_congr _ _ _ fun s _ => by ring
  have key2 : ∀ (d : Cx K) (f : M2 K → Cx K) (g x : Nat → Cx K),
      (d - ((List.range n).map fun s => x s * f (v.model s) * (g s).conj).sum).normSq =
      (d.conj - ((List.range n).map fun s => (x s * f (v.model s)).conj * g s).sum).normSq := by
    intro d f g x
    rw [← Cx.normSq_conj, Cx.conj_sub, conj_sum, List.map_map]
    congr 2
    refine sum_congr _ _ _ fun s _ => ?_
    simp [Function.comp, Cx.conj_mul]
  unfold predicted withAntenna diagonalJones
  by_cases h1 : a = v.ant1
  · subst h1
    simp only [if_true, hne.symm, if_false]
    have e0 := diagonalVisRows_first n sols v 0 (by decide) hne
    have e1 := diagonalVisRows_first n sols v 1 (by decide) hne
    rw [Nat.add_zero] at e0
    rw [hpred, e0, e1]
    simp only [List.map_cons, List.map_nil, List.sum_cons, List.sum_nil, rowCost, diagonalRow1, get, M2.norm, M2.sub_a,
      M2.sub_b, M2.sub_c, M2.sub_d, List.range_one, Nat.zero_mul, Nat.add_zero, Nat.zero_mod, Nat.zero_add,
      Nat.one_mul, Nat.mod_self, show 1 % 2 = 1 from rfl, show (2 + 1) % 2 = 1 from rfl]
    rw [key1 _ M2.a, key1 _ M2.b, key1 _ M2.c, key1 _ M2.d]
    ring
  · have h2 : a = v.ant2 := by
      rcases h with h | h
      · exact absurd h.symm h1
      · exact h.symm
    subst h2
    simp only [if_true, hne, if_false]
    have e0 := diagonalVisRows_second n sols v 0 (by decide) hne
    have e1 := diagonalVisRows_second n sols v 1 (by decide) hne
    rw [Nat.add_zero] at e0
    rw [hpred, e0, e1]
    simp only [List.map_cons, List.map_nil, List.sum_cons, List.sum_nil, rowCost, diagonalRow2, get, M2.norm, M2.sub_a,
      M2.sub_b, M2.sub_c, M2.sub_d, List.range_one, Nat.zero_mul, Nat.add_zero, Nat.zero_div, Nat.zero_add,
      show 1 / 2 = 0 from rfl, show 2 / 2 = 1 from rfl, show (1 + 2) / 2 = 1 from rfl]
    rw [key2 _ M2.a, key2 _ M2.b, key2 _ M2.c, key2 _ M2.d]
    ring

/-- The misfit as a function of the solutions of one antenna. -/
theorem diagonal_misfit (vis : List (Vis K)) (nAnt n : Nat) (sols : Nat → Cx K) (hl : Layout nAnt vis) (a ldx : Nat)
    (g : Nat → Nat → Cx K) :
    misfit n (withAntenna (diagonalJones n sols) a fun s => diagonalMatrix (g 0 s) (g 1 s)) vis =
      ((vis.flatMap fun v => diagonalVisRows n sols v (a * 2)).map (rowCost n 1 ldx (g 0))).sum +
      ((vis.flatMap fun v => diagonalVisRows n sols v (a * 2 + 1)).map (rowCost n 1 ldx (g 1))).sum +
      misfit n (diagonalJones n sols) (vis.filter fun v => ! (decide (v.ant1 = a) || decide (v.ant2 = a))) := by
  rw [misfit_rows n (diagonalJones n sols) vis a (fun s => diagonalMatrix (g 0 s) (g 1 s))
    (fun v => bothRows n sols v a) (fun r => rowCost n 1 ldx (g r.1) r.2)]
  · rw [sum_flatMap, sum_flatMap, sum_flatMap, ← sum_add]
    congr 1
    refine sum_congr _ _ _ fun v _ => ?_
    unfold bothRows
    rw [List.map_append, List.sum_append, List.map_map, List.map_map]
    rfl
  · intro v hv h
    rw [diagonal_vis n sols v a ldx g (hl v hv).2.2 h]
    unfold bothRows
    rw [List.map_append, List.sum_append, List.map_map, List.map_map]
    rfl
  · intro v _ h
    rw [not_or] at h
    have e0 := diagonalVisRows_other n sols v a 0 (by decide) h.1 h.2
    have e1 := diagonalVisRows_other n sols v a 1 (by decide) h.1 h.2
    rw [Nat.add_zero] at e0
    unfold bothRows
    rw [e0, e1]
    rfl

end DP3.DirectSolver
