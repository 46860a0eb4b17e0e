import Verif.DirectSolver.Rows

/-!
# The linear systems of the full-Jones solver
-/

namespace DP3.DirectSolver

set_option linter.unusedSectionVars false
set_option linter.unusedSimpArgs false

variable {K : Type} [CommRing K]

/-- A row for the first antenna, `r` being zero or one. -/
def fullRow1 (n : Nat) (sols : Nat → Cx K) (v : Vis K) (r : Nat) : Row K :=
  ⟨fun c => get (jonesAt sols (v.ant2 * n + c / 2) * (v.model (c / 2)).herm) (r * 2 + c % 2),
    fun j => get v.data.herm (r * 2 + j)⟩

/-- A row for the second antenna. -/
def fullRow2 (n : Nat) (sols : Nat → Cx K) (v : Vis K) (r : Nat) : Row K :=
  ⟨fun c => get (jonesAt sols (v.ant1 * n + c / 2) * v.model (c / 2)) (r * 2 + c % 2), fun j => get v.data (r * 2 + j)⟩

/-- The rows of a visibility for an antenna. -/
def fullRows (n : Nat) (sols : Nat → Cx K) (v : Vis K) (t : Nat) : List (Row K) :=
  if t = v.ant1 then [fullRow1 n sols v 0, fullRow1 n sols v 1]
  else if t = v.ant2 then [fullRow2 n sols v 0, fullRow2 n sols v 1] else []

theorem full_bumps (v : Vis K) (n : Nat) (sols : Nat → Cx K) (hv : v.ant1 ≠ v.ant2) (pos : Nat → Nat) (t : Nat) :
    ([(v.ant1, 2), (v.ant2, 2)].foldl bump pos t) * 1 = pos t * 1 + (fullRows n sols v t).length := by
  simp only [List.foldl_cons, List.foldl_nil, bump, fullRows]
  by_cases h1 : t = v.ant1
  · rw [if_neg (by rw [h1]; exact hv), if_pos h1, if_pos h1]; simp
  · by_cases h2 : t = v.ant2
    · rw [if_pos h2, if_neg h1, if_neg h1, if_pos h2]; simp
    · rw [if_neg h2, if_neg h1, if_neg h1, if_neg h2]; simp

theorem fullRhs_good (v : Vis K) (n : Nat) (sols : Nat → Cx K) (hv : v.ant1 ≠ v.ant2) :
    Good 1 fullRhs (fun v t => (fullRows n sols v t).map Row.rhs) (fun c => c < 2) v where
  bumps pos t := by rw [List.length_map]; exact full_bumps v n sols hv pos t
  sound pos w hw := by
    simp only [fullRhs, List.flatMap_cons, List.flatMap_nil, List.cons_append, List.nil_append, List.append_nil,
      List.mem_cons, List.not_mem_nil, or_false] at hw
    rcases hw with rfl | rfl | rfl | rfl | rfl | rfl | rfl | rfl <;>
      refine ⟨by simp, _, by rw [Nat.mul_one], ?_⟩ <;>
      simp [fullRows, fullRow1, fullRow2, hv, hv.symm, get, M2.herm]
  cover pos t i hi c hc := by
    simp only [fullRhs, List.flatMap_cons, List.flatMap_nil, List.cons_append, List.nil_append, List.append_nil]
    simp only [fullRows] at hi
    have hc' : c = 0 ∨ c = 1 := by omega
    split_ifs at hi with h1 h2
    · subst h1
      have hi' : i = 0 ∨ i = 1 := by
        have : i < 2 := by simpa using hi
        omega
      rcases hi' with rfl | rfl <;> rcases hc' with rfl | rfl <;> simp [hv, hv.symm]
    · subst h2
      have hi' : i = 0 ∨ i = 1 := by
        have : i < 2 := by simpa using hi
        omega
      rcases hi' with rfl | rfl <;> rcases hc' with rfl | rfl <;> simp [hv, hv.symm]
    · simp at hi

theorem fullLhs_good (v : Vis K) (n s : Nat) (sols : Nat → Cx K) (hv : v.ant1 ≠ v.ant2) :
    Good 1 (fullLhs n sols s) (fun v t => (fullRows n sols v t).map Row.lhs) (fun c => c / 2 = s) v where
  bumps pos t := by rw [List.length_map]; exact full_bumps v n sols hv pos t
  sound pos w hw := by
    simp only [fullLhs, List.flatMap_cons, List.flatMap_nil, List.cons_append, List.nil_append, List.append_nil,
      List.mem_cons, List.not_mem_nil, or_false] at hw
    have e0 : (s * 2 + 0 % 2) / 2 = s := by omega
    have e1 : (s * 2 + 1 % 2) / 2 = s := by omega
    have e2 : (s * 2 + 2 % 2) / 2 = s := by omega
    have e3 : (s * 2 + 3 % 2) / 2 = s := by omega
    have m0 : (s * 2 + 0 % 2) % 2 = 0 := by omega
    have m1 : (s * 2 + 1 % 2) % 2 = 1 := by omega
    have m2 : (s * 2 + 2 % 2) % 2 = 0 := by omega
    have m3 : (s * 2 + 3 % 2) % 2 = 1 := by omega
    rcases hw with rfl | rfl | rfl | rfl | rfl | rfl | rfl | rfl <;>
      refine ⟨by first | exact e0 | exact e1 | exact e2 | exact e3, _, by rw [Nat.mul_one], ?_⟩ <;>
      simp only [fullRows, hv, hv.symm, if_true, if_false, Nat.reduceDiv, List.map_cons, List.getElem?_cons_zero,
        List.getElem?_cons_succ, Option.map_some, fullRow1, fullRow2, e0, e1, e2, e3, m0, m1, m2, m3, Nat.zero_mul,
        Nat.zero_add, Nat.one_mul]
  cover pos t i hi c hc := by
    have hc' : c = s * 2 ∨ c = s * 2 + 1 := by omega
    simp only [fullLhs, List.flatMap_cons, List.flatMap_nil, List.cons_append, List.nil_append, List.append_nil]
    simp only [fullRows] at hi
    split_ifs at hi with h1 h2
    · subst h1
      have hi' : i = 0 ∨ i = 1 := by
        have : i < 2 := by simpa using hi
        omega
      rcases hi' with rfl | rfl <;> rcases hc' with rfl | rfl <;> simp [hv, hv.symm]
    · subst h2
      have hi' : i = 0 ∨ i = 1 := by
        have : i < 2 := by simpa using hi
        omega
      rcases hi' with rfl | rfl <;> rcases hc' with rfl | rfl <;> simp [hv, hv.symm]
    · simp at hi

theorem fullRows_length (vis : List (Vis K)) (nAnt n : Nat) (sols : Nat → Cx K) (hl : Layout nAnt vis) (t : Nat) :
    (vis.flatMap fun v => fullRows n sols v t).length = nAntennaVis vis t * 2 := by
  refine rows_length vis 2 t _ ?_
  intro v hv
  have hne := (hl v hv).2.2
  unfold fullRows
  by_cases h1 : t = v.ant1
  · rw [if_pos h1, if_pos h1.symm, if_neg (by rw [h1]; exact hne.symm)]; rfl
  · rw [if_neg h1, if_neg (Ne.symm h1)]
    by_cases h2 : t = v.ant2
    · rw [if_pos h2, if_pos h2.symm]; rfl
    · rw [if_neg h2, if_neg (Ne.symm h2)]; rfl

theorem fullRows_slots (vis : List (Vis K)) (nAnt n : Nat) (sols : Nat → Cx K) (hl : Layout nAnt vis) (t : Nat)
    (h : (vis.flatMap fun v => fullRows n sols v t) ≠ []) : t < nAnt := by
  rw [Ne, List.flatMap_eq_nil_iff] at h
  push Not at h
  obtain ⟨v, hv, h⟩ := h
  unfold fullRows at h
  split_ifs at h with h1 h2
  · rw [h1]; exact (hl v hv).1
  · rw [h2]; exact (hl v hv).2.1
  · exact absurd rfl h

/-- The matrices of the full-Jones solver: no assignment is outside a matrix, and the residuals are those of the
rows. -/
theorem fullFill_spec (vis : List (Vis K)) (nAnt n : Nat) (sols : Nat → Cx K) (hl : Layout nAnt vis) :
    ∃ gs vs, fullFill nAnt n vis sols = some (gs, vs) ∧
      (∀ t i j, vs.index t i j = i + j * max (nAntennaVis vis t * 2) (n * 2)) ∧
      (∀ t (i : Nat) r, (vis.flatMap fun v => fullRows n sols v t)[i]? = some r → ∀ c < n * 2,
        gs.val t (i + c * (nAntennaVis vis t * 2)) = r.lhs c) ∧
      ∀ t ldx x, residual (nAntennaVis vis t * 2) (n * 2) 2 (max (nAntennaVis vis t * 2) (n * 2)) ldx (gs.val t)
        (vs.val t) x = ((vis.flatMap fun v => fullRows n sols v t).map (rowCost (n * 2) 2 ldx x)).sum := by
  have hlen := fullRows_length vis nAnt n sols hl
  have hl' : ∀ (f : Row K → Nat → Cx K) t,
      (vis.flatMap fun v => (fullRows n sols v t).map f) = (vis.flatMap fun v => fullRows n sols v t).map f := by
    intro f t; rw [List.map_flatMap]
  obtain ⟨vs, hvs, hvr, hvv⟩ := filled_once (u := 1) nAnt (fun ant => max (nAntennaVis vis ant * 2) (n * 2)) 2 vis
    fullRhs (fun v t => (fullRows n sols v t).map Row.rhs) (fun v hv => fullRhs_good v n sols (hl v hv).2.2)
    (by intro t; rw [hl', List.length_map, hlen]; exact Nat.le_max_left _ _)
    (by intro t h; refine fullRows_slots vis nAnt n sols hl t ?_; intro h'; rw [hl', h'] at h; exact h rfl)
  obtain ⟨gs, hgs, hgr, hgv⟩ := filled_bodies (u := 1) (w := 2) (by decide) nAnt (fun ant => nAntennaVis vis ant * 2) n
    vis (fullLhs n sols)
    (fun v t => (fullRows n sols v t).map Row.lhs) (fun s _ v hv => fullLhs_good v n s sols (hl v hv).2.2)
    (by intro t; rw [hl', List.length_map, hlen])
    (by intro t h; refine fullRows_slots vis nAnt n sols hl t ?_; intro h'; rw [hl', h'] at h; exact h rfl)
  have hA : ∀ t (i : Nat) r, (vis.flatMap fun v => fullRows n sols v t)[i]? = some r → ∀ c < n * 2,
      gs.val t (i + c * (nAntennaVis vis t * 2)) = r.lhs c := by
    intro t i r hr c hc
    refine hgv t i r.lhs ?_ c hc
    rw [hl', List.getElem?_map, hr]; rfl
  refine ⟨gs, vs, ?_, ?_, hA, ?_⟩
  · unfold fullFill
    simp only [Option.bind_eq_bind]
    rw [hvs, Option.bind_some, hgs]; rfl
  · intro t i j; unfold Mats.index; rw [hvr]
  · intro t ldx x
    rw [← residual_rows (n * 2) 2 (max (nAntennaVis vis t * 2) (n * 2)) ldx (gs.val t) (vs.val t) x
      (vis.flatMap fun v => fullRows n sols v t), hlen]
    · rw [hlen]; exact hA t
    · intro i r hr j hj
      refine hvv t i r.rhs ?_ j hj
      rw [hl', List.getElem?_map, hr]; rfl

/-- Vector of unknowns of which the blocks are the conjugated transposed solutions. -/
def Blocks (n ldx : Nat) (x : Nat → Cx K) (g : Nat → M2 K) : Prop :=
  ∀ s < n, (⟨x (s * 2), x (s * 2 + ldx), x (s * 2 + 1), x (s * 2 + 1 + ldx)⟩ : M2 K) = (g s).herm

/-- The squared residuals of two rows are the norm of a matrix. -/
theorem two_rows (n ldx : Nat) (x : Nat → Cx K) (g : Nat → M2 K) (hx : Blocks n ldx x g) (D : M2 K) (A : Nat → M2 K)
    (r0 r1 : Row K) (h0 : r0.lhs = fun c => get (A (c / 2)) (c % 2)) (h1 : r1.lhs = fun c => get (A (c / 2)) (2 + c % 2))
    (k0 : r0.rhs 0 = D.a ∧ r0.rhs 1 = D.b) (k1 : r1.rhs 0 = D.c ∧ r1.rhs 1 = D.d) :
    rowCost (n * 2) 2 ldx x r0 + rowCost (n * 2) 2 ldx x r1 =
      (D - ((List.range n).map fun s => A s * (g s).herm).sum).norm := by
  have e : ∀ s, (s * 2) / 2 = s ∧ (s * 2) % 2 = 0 ∧ (s * 2 + 1) / 2 = s ∧ (s * 2 + 1) % 2 = 1 := by intro s; omega
  have hr : ∀ r : Row K, rowCost (n * 2) 2 ldx x r =
      (r.rhs 0 - ((List.range n).map fun s => r.lhs (s * 2) * x (s * 2) + r.lhs (s * 2 + 1) * x (s * 2 + 1)).sum).normSq +
      (r.rhs 1 - ((List.range n).map fun s => r.lhs (s * 2) * x (s * 2 + ldx) +
        r.lhs (s * 2 + 1) * x (s * 2 + 1 + ldx)).sum).normSq := by
    intro r
    unfold rowCost
    simp only [List.range_succ, List.range_zero, List.nil_append, List.map_append, List.map_cons, List.map_nil,
      List.sum_append, List.sum_cons, List.sum_nil, Nat.zero_mul, Nat.add_zero, Nat.one_mul, add_zero, zero_add]
    rw [sum_pairs, sum_pairs]
  rw [hr, hr, k0.1, k0.2, k1.1, k1.2, h0, h1]
  have hsum : ((List.range n).map fun s => A s * (g s).herm).sum =
      ((List.range n).map fun s => A s *
        (⟨x (s * 2), x (s * 2 + ldx), x (s * 2 + 1), x (s * 2 + 1 + ldx)⟩ : M2 K)).sum :=
    sum_congr _ _ _ fun s hs => by rw [hx s (List.mem_range.mp hs)]
  rw [hsum]
  simp only [(e _).1, (e _).2.1, (e _).2.2.1, (e _).2.2.2, get, M2.norm, M2.sub_a, M2.sub_b, M2.sub_c, M2.sub_d, sum_a,
    sum_b, sum_c, sum_d, List.map_map, Function.comp_def, M2.mul_a, M2.mul_b, M2.mul_c, M2.mul_d, Nat.add_zero]
  ring

/-- The squared difference of a visibility is that of its rows. -/
theorem full_vis (n : Nat) (sols : Nat → Cx K) (v : Vis K) (a ldx : Nat) (g : Nat → M2 K) (x : Nat → Cx K)
    (hx : Blocks n ldx x g) (hne : v.ant1 ≠ v.ant2) (h : v.ant1 = a ∨ v.ant2 = a) :
    (v.data - predicted n (withAntenna (fullJones n sols) a g) v).norm =
      ((fullRows n sols v a).map (rowCost (n * 2) 2 ldx x)).sum := by
  unfold predicted withAntenna fullJones
  by_cases h1 : a = v.ant1
  · subst h1
    simp only [if_true, hne.symm, if_false]
    rw [fullRows, if_pos rfl]
    simp only [List.map_cons, List.map_nil, List.sum_cons, List.sum_nil, add_zero]
    rw [two_rows n ldx x g hx v.data.herm (fun s => jonesAt sols (v.ant2 * n + s) * (v.model s).herm) _ _
      (by simp only [fullRow1, Nat.zero_mul, Nat.zero_add]) (by simp only [fullRow1, Nat.one_mul])
      ⟨rfl, rfl⟩ ⟨rfl, rfl⟩]
    rw [← M2.norm_herm, M2.herm_sub]
    congr 2
    induction List.range n with
    | nil => simp [M2.herm, M2.ext_iff]
    | cons s l ih =>
      rw [List.map_cons, List.sum_cons, M2.herm_add, ih, List.map_cons, List.sum_cons, M2.herm_mul, M2.herm_mul,
        M2.herm_herm, mul_assoc]
  · have h2 : a = v.ant2 := by
      rcases h with h | h
      · exact absurd h.symm h1
      · exact h.symm
    subst h2
    simp only [if_true, hne, if_false]
    rw [fullRows, if_neg h1, if_pos rfl]
    simp only [List.map_cons, List.map_nil, List.sum_cons, List.sum_nil, add_zero]
    rw [two_rows n ldx x g hx v.data (fun s => jonesAt sols (v.ant1 * n + s) * v.model s) _ _
      (by simp only [fullRow2, Nat.zero_mul, Nat.zero_add]) (by simp only [fullRow2, Nat.one_mul])
      ⟨rfl, rfl⟩ ⟨rfl, rfl⟩]

/-- The misfit as a function of the solutions of one antenna. -/
theorem full_misfit (vis : List (Vis K)) (nAnt n : Nat) (sols : Nat → Cx K) (hl : Layout nAnt vis) (a ldx : Nat)
    (g : Nat → M2 K) (x : Nat → Cx K) (hx : Blocks n ldx x g) :
    misfit n (withAntenna (fullJones n sols) a g) vis =
      ((vis.flatMap fun v => fullRows n sols v a).map (rowCost (n * 2) 2 ldx x)).sum +
      misfit n (fullJones n sols) (vis.filter fun v => ! (decide (v.ant1 = a) || decide (v.ant2 = a))) := by
  refine misfit_rows n (fullJones n sols) vis a g (fun v => fullRows n sols v a) _ ?_ ?_
  · intro v hv h
    exact full_vis n sols v a ldx g x hx (hl v hv).2.2 h
  · intro v _ h
    rw [not_or] at h
    unfold fullRows
    rw [if_neg (Ne.symm h.1), if_neg (Ne.symm h.2)]

end DP3.DirectSolver
