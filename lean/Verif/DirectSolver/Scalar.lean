import Verif.DirectSolver.Rows

/-!
# The linear systems of the scalar solver
-/

namespace DP3.DirectSolver

set_option linter.unusedSectionVars false
set_option linter.unusedSimpArgs false

variable {K : Type} [CommRing K]

/-- A row for the first antenna. -/
def scalarRow1 (n : Nat) (sols : Nat → Cx K) (v : Vis K) (p : Nat) : Row K :=
  ⟨fun c => (sols (v.ant2 * n + c)).conj * get (v.model c) p, fun _ => get v.data p⟩

/-- A row for the second antenna. -/
def scalarRow2 (n : Nat) (sols : Nat → Cx K) (v : Vis K) (p : Nat) : Row K :=
  ⟨fun c => (sols (v.ant1 * n + c) * get (v.model c) p).conj, fun _ => (get v.data p).conj⟩

/-- The rows of a visibility for an antenna. -/
def scalarRows (n : Nat) (sols : Nat → Cx K) (v : Vis K) (t : Nat) : List (Row K) :=
  if t = v.ant1 then [0, 2, 1, 3].map (scalarRow1 n sols v)
  else if t = v.ant2 then [0, 1, 2, 3].map (scalarRow2 n sols v) else []

theorem scalar_bumps (v : Vis K) (n : Nat) (sols : Nat → Cx K) (hv : v.ant1 ≠ v.ant2) (pos : Nat → Nat) (t : Nat) :
    ([(v.ant1, 1), (v.ant2, 1)].foldl bump pos t) * 4 = pos t * 4 + (scalarRows n sols v t).length := by
  simp only [List.foldl_cons, List.foldl_nil, bump, scalarRows]
  by_cases h1 : t = v.ant1
  · rw [if_neg (by rw [h1]; exact hv), if_pos h1, if_pos h1]; simp; omega
  · by_cases h2 : t = v.ant2
    · rw [if_pos h2, if_neg h1, if_neg h1, if_pos h2]; simp; omega
    · rw [if_neg h2, if_neg h1, if_neg h1, if_neg h2]; simp

theorem scalarRhs_good (v : Vis K) (n : Nat) (sols : Nat → Cx K) (hv : v.ant1 ≠ v.ant2) :
    Good 4 scalarRhs (fun v t => (scalarRows n sols v t).map Row.rhs) (fun c => c < 1) v where
  bumps pos t := by rw [List.length_map]; exact scalar_bumps v n sols hv pos t
  sound pos w hw := by
    simp only [scalarRhs, List.flatMap_cons, List.flatMap_nil, List.cons_append, List.nil_append, List.append_nil,
      List.mem_cons, List.not_mem_nil, or_false] at hw
    rcases hw with rfl | rfl | rfl | rfl | rfl | rfl | rfl | rfl <;>
      refine ⟨Nat.lt_one_iff.mpr rfl, _, rfl, ?_⟩ <;>
      simp [scalarRows, scalarRow1, scalarRow2, hv, hv.symm, swap]
  cover pos t i hi c hc := by
    have hc : c = 0 := by omega
    subst hc
    simp only [scalarRhs, List.flatMap_cons, List.flatMap_nil, List.cons_append, List.nil_append, List.append_nil]
    simp only [scalarRows] at hi
    split_ifs at hi with h1 h2
    · subst h1
      have : i < 4 := by simpa using hi
      rcases i with _ | _ | _ | _ | i <;> first | omega | simp [swap, hv, hv.symm]
    · subst h2
      have : i < 4 := by simpa using hi
      rcases i with _ | _ | _ | _ | i <;> first | omega | simp [swap, hv, hv.symm]
    · simp at hi

theorem scalarLhs_good (v : Vis K) (n s : Nat) (sols : Nat → Cx K) (hv : v.ant1 ≠ v.ant2) :
    Good 4 (scalarLhs n sols s) (fun v t => (scalarRows n sols v t).map Row.lhs) (fun c => c / 1 = s) v where
  bumps pos t := by rw [List.length_map]; exact scalar_bumps v n sols hv pos t
  sound pos w hw := by
    simp only [scalarLhs, List.flatMap_cons, List.flatMap_nil, List.cons_append, List.nil_append, List.append_nil,
      List.mem_cons, List.not_mem_nil, or_false] at hw
    rcases hw with rfl | rfl | rfl | rfl | rfl | rfl | rfl | rfl <;>
      refine ⟨Nat.div_one _, _, rfl, ?_⟩ <;>
      simp [scalarRows, scalarRow1, scalarRow2, hv, hv.symm, swap]
  cover pos t i hi c hc := by
    rw [Nat.div_one] at hc
    subst hc
    simp only [scalarLhs, List.flatMap_cons, List.flatMap_nil, List.cons_append, List.nil_append, List.append_nil]
    simp only [scalarRows] at hi
    split_ifs at hi with h1 h2
    · subst h1
      have : i < 4 := by simpa using hi
      rcases i with _ | _ | _ | _ | i <;> first | omega | simp [swap, hv, hv.symm]
    · subst h2
      have : i < 4 := by simpa using hi
      rcases i with _ | _ | _ | _ | i <;> first | omega | simp [swap, hv, hv.symm]
    · simp at hi

theorem scalarRows_length (vis : List (Vis K)) (nAnt n : Nat) (sols : Nat → Cx K) (hl : Layout nAnt vis) (t : Nat) :
    (vis.flatMap fun v => scalarRows n sols v t).length = nAntennaVis vis t * 4 := by
  refine rows_length vis 4 t _ ?_
  intro v hv
  have hne := (hl v hv).2.2
  unfold scalarRows
  by_cases h1 : t = v.ant1
  · rw [if_pos h1, if_pos h1.symm, if_neg (by rw [h1]; exact hne.symm)]; rfl
  · rw [if_neg h1, if_neg (Ne.symm h1)]
    by_cases h2 : t = v.ant2
    · rw [if_pos h2, if_pos h2.symm]; rfl
    · rw [if_neg h2, if_neg (Ne.symm h2)]; rfl

theorem scalarRows_slots (vis : List (Vis K)) (nAnt n : Nat) (sols : Nat → Cx K) (hl : Layout nAnt vis) (t : Nat)
    (h : (vis.flatMap fun v => scalarRows n sols v t) ≠ []) : t < nAnt := by
  rw [Ne, List.flatMap_eq_nil_iff] at h
  push Not at h
  obtain ⟨v, hv, h⟩ := h
  unfold scalarRows at h
  split_ifs at h with h1 h2
  · rw [h1]; exact (hl v hv).1
  · rw [h2]; exact (hl v hv).2.1
  · exact absurd rfl h

/-- The matrices of the scalar solver: no assignment is outside a matrix, and the residuals are those of the rows. -/
theorem scalarFill_spec (vis : List (Vis K)) (nAnt n : Nat) (sols : Nat → Cx K) (hl : Layout nAnt vis) :
    ∃ gs vs, scalarFill nAnt n vis sols = some (gs, vs) ∧
      (∀ t i, vs.index t i 0 = i) ∧
      (∀ t (i : Nat) r, (vis.flatMap fun v => scalarRows n sols v t)[i]? = some r → ∀ c < n,
        gs.val t (i + c * (nAntennaVis vis t * 4)) = r.lhs c) ∧
      ∀ t ldx x, residual (nAntennaVis vis t * 4) n 1 (max (nAntennaVis vis t * 4) n) ldx (gs.val t) (vs.val t) x =
        ((vis.flatMap fun v => scalarRows n sols v t).map (rowCost n 1 ldx x)).sum := by
  have hlen := scalarRows_length vis nAnt n sols hl
  have hl' : ∀ (f : Row K → Nat → Cx K) t,
      (vis.flatMap fun v => (scalarRows n sols v t).map f) = (vis.flatMap fun v => scalarRows n sols v t).map f := by
    intro f t; rw [List.map_flatMap]
  obtain ⟨vs, hvs, hvr, hvv⟩ := filled_once (u := 4) nAnt (fun ant => max (nAntennaVis vis ant * 4) n) 1 vis scalarRhs
    (fun v t => (scalarRows n sols v t).map Row.rhs) (fun v hv => scalarRhs_good v n sols (hl v hv).2.2)
    (by intro t; rw [hl', List.length_map, hlen]; exact Nat.le_max_left _ _)
    (by intro t h; refine scalarRows_slots vis nAnt n sols hl t ?_; intro h'; rw [hl', h'] at h; exact h rfl)
  obtain ⟨gs, hgs, hgr, hgv⟩ := filled_bodies (u := 4) (w := 1) Nat.one_pos nAnt (fun ant => nAntennaVis vis ant * 4) n
    vis (scalarLhs n sols)
    (fun v t => (scalarRows n sols v t).map Row.lhs) (fun s _ v hv => scalarLhs_good v n s sols (hl v hv).2.2)
    (by intro t; rw [hl', List.length_map, hlen])
    (by intro t h; refine scalarRows_slots vis nAnt n sols hl t ?_; intro h'; rw [hl', h'] at h; exact h rfl)
  rw [Nat.mul_one] at hgs hgv
  have hA : ∀ t (i : Nat) r, (vis.flatMap fun v => scalarRows n sols v t)[i]? = some r → ∀ c < n,
      gs.val t (i + c * (nAntennaVis vis t * 4)) = r.lhs c := by
    intro t i r hr c hc
    refine hgv t i r.lhs ?_ c hc
    rw [hl', List.getElem?_map, hr]; rfl
  refine ⟨gs, vs, ?_, ?_, hA, ?_⟩
  · unfold scalarFill
    simp only [Option.bind_eq_bind]
    rw [hvs, Option.bind_some, hgs]; rfl
  · intro t i; unfold Mats.index; omega
  · intro t ldx x
    rw [← residual_rows n 1 (max (nAntennaVis vis t * 4) n) ldx (gs.val t) (vs.val t) x
      (vis.flatMap fun v => scalarRows n sols v t), hlen]
    · rw [hlen]; exact hA t
    · intro i r hr j hj
      refine hvv t i r.rhs ?_ j hj
      rw [hl', List.getElem?_map, hr]; rfl

/-- The squared difference of a visibility is that of its rows. -/
theorem scalar_vis (n : Nat) (sols : Nat → Cx K) (v : Vis K) (a ldx : Nat) (g : Nat → Cx K) (hne : v.ant1 ≠ v.ant2)
    (h : v.ant1 = a ∨ v.ant2 = a) :
    (v.data - predicted n (withAntenna (scalarJones n sols) a fun s => scalarMatrix (g s)) v).norm =
      ((scalarRows n sols v a).map (rowCost n 1 ldx g)).sum := by
  have hpred : ∀ x y : Nat → Cx K, ((List.range n).map fun s =>
      scalarMatrix (x s) * v.model s * (scalarMatrix (y s)).herm).sum =
      ⟨((List.range n).map fun s => x s * (v.model s).a * (y s).conj).sum,
        ((List.range n).map fun s => x s * (v.model s).b * (y s).conj).sum,
        ((List.range n).map fun s => x s * (v.model s).c * (y s).conj).sum,
        ((List.range n).map fun s => x s * (v.model s).d * (y s).conj).sum⟩ := by
    intro x y
    refine M2.ext ?_ ?_ ?_ ?_ <;> simp only [sum_a, sum_b, sum_c, sum_d, List.map_map] <;>
      refine sum_congr _ _ _ fun s _ => ?_ <;> simp [scalarMatrix, M2.herm, Function.comp]
  have key1 : ∀ (d : Cx K) (f : M2 K → Cx K) (y : Nat → Cx K),
      (d - ((List.range n).map fun s => g s * f (v.model s) * (y s).conj).sum).normSq =
      (d - ((List.range n).map fun s => (y s).conj * f (v.model s) * g s).sum).normSq := by
    intro d f y
    congr 2
    exact sum_congr _ _ _ fun s _ => by ring
  have key2 : ∀ (d : Cx K) (f : M2 K → Cx K) (x : Nat → Cx K),
      (d - ((List.range n).map fun s => x s * f (v.model s) * (g s).conj).sum).normSq =
      (d.conj - ((List.range n).map fun s => (x s * f (v.model s)).conj * g s).sum).normSq := by
    intro d f x
    rw [← Cx.normSq_conj, Cx.conj_sub, conj_sum, List.map_map]
    congr 2
    refine sum_congr _ _ _ fun s _ => ?_
    simp [Function.comp, Cx.conj_mul]
  unfold predicted withAntenna scalarJones
  by_cases h1 : a = v.ant1
  · subst h1
    simp only [if_true, hne.symm, if_false]
    rw [hpred, scalarRows, if_pos rfl]
    simp only [List.map_cons, List.map_nil, List.sum_cons, List.sum_nil, rowCost, scalarRow1, get, M2.norm, M2.sub_a,
      M2.sub_b, M2.sub_c, M2.sub_d, List.range_one, Nat.zero_mul, Nat.add_zero]
    rw [key1 _ M2.a, key1 _ M2.b, key1 _ M2.c, key1 _ M2.d]
    ring
  · have h2 : a = v.ant2 := by
      rcases h with h | h
      · exact absurd h.symm h1
      · exact h.symm
    subst h2
    simp only [if_true, hne, if_false]
    rw [hpred, scalarRows, if_neg h1, if_pos rfl]
    simp only [List.map_cons, List.map_nil, List.sum_cons, List.sum_nil, rowCost, scalarRow2, get, M2.norm, M2.sub_a,
      M2.sub_b, M2.sub_c, M2.sub_d, List.range_one, Nat.zero_mul, Nat.add_zero]
    rw [key2 _ M2.a, key2 _ M2.b, key2 _ M2.c, key2 _ M2.d]
    ring

/-- The misfit as a function of the solutions of one antenna. -/
theorem scalar_misfit (vis : List (Vis K)) (nAnt n : Nat) (sols : Nat → Cx K) (hl : Layout nAnt vis) (a ldx : Nat)
    (g : Nat → Cx K) :
    misfit n (withAntenna (scalarJones n sols) a fun s => scalarMatrix (g s)) vis =
      ((vis.flatMap fun v => scalarRows n sols v a).map (rowCost n 1 ldx g)).sum +
      misfit n (scalarJones n sols) (vis.filter fun v => ! (decide (v.ant1 = a) || decide (v.ant2 = a))) := by
  refine misfit_rows n (scalarJones n sols) vis a (fun s => scalarMatrix (g s)) (fun v => scalarRows n sols v a) _ ?_ ?_
  · intro v hv h
    exact scalar_vis n sols v a ldx g (hl v hv).2.2 h
  · intro v _ h
    rw [not_or] at h
    unfold scalarRows
    rw [if_neg (Ne.symm h.1), if_neg (Ne.symm h.2)]

end DP3.DirectSolver
