import Verif.DirectSolver.Lemmas
import Verif.DirectSolver.Spec

/-!
# The residuals of the linear systems, visibility by visibility
-/

namespace DP3.DirectSolver

set_option linter.unusedSectionVars false
set_option linter.unusedSimpArgs false

variable {K : Type} [CommRing K]

/-- A row of a linear system. -/
structure Row (K : Type) where
  lhs : Nat → Cx K
  rhs : Nat → Cx K

/-- The squared residuals of a row. -/
def rowCost (n nrhs ldx : Nat) (x : Nat → Cx K) (r : Row K) : K :=
  ((List.range nrhs).map fun j =>
    (r.rhs j - ((List.range n).map fun c => r.lhs c * x (c + j * ldx)).sum).normSq).sum

theorem residual_rows (n nrhs ldb ldx : Nat) (a b x : Nat → Cx K) (rows : List (Row K))
    (ha : ∀ (i : Nat) r, rows[i]? = some r → ∀ c < n, a (i + c * rows.length) = r.lhs c)
    (hb : ∀ (i : Nat) r, rows[i]? = some r → ∀ j < nrhs, b (i + j * ldb) = r.rhs j) :
    residual rows.length n nrhs ldb ldx a b x = (rows.map (rowCost n nrhs ldx x)).sum := by
  unfold residual
  refine sum_rows rows _ _ ?_
  intro i r hr
  unfold rowCost
  refine sum_congr _ _ _ ?_
  intro j hj
  rw [hb i r hr j (List.mem_range.mp hj)]
  congr 2
  refine sum_congr _ _ _ ?_
  intro c hc
  rw [ha i r hr c (List.mem_range.mp hc)]

theorem sum_a (l : List (M2 K)) : l.sum.a = (l.map M2.a).sum := by
  induction l with
  | nil => rfl
  | cons m l ih => rw [List.sum_cons, List.map_cons, List.sum_cons, M2.add_a, ih]

theorem sum_b (l : List (M2 K)) : l.sum.b = (l.map M2.b).sum := by
  induction l with
  | nil => rfl
  | cons m l ih => rw [List.sum_cons, List.map_cons, List.sum_cons, M2.add_b, ih]

theorem sum_c (l : List (M2 K)) : l.sum.c = (l.map M2.c).sum := by
  induction l with
  | nil => rfl
  | cons m l ih => rw [List.sum_cons, List.map_cons, List.sum_cons, M2.add_c, ih]

theorem sum_d (l : List (M2 K)) : l.sum.d = (l.map M2.d).sum := by
  induction l with
  | nil => rfl
  | cons m l ih => rw [List.sum_cons, List.map_cons, List.sum_cons, M2.add_d, ih]

/-- The number of rows: `k` for each visibility of an antenna. -/
theorem rows_length {Y : Type} (vis : List (Vis K)) (k a : Nat) (R : Vis K → List Y)
    (h : ∀ v ∈ vis, (R v).length = k * ((if v.ant1 = a then 1 else 0) + (if v.ant2 = a then 1 else 0))) :
    (vis.flatMap R).length = nAntennaVis vis a * k := by
  unfold nAntennaVis
  induction vis with
  | nil => simp
  | cons v vis ih =>
    rw [List.flatMap_cons, List.length_append, ih (fun v' h' => h v' (List.mem_cons_of_mem _ h')),
      h v List.mem_cons_self, List.map_cons, List.sum_cons, Nat.add_mul, Nat.mul_comm]

/-- The misfit as a function of the solutions of one antenna, if that of each visibility in which it participates is
a sum over rows. -/
theorem misfit_rows {Y : Type} (n : Nat) (J : Nat → Nat → M2 K) (vis : List (Vis K)) (a : Nat) (g : Nat → M2 K)
    (R : Vis K → List Y) (cost : Y → K)
    (h : ∀ v ∈ vis, (v.ant1 = a ∨ v.ant2 = a) →
      (v.data - predicted n (withAntenna J a g) v).norm = ((R v).map cost).sum)
    (h0 : ∀ v ∈ vis, ¬ (v.ant1 = a ∨ v.ant2 = a) → R v = []) :
    misfit n (withAntenna J a g) vis = ((vis.flatMap R).map cost).sum +
      misfit n J (vis.filter fun v => ! (decide (v.ant1 = a) || decide (v.ant2 = a))) := by
  unfold misfit
  induction vis with
  | nil => simp
  | cons v vis ih =>
    rw [List.map_cons, List.sum_cons, ih (fun v' h' => h v' (List.mem_cons_of_mem _ h'))
      (fun v' h' => h0 v' (List.mem_cons_of_mem _ h')), List.flatMap_cons, List.map_append, List.sum_append]
    by_cases hv : v.ant1 = a ∨ v.ant2 = a
    · rw [h v List.mem_cons_self hv, List.filter_cons_of_neg (by rcases hv with h | h <;> simp [h])]
      ring
    · rw [h0 v List.mem_cons_self hv, List.filter_cons_of_pos (by simpa using hv), List.map_cons, List.sum_cons]
      have : predicted n (withAntenna J a g) v = predicted n J v := by
        rw [not_or] at hv
        unfold predicted withAntenna
        refine sum_congr _ _ _ ?_
        intro s _
        rw [if_neg hv.1, if_neg hv.2]
      rw [this]
      simp only [List.map_nil, List.sum_nil]
      ring

end DP3.DirectSolver
