import Verif.SolverBase.Model
import Mathlib.Algebra.Order.Field.Basic
import Mathlib.Algebra.Field.Rat
import Mathlib.Algebra.Order.Ring.Rat
import Mathlib.Data.Rat.Floor
import Mathlib.Data.List.Induction
import Mathlib.Algebra.Order.BigOperators.Group.List
import Mathlib.Tactic.Linarith
import Mathlib.Tactic.Ring
import Mathlib.Tactic.NormNum
import Mathlib.Tactic.FieldSimp
import Mathlib.Tactic.Positivity

/-!
# Properties of SolverBase (C40, C74, C75, C76)
-/

namespace DP3.SolverBase

set_option linter.unusedSectionVars false
set_option linter.unusedSimpArgs false
set_option linter.unusedVariables false

/-! ## C40 -/

section
variable {F : Type} [Field F] {C : Type}

/-- The mean amplitude of a list of values; one if there are none. -/
def meanAbs (abs : C → F) (l : List C) : F :=
  if l = [] then 1 else (l.map abs).sum / (l.length : F)

/-- The first of a pair of finite values. -/
def firstOf : Option C × Option C → Option C
  | (some z, some _) => some z
  | _ => none

private theorem fold1 (abs : C → F) (v : List (Option C)) (a : F) (n : Nat) :
    v.foldl (add1 abs) (a, n) =
      (a + ((v.filterMap id).map abs).sum, n + (v.filterMap id).length) := by
  induction v generalizing a n with
  | nil => simp
  | cons x v ih =>
    rw [List.foldl_cons]
    cases x with
    | none => rw [ih]; simp [List.filterMap_cons, add1, add2, add4, firstOf]
    | some z => rw [ih]; simp [List.filterMap_cons, add1, add2, add4, firstOf, add_assoc, Nat.add_assoc, Nat.add_comm 1]

/-- C40, one polarisation: every value becomes finite, finite values do not change, and the others
become the mean amplitude of the finite ones. -/
theorem makeFinite1_spec (abs : C → F) (ofReal : F → C) (v : List (Option C)) :
    (makeFinite1 abs ofReal v).length = v.length ∧ ∀ i : Nat,
      (∀ z, v[i]? = some (some z) → (makeFinite1 abs ofReal v)[i]? = some (some z)) ∧
      (v[i]? = some none →
        (makeFinite1 abs ofReal v)[i]? = some (some (ofReal (meanAbs abs (v.filterMap id))))) := by
  have hr : ∀ r : F × Nat, r = (((v.filterMap id).map abs).sum, (v.filterMap id).length) →
      (if r.2 = 0 then 1 else r.1 / (r.2 : F)) = meanAbs abs (v.filterMap id) := by
    rintro r rfl
    unfold meanAbs
    by_cases h : v.filterMap id = []
    · simp [h]
    · have : (v.filterMap id).length ≠ 0 := by simpa using h
      rw [if_neg this, if_neg h]
  unfold makeFinite1
  rw [fold1, zero_add, Nat.zero_add]
  simp only [hr _ rfl, List.length_map, List.getElem?_map, true_and]
  intro i
  refine ⟨?_, ?_⟩
  · intro z hz
    rw [hz]
    rfl
  · intro hz
    rw [hz]
    rfl

/-- C40 with two polarisations: pairs that are finite do not change, and all others become finite, but
both polarisations get the mean amplitude of the *first* polarisation. -/
theorem makeFinite2_partial (abs : C → F) (ofReal : F → C) (v : List (Option C × Option C)) :
    (makeFinite2 abs ofReal v).length = v.length ∧ ∀ i : Nat,
      (∀ z w, v[i]? = some (some z, some w) →
        (makeFinite2 abs ofReal v)[i]? = some (some z, some w)) ∧
      (∀ x, v[i]? = some x → x.1 = none ∨ x.2 = none →
        let m := ofReal (meanAbs abs (v.filterMap firstOf))
        (makeFinite2 abs ofReal v)[i]? = some (some m, some m)) := by
  have hf : ∀ (l : List (Option C × Option C)) (a b : F) (n : Nat),
      l.foldl (add2 abs) ((a, b), n) =
      ((a + ((l.filterMap firstOf).map abs).sum,
        b + ((l.filterMap firstOf).map abs).sum),
        n + (l.filterMap firstOf).length) := by
    intro l
    induction l with
    | nil => simp
    | cons x l ih =>
      intro a b n
      rw [List.foldl_cons]
      obtain ⟨x1, x2⟩ := x
      cases x1 with
      | none => rw [ih]; simp [List.filterMap_cons, add1, add2, add4, firstOf]
      | some z =>
        cases x2 with
        | none => rw [ih]; simp [List.filterMap_cons, add1, add2, add4, firstOf]
        | some w => rw [ih]; simp [List.filterMap_cons, add1, add2, add4, firstOf, add_assoc, Nat.add_assoc, Nat.add_comm 1]
  unfold makeFinite2
  rw [hf, zero_add, Nat.zero_add]
  generalize hl : v.filterMap firstOf = fin
  have hm : (if fin.length = 0 then ((1 : F), (1 : F))
      else ((fin.map abs).sum / (fin.length : F), (fin.map abs).sum / (fin.length : F))) =
      (meanAbs abs fin, meanAbs abs fin) := by
    unfold meanAbs
    by_cases h : fin = []
    · simp [h]
    · have : fin.length ≠ 0 := by simpa using h
      rw [if_neg this, if_neg h]
  simp only [hm, List.length_map, List.getElem?_map, true_and]
  intro i
  refine ⟨?_, ?_⟩
  · intro z w hz
    rw [hz]
    rfl
  · intro x hx hn
    rw [hx]
    simp only [Option.map_some, Option.some.injEq]
    rw [if_neg]
    rcases hn with h | h <;> simp [h]

/-- C40 with four polarisations: finite matrices do not change and the others become finite, but when
there are finite ones, all four elements of the others get the mean amplitude of the *first*
element. -/
theorem makeFinite4_partial (abs : C → F) (ofReal : F → C) (v : List (Option (Mat C))) :
    (makeFinite4 abs ofReal v).length = v.length ∧ ∀ i : Nat,
      (∀ z, v[i]? = some (some z) → (makeFinite4 abs ofReal v)[i]? = some (some z)) ∧
      (v[i]? = some none →
        let m := ofReal (meanAbs abs ((v.filterMap id).map Mat.m00))
        (makeFinite4 abs ofReal v)[i]? = some (some
          (if v.filterMap id = [] then ⟨ofReal 1, ofReal 0, ofReal 0, ofReal 1⟩ else ⟨m, m, m, m⟩))) := by
  have hf : ∀ (l : List (Option (Mat C))) (a b c d : F) (n : Nat),
      l.foldl (add4 abs) (⟨a, b, c, d⟩, n) =
      (⟨a + (((l.filterMap id).map Mat.m00).map abs).sum,
        b + (((l.filterMap id).map Mat.m00).map abs).sum,
        c + (((l.filterMap id).map Mat.m00).map abs).sum,
        d + (((l.filterMap id).map Mat.m00).map abs).sum⟩, n + (l.filterMap id).length) := by
    intro l
    induction l with
    | nil => simp
    | cons x l ih =>
      intro a b c d n
      rw [List.foldl_cons]
      cases x with
      | none => rw [ih]; simp [List.filterMap_cons, add1, add2, add4, firstOf]
      | some z => rw [ih]; simp [List.filterMap_cons, add1, add2, add4, firstOf, add_assoc, Nat.add_assoc, Nat.add_comm 1]
  unfold makeFinite4
  rw [hf]
  simp only [zero_add, Nat.zero_add, List.length_map, List.getElem?_map, true_and]
  intro i
  refine ⟨?_, ?_⟩
  · intro z hz
    rw [hz]
    rfl
  · intro hz
    rw [hz]
    simp only [Option.map_some, Option.isSome_none, Bool.false_eq_true, if_false, Option.some.injEq]
    by_cases h : v.filterMap id = []
    · have hl : (v.filterMap id).length = 0 := by rw [h]; rfl
      rw [if_pos hl, if_pos h]
    · have hl : (v.filterMap id).length ≠ 0 := by simpa using h
      rw [if_neg hl, if_neg h]
      unfold meanAbs
      rw [if_neg (by simpa using h)]
      simp

end

/-- C40 does not hold for more than one polarisation: the second polarisation of a solution that is
not finite becomes the mean amplitude of the first polarisation (here 2 instead of 30), and an
off-diagonal element becomes as large as the diagonal ones. -/
theorem wrong_polarisation :
    makeFinite2 (fun z : ℚ => z) (fun x => x) [(some 2, some 30), (none, some 30)] =
        [(some 2, some 30), (some 2, some 2)] ∧
      makeFinite4 (fun z : ℚ => z) (fun x => x) [some ⟨2, 0, 0, 3⟩, none] =
        [some ⟨2, 0, 0, 3⟩, some ⟨2, 2, 2, 2⟩] := by decide +kernel

example : makeFinite1 (fun z : ℚ => z) (fun x => x) [some 2, none, some 4] =
    [some 2, some 3, some 4] := by decide +kernel
example : makeFinite1 (fun z : ℚ => z) (fun x => x) [none, none] = [some 1, some 1] := by
  decide +kernel

/-! ## C76: the step magnitude -/

section
variable {F : Type} [Field F] [LinearOrder F] [IsStrictOrderedRing F]
variable {C : Type} [Field C] [DecidableEq C]

private theorem foldl_congr_map {α β γ : Type} (f : γ → α → γ) (g : γ → β → γ) (m : α → β)
    (h : ∀ acc x, g acc (m x) = f acc x) (l : List α) (a : γ) :
    (l.map m).foldl g a = l.foldl f a := by
  rw [List.foldl_map]
  congr 1
  funext acc x
  exact h acc x

/-- C76: scaling all solutions does not change the step magnitude. -/
theorem scale_independent (abs : C → F) (stepSize : F) (k : C) (hk : k ≠ 0)
    (v : List (C × Option C)) :
    stepMagnitude stepSize (diff1 abs (v.map fun x => (k * x.1, x.2.map (k * ·)))) =
      stepMagnitude stepSize (diff1 abs v) := by
  congr 1
  unfold diff1
  apply foldl_congr_map
  rintro acc ⟨o, n⟩
  unfold addDiff1
  by_cases ho : o = 0
  · simp [ho]
  · simp only [mul_eq_zero, hk, ho, or_self, if_false]
    cases n with
    | none => rfl
    | some n =>
      simp only [Option.map_some]
      have : (k * n - k * o) / (k * o) = (n - o) / o := by field_simp
      rw [this]

/-- The matrix version. -/
theorem scale_independent4 (abs : C → F) (stepSize : F) (k : C) (hk : k ≠ 0)
    (v : List (Mat C × Option (Mat C))) :
    let scale : Mat C → Mat C := fun m => ⟨k * m.m00, k * m.m01, k * m.m10, k * m.m11⟩
    stepMagnitude stepSize (diff4 abs (v.map fun x => (scale x.1, x.2.map scale))) =
      stepMagnitude stepSize (diff4 abs v) := by
  intro scale
  congr 1
  unfold diff4
  apply foldl_congr_map
  rintro acc ⟨o, n⟩
  unfold addDiff4
  have hdet : (scale o).det = k * k * o.det := by
    simp only [Mat.det, scale]
    ring
  by_cases ho : o.det = 0
  · simp [ho, hdet]
  · have : ¬ (scale o).det = 0 := by
      rw [hdet]
      simp [hk, ho]
    simp only [this, ho, if_false]
    cases n with
    | none => rfl
    | some n =>
      have e : ((scale n).sub (scale o)).mul (scale o).inv = (n.sub o).mul o.inv := by
        unfold Mat.inv
        rw [hdet]
        simp only [Mat.mul, Mat.sub, scale, Mat.mk.injEq]
        refine ⟨?_, ?_, ?_, ?_⟩ <;> field_simp
      simp only [Option.map_some, e]

/-- C76: with the same solution in both polarisations, the step magnitude is that of one
polarisation. -/
theorem scalar_as_diagonal (abs : C → F) (stepSize : F) (v : List (C × Option C)) :
    stepMagnitude stepSize (diff2 abs (v.map fun x => ((x.1, x.1), (x.2, x.2)))) =
      stepMagnitude stepSize (diff1 abs v) := by
  have key : ∀ (l : List (C × Option C)) (a : F) (n : Nat),
      (l.map fun x => (((x.1, x.1), (x.2, x.2)) : (C × C) × (Option C × Option C))).foldl
        (addDiff2 abs) (2 * a, 2 * n) =
      (2 * (l.foldl (addDiff1 abs) (a, n)).1,
        2 * (l.foldl (addDiff1 abs) (a, n)).2) := by
    intro l
    induction l with
    | nil => intros; rfl
    | cons x l ih =>
      intro a n
      obtain ⟨o, nn⟩ := x
      simp only [List.map_cons, List.foldl_cons]
      by_cases ho : o = 0
      · simp only [addDiff1, addDiff2, ho, or_self, if_true]
        exact ih a n
      · simp only [addDiff1, addDiff2, ho, or_self, if_false]
        cases nn with
        | none => exact ih a n
        | some z =>
          simp only
          have e1 : 2 * a + (abs ((z - o) * (1 / o)) + abs ((z - o) * (1 / o))) =
              2 * (a + abs ((z - o) / o)) := by
            rw [mul_one_div]
            ring
          have e2 : 2 * n + 2 = 2 * (n + 1) := by ring
          rw [e1, e2]
          exact ih _ _
  have := key v 0 0
  rw [mul_zero, Nat.mul_zero] at this
  unfold diff2
  rw [this]
  unfold diff1 stepMagnitude
  generalize (v.foldl _ _ : F × Nat) = r
  by_cases h : r.2 = 0
  · simp [h]
  · have h' : (r.2 : F) ≠ 0 := by exact_mod_cast h
    have h2 : 2 * r.2 ≠ 0 := by omega
    simp only [h, h2, if_false]
    push_cast
    by_cases hs : stepSize = 0
    · simp [hs]
    · field_simp

/-- C76 does not hold for full Jones matrices, against the comment in the code: given scalar
matrices, the step magnitude is half of that of the scalar solver, because the off-diagonal elements
are counted too. -/
theorem scalar_as_matrix (abs : C → F) (habs : abs 0 = 0) (stepSize : F) (v : List (C × Option C)) :
    stepMagnitude stepSize (diff4 abs (v.map fun x =>
        ((⟨x.1, 0, 0, x.1⟩ : Mat C), x.2.map fun n => (⟨n, 0, 0, n⟩ : Mat C)))) =
      stepMagnitude stepSize (diff1 abs v) / 2 := by
  have key : ∀ (l : List (C × Option C)) (a : F) (n : Nat),
      (l.map fun x => ((⟨x.1, 0, 0, x.1⟩ : Mat C), x.2.map fun n => (⟨n, 0, 0, n⟩ : Mat C))).foldl
        (addDiff4 abs) (2 * a, 4 * n) =
      (2 * (l.foldl (addDiff1 abs) (a, n)).1,
        4 * (l.foldl (addDiff1 abs) (a, n)).2) := by
    intro l
    induction l with
    | nil => intros; rfl
    | cons x l ih =>
      intro a n
      obtain ⟨o, nn⟩ := x
      simp only [List.map_cons, List.foldl_cons]
      have hdet : (⟨o, 0, 0, o⟩ : Mat C).det = o * o := by simp [Mat.det]
      by_cases ho : o = 0
      · have h0 : o * o = 0 := by simp [ho]
        simp only [addDiff1, addDiff4, hdet]
        rw [if_pos h0, if_pos ho]
        exact ih a n
      · have : ¬ o * o = 0 := by simp [ho]
        simp only [addDiff1, addDiff4, hdet, ho, this, if_false]
        cases nn with
        | none => exact ih a n
        | some z =>
          simp only [Option.map_some]
          have er : ((⟨z, 0, 0, z⟩ : Mat C).sub ⟨o, 0, 0, o⟩).mul (⟨o, 0, 0, o⟩ : Mat C).inv =
              ⟨(z - o) / o, 0, 0, (z - o) / o⟩ := by
            simp only [Mat.inv, hdet, Mat.sub, Mat.mul, Mat.mk.injEq]
            refine ⟨?_, ?_, ?_, ?_⟩ <;> field_simp <;> ring
          rw [er]
          simp only [habs, add_zero]
          have e1 : 2 * a + (abs ((z - o) / o) + abs ((z - o) / o)) =
              2 * (a + abs ((z - o) / o)) := by ring
          have e2 : 4 * n + 4 = 4 * (n + 1) := by ring
          rw [e1, e2]
          exact ih _ _
  have := key v 0 0
  rw [mul_zero, Nat.mul_zero] at this
  unfold diff4
  rw [this]
  unfold diff1 stepMagnitude
  generalize (v.foldl _ _ : F × Nat) = r
  by_cases h : r.2 = 0
  · simp [h]
  · have h' : (r.2 : F) ≠ 0 := by exact_mod_cast h
    have h2 : 4 * r.2 ≠ 0 := by omega
    simp only [h, h2, if_false]
    push_cast
    by_cases hs : stepSize = 0
    · simp [hs]
    · have h4 : (4 : F) ≠ 0 := by norm_num
      have h22 : (2 : F) ≠ 0 := by norm_num
      rw [div_div, div_div, div_div, div_eq_div_iff (by positivity) (by positivity)]
      ring

/-- C76: the step size is taken out: after `Step`, the step magnitude is the same as that of a full
step to the new solutions. -/
theorem step_size_taken_out (abs : C → F) (stepSize : F) (s : C) (hs : stepSize ≠ 0)
    (hmul : ∀ z, abs (z * s) = abs z * stepSize) (v : List (C × Option C)) :
    stepMagnitude stepSize (diff1 abs (v.map fun x => (x.1, step s (some x.1) x.2))) =
      stepMagnitude 1 (diff1 abs v) := by
  have key : ∀ (l : List (C × Option C)) (a : F) (n : Nat),
      (l.map fun x => (x.1, step s (some x.1) x.2)).foldl
        (addDiff1 abs) (a * stepSize, n) =
      ((l.foldl (addDiff1 abs) (a, n)).1 * stepSize,
        (l.foldl (addDiff1 abs) (a, n)).2) := by
    intro l
    induction l with
    | nil => intros; rfl
    | cons x l ih =>
      intro a n
      obtain ⟨o, nn⟩ := x
      simp only [List.map_cons, List.foldl_cons]
      by_cases ho : o = 0
      · simp only [addDiff1, ho, if_true]
        exact ih a n
      · simp only [addDiff1, ho, if_false]
        cases nn with
        | none => simp only [step]; exact ih a n
        | some z =>
          simp only [step]
          have e : (o * (1 - s) + z * s - o) / o = (z - o) / o * s := by
            field_simp
            ring
          rw [e, hmul, ← add_mul]
          exact ih _ _
  have := key v 0 0
  rw [zero_mul] at this
  unfold diff1
  rw [this]
  unfold stepMagnitude
  simp only
  split_ifs with h
  · rfl
  · rw [mul_div_assoc, div_self hs, mul_one, div_one]

/-- When no solution can be compared, because the old one is zero or the new one is not finite, the
solver claims to have converged. -/
theorem nothing_is_converged (abs : C → F) (stepSize accuracy : F) (ha : 0 ≤ accuracy)
    (v : List (C × Option C)) (h : ∀ x ∈ v, x.1 = 0 ∨ x.2 = none) :
    stepMagnitude stepSize (diff1 abs v) ≤ accuracy := by
  have : diff1 abs v = (0, 0) := by
    unfold diff1
    generalize ((0 : F), (0 : Nat)) = acc
    induction v with
    | nil => rfl
    | cons x v ih =>
      rw [List.foldl_cons]
      have hx := h x (by simp)
      have hstep : addDiff1 abs acc x = acc := by
        unfold addDiff1
        rcases hx with e | e
        · simp [e]
        · rw [e]; simp
      rw [hstep]
      exact ih fun y hy => h y (by simp [hy])
  rw [this]
  simpa [stepMagnitude] using ha

end

/-- Two solutions, one of which changes by 10%, and a step size of one fifth. -/
example : stepMagnitude (1 / 5 : ℚ) (diff1 (fun z : ℚ => |z|)
    [(10, step (1 / 5 : ℚ) (some 10) (some 11)), (4, step (1 / 5 : ℚ) (some 4) (some 4))]) = 1 / 20 := by
  decide +kernel
example : stepMagnitude (1 : ℚ) (diff1 (fun z : ℚ => |z|) [(10, some 11), (4, some 4)]) = 1 / 20 := by
  decide +kernel
example : stepMagnitude (1 : ℚ) (diff4 (fun z : ℚ => |z|)
    [(⟨10, 0, 0, 10⟩, some ⟨11, 0, 0, 11⟩), (⟨4, 0, 0, 4⟩, some ⟨4, 0, 0, 4⟩)]) = 1 / 40 := by
  decide +kernel
example : stepMagnitude (1 : ℚ) (diff1 (fun z : ℚ => |z|) [(10, none), (0, some 4)]) = 0 := by
  decide +kernel

section
variable {F : Type} [Field F] [LinearOrder F]

private theorem loop_stop (c : Settings F) (env : Nat → Iteration F) {f k : Nat}
    {s s' : Option (Running F)} (h : reachedStop c (k + 1) (env k) s = some (true, s')) :
    loop c env (f + 1) k s = some { iterations := k + 1, last := env k } := by
  unfold loop
  simp [h]

private theorem loop_go (c : Settings F) (env : Nat → Iteration F) {f k : Nat}
    {s s' : Option (Running F)} (h : reachedStop c (k + 1) (env k) s = some (false, s')) :
    loop c env (f + 1) k s = loop c env f (k + 1) s' := by
  rw [loop]
  simp [h]

end

/-! ## C74: stall detection -/

section
variable {F : Type} [Field F] [LinearOrder F] [IsStrictOrderedRing F]

/-- The running values after the iterations with the given step magnitudes, when stall detection was
called in each of them. -/
def runningAfter (s : Option (Running F)) (ms : List F) : Option (Running F) :=
  (ms.zipIdx 1).foldl (fun s x => updateRunning x.2 x.1 s) s

private theorem runningAfter_append (s : Option (Running F)) (ms : List F) (m : F) :
    runningAfter s (ms ++ [m]) = updateRunning (ms.length + 1) m (runningAfter s ms) := by
  unfold runningAfter
  rw [List.zipIdx_append, List.foldl_append]
  simp [Nat.add_comm]

private def sq (ms : List F) : F := (ms.map fun x => x * x).sum

private theorem sum_dev (μ : F) (ms : List F) :
    (ms.map fun x => (x - μ) * (x - μ)).sum =
      sq ms - 2 * μ * ms.sum + ms.length * (μ * μ) := by
  induction ms with
  | nil => simp [sq]
  | cons x ms ih =>
    simp only [List.map_cons, List.sum_cons, ih, sq, List.length_cons]
    push_cast
    ring

private theorem running_aux (s : Option (Running F)) (ms : List F) (h : ms ≠ []) :
    runningAfter s ms = some
      { count := ms.length, mean := ms.sum / ms.length,
        var := sq ms - ms.sum * ms.sum / ms.length } := by
  induction ms using List.reverseRecOn with
  | nil => exact absurd rfl h
  | append_singleton ms m ih =>
    rw [runningAfter_append]
    by_cases hm : ms = []
    · subst hm
      simp [updateRunning, sq]
    · rw [ih hm]
      have hl : ms.length ≠ 0 := by simpa using hm
      have hl' : (ms.length : F) ≠ 0 := by exact_mod_cast hl
      have hl1 : (ms.length : F) + 1 ≠ 0 := by exact_mod_cast Nat.succ_ne_zero ms.length
      unfold updateRunning
      rw [if_neg (by omega)]
      have hsq : sq (ms ++ [m]) = sq ms + m * m := by simp [sq]
      simp only [Option.map_some, Option.some.injEq, Running.mk.injEq, List.length_append,
        List.length_singleton, true_and, List.sum_append, List.sum_singleton, hsq]
      push_cast
      constructor
      · field_simp
        ring
      · field_simp
        ring

/-- C74: after each iteration the running values are the number of iterations, the mean of the step
magnitudes, and the sum of the squared deviations from that mean, independent of earlier solves. -/
theorem running_is_mean_and_variance (s : Option (Running F)) (ms : List F) (h : ms ≠ []) :
    runningAfter s ms = some
      { count := ms.length, mean := ms.sum / ms.length,
        var := (ms.map fun x =>
          (x - ms.sum / ms.length) * (x - ms.sum / ms.length)).sum } := by
  rw [running_aux s ms h, sum_dev]
  have hl : ms.length ≠ 0 := by simpa using h
  have hl' : (ms.length : F) ≠ 0 := by exact_mod_cast hl
  simp only [Option.some.injEq, Running.mk.injEq, true_and]
  field_simp
  ring

private theorem sq_le (ms : List F) (h : ∀ m ∈ ms, 0 ≤ m) :
    0 ≤ ms.sum ∧ 0 ≤ sq ms ∧ sq ms ≤ ms.sum * ms.sum := by
  induction ms with
  | nil => simp [sq]
  | cons m ms ih =>
    obtain ⟨h1, h2, h3⟩ := ih fun x hx => h x (by simp [hx])
    have hm := h m (by simp)
    have e : sq (m :: ms) = m * m + sq ms := by simp [sq]
    rw [e, List.sum_cons]
    refine ⟨by positivity, by positivity, ?_⟩
    nlinarith [mul_nonneg hm h1]

/-- A square root that may be rounded down. -/
def IsSqrt (sqrt : F → F) : Prop := ∀ x, 0 ≤ x → 0 ≤ sqrt x ∧ sqrt x * sqrt x ≤ x

/-- Step magnitudes are not negative, and therefore a solve can only be taken to be stalled after
more than `1 + 1 / sigma ^ 2` iterations. -/
theorem stall_needs_iterations (c : Settings F) (hs : IsSqrt c.sqrt) (hσ : 0 ≤ c.stepDiffSigma)
    (s : Option (Running F)) (ms : List F) (hpos : ∀ m ∈ ms, 0 ≤ m) (r : Running F)
    (hr : runningAfter s ms = some r) (hne : ms ≠ []) (iteration : Nat)
    (hst : isStalled c iteration r = true) :
    1 < c.stepDiffSigma * c.stepDiffSigma * ((ms.length : F) - 1) := by
  rw [running_aux s ms hne] at hr
  simp only [Option.some.injEq] at hr
  subst hr
  unfold isStalled at hst
  split_ifs at hst
  have hlt := of_decide_eq_true hst
  simp only at hlt
  obtain ⟨h1, h2, h3⟩ := sq_le ms hpos
  have hl0 : 0 < ms.length := List.length_pos_iff.mpr hne
  have hl : (1 : F) ≤ (ms.length : F) := by exact_mod_cast hl0
  have hv : 0 ≤ sq ms - ms.sum * ms.sum / (ms.length : F) := by
    have e := sum_dev (ms.sum / (ms.length : F)) ms
    have e2 : sq ms - 2 * (ms.sum / (ms.length : F)) * ms.sum +
        ms.length * (ms.sum / (ms.length : F) * (ms.sum / (ms.length : F))) =
        sq ms - ms.sum * ms.sum / (ms.length : F) := by
      have : (ms.length : F) ≠ 0 := by linarith
      field_simp
      ring
    rw [← e2, ← e]
    apply List.sum_nonneg
    intro y hy
    obtain ⟨x, -, rfl⟩ := List.mem_map.mp hy
    exact mul_self_nonneg _
  generalize (ms.length : F) = n at *
  generalize ms.sum = S at *
  generalize sq ms = Q at *
  generalize c.stepDiffSigma = σ at *
  have hn : 0 < n := by linarith
  have hmean : 0 ≤ S / n := by positivity
  by_contra hcon
  have hcon := not_lt.mp hcon
  · have hvn : 0 ≤ (Q - S * S / n) / n := by positivity
    obtain ⟨g1, g2⟩ := hs _ hvn
    generalize c.sqrt ((Q - S * S / n) / n) = t at *
    -- mean² < σ² t² ≤ σ² var / n
    have a1 : S / n * (S / n) < σ * t * (σ * t) := by nlinarith
    have a2 : σ * t * (σ * t) ≤ σ * σ * ((Q - S * S / n) / n) := by
      have : σ * t * (σ * t) = σ * σ * (t * t) := by ring
      rw [this]
      exact mul_le_mul_of_nonneg_left g2 (mul_nonneg hσ hσ)
    have a3 : (Q - S * S / n) / n ≤ (S * S - S * S / n) / n := by
      apply div_le_div_of_nonneg_right _ hn.le
      linarith
    have a4 : σ * σ * ((Q - S * S / n) / n) ≤ σ * σ * ((S * S - S * S / n) / n) :=
      mul_le_mul_of_nonneg_left a3 (mul_nonneg hσ hσ)
    have a5 : σ * σ * ((S * S - S * S / n) / n) = S / n * (S / n) * (σ * σ * (n - 1)) := by
      field_simp
    have a6 : S / n * (S / n) * (σ * σ * (n - 1)) ≤ S / n * (S / n) * 1 :=
      mul_le_mul_of_nonneg_left hcon (mul_nonneg hmean hmean)
    linarith

private theorem isStalled_false (c : Settings F) (hs : IsSqrt c.sqrt)
    (hσ : c.stepDiffSigma = 1 / 10) (ms : List F) (hpos : ∀ m ∈ ms, 0 ≤ m) (hne : ms ≠ [])
    (hlen : ms.length ≤ 101) (s : Option (Running F)) (r : Running F)
    (hr : runningAfter s ms = some r) (iteration : Nat) : isStalled c iteration r = false := by
  by_contra h
  have h' : isStalled c iteration r = true := by simpa using h
  have := stall_needs_iterations c hs (by rw [hσ]; norm_num) s ms hpos r hr hne iteration h'
  rw [hσ] at this
  have hl : (ms.length : F) ≤ 101 := by exact_mod_cast hlen
  linarith

/-- With the default `stepsigma` of 0.1 and at most 100 iterations, stall detection has no effect. -/
theorem default_never_stalls (c : Settings F) (hs : IsSqrt c.sqrt) (hσ : c.stepDiffSigma = 1 / 10)
    (hd : c.detectStalling = true)
    (hmax : c.maxIterations ≤ 100) (hmin : c.minIterations ≤ 100) (env : Nat → Iteration F)
    (hsat : ∀ i, (env i).satisfied = true) (hpos : ∀ i, 0 ≤ (env i).magnitude)
    (s : Option (Running F)) :
    solve c env s = solve { c with detectStalling := false } env s := by
  have key : ∀ (fuel iteration : Nat) (t : Option (Running F)), iteration + fuel ≤ 101 →
      loop c env fuel iteration
          (runningAfter s ((List.range iteration).map fun i => (env i).magnitude)) =
        loop { c with detectStalling := false } env fuel iteration t := by
    intro fuel
    induction fuel with
    | zero => intros; rfl
    | succ fuel ih =>
      intro iteration t hle
      have hup : updateRunning (iteration + 1) (env iteration).magnitude
          (runningAfter s ((List.range iteration).map fun i => (env i).magnitude)) =
          runningAfter s ((List.range (iteration + 1)).map fun i => (env i).magnitude) := by
        rw [List.range_succ, List.map_append, List.map_singleton, runningAfter_append]
        simp
      have hne : (List.range (iteration + 1)).map (fun i => (env i).magnitude) ≠ [] := by simp
      have hrun := running_aux s _ hne
      have hst : ∀ r, runningAfter s ((List.range (iteration + 1)).map
          fun i => (env i).magnitude) = some r → isStalled c (iteration + 1) r = false := by
        intro r hr
        apply isStalled_false c hs hσ _ _ hne _ s r hr
        · intro m hm
          obtain ⟨i, -, rfl⟩ := List.mem_map.mp hm
          exact hpos i
        · simp only [List.length_map, List.length_range]
          omega
      generalize hr0 : Running.mk _ _ _ = r0 at hrun
      have hr1 : reachedStop c (iteration + 1) (env iteration)
          (runningAfter s ((List.range iteration).map fun i => (env i).magnitude)) =
          some (ready c (iteration + 1) (env iteration) false, some r0) := by
        unfold reachedStop
        rw [hd, hsat, hup, hrun]
        simp [hst r0 hrun]
      have hr2 : reachedStop { c with detectStalling := false } (iteration + 1) (env iteration) t =
          some (ready c (iteration + 1) (env iteration) false, t) := by
        unfold reachedStop
        simp only [Bool.false_and, Bool.false_eq_true, if_false]
        rfl
      cases hb : ready c (iteration + 1) (env iteration) false with
      | true =>
        rw [hb] at hr1 hr2
        rw [loop_stop c env hr1, loop_stop _ env hr2]
      | false =>
        rw [hb] at hr1 hr2
        rw [loop_go c env hr1, loop_go _ env hr2, ← hrun]
        exact ih (iteration + 1) t (by omega)
  exact key (max c.maxIterations c.minIterations + 1) 0 s (by omega)

end

/-! ## C75: the iterations -/

section
variable {F : Type} [Field F] [LinearOrder F]

/-- The members used by stall detection have a value whenever they are read: stall detection is off,
or the constraints are satisfied in the first iteration, or an earlier solve set them. -/
def Initialised (c : Settings F) (env : Nat → Iteration F) (s : Option (Running F)) : Prop :=
  c.detectStalling = false ∨ (env 0).satisfied = true ∨ s.isSome

private theorem reachedStop_some (c : Settings F) (k : Nat) (x : Iteration F)
    (s : Option (Running F))
    (h : c.detectStalling = false ∨ s.isSome ∨ (k = 1 ∧ x.satisfied = true)) :
    ∃ st s', reachedStop c k x s = some (ready c k x st, s') ∧
      (c.detectStalling = false → st = false) ∧
      (c.detectStalling = false ∨ s'.isSome) := by
  unfold reachedStop
  by_cases hd : c.detectStalling = true
  · by_cases hx : x.satisfied = true
    · rw [hd, hx]
      simp only [Bool.and_self, if_true]
      have : (updateRunning k x.magnitude s).isSome := by
        unfold updateRunning
        split_ifs with hk
        · rfl
        · rcases h with h | h | h
          · simp [hd] at h
          · simpa using h
          · exact absurd h.1 hk
      obtain ⟨r, hr⟩ := Option.isSome_iff_exists.mp this
      rw [hr]
      exact ⟨_, _, rfl, by simp, Or.inr rfl⟩
    · simp only [hx, Bool.and_false, Bool.false_eq_true, if_false]
      refine ⟨_, _, rfl, by simp, ?_⟩
      rcases h with h | h | h
      · exact Or.inl h
      · exact Or.inr h
      · exact absurd h.2 hx
  · simp only [hd, Bool.false_and, Bool.false_eq_true, if_false]
    exact ⟨_, _, rfl, by simp, Or.inl (by simp [hd])⟩

private theorem loop_spec (c : Settings F) (env : Nat → Iteration F) (fuel : Nat) :
    ∀ (k : Nat) (s : Option (Running F)),
      (c.detectStalling = false ∨ s.isSome ∨ (k = 0 ∧ (env 0).satisfied = true)) →
      k < max 1 (max c.maxIterations c.minIterations) →
      max 1 (max c.maxIterations c.minIterations) ≤ k + fuel →
      ∃ o, loop c env fuel k s = some o ∧ k < o.iterations ∧
        o.iterations ≤ max 1 (max c.maxIterations c.minIterations) ∧
        o.last = env (o.iterations - 1) ∧
        (∃ st, ready c o.iterations o.last st = true ∧ (c.detectStalling = false → st = false)) ∧
        ∀ i, k ≤ i → i + 1 < o.iterations → ready c (i + 1) (env i) false = false := by
  induction fuel with
  | zero => intro k s _ h1 h2; omega
  | succ fuel ih =>
    intro k s hi h1 h2
    obtain ⟨st, s', hr, hst, hs'⟩ := reachedStop_some c (k + 1) (env k) s (by
      rcases hi with h | h | h
      · exact Or.inl h
      · exact Or.inr (Or.inl h)
      · obtain ⟨rfl, h⟩ := h
        exact Or.inr (Or.inr ⟨rfl, h⟩))
    cases hb : ready c (k + 1) (env k) st with
    | true =>
      rw [hb] at hr
      refine ⟨_, loop_stop c env hr, by simp, by simp only; omega, by simp, ⟨st, hb, hst⟩, ?_⟩
      intro i hi1 hi2
      simp only at hi2
      omega
    | false =>
      rw [hb] at hr
      have hlt : k + 1 < max 1 (max c.maxIterations c.minIterations) := by
        by_contra hge
        have hmin : c.minIterations ≤ k + 1 := by omega
        have hmax : c.maxIterations ≤ k + 1 := by omega
        simp [ready, hmin, hmax] at hb
      obtain ⟨o, ho, hk, hle, hlast, hstop, hbefore⟩ := ih (k + 1) s' (by
        rcases hs' with h | h
        · exact Or.inl h
        · exact Or.inr (Or.inl h)) hlt (by omega)
      refine ⟨o, ?_, by omega, hle, hlast, hstop, ?_⟩
      · rw [loop_go c env hr]
        exact ho
      · intro i hi1 hi2
        by_cases hik : i = k
        · subst hik
          unfold ready at hb ⊢
          cases st with
          | false => exact hb
          | true =>
            simp only [Bool.or_true, Bool.and_true, decide_eq_false_iff_not] at hb
            simp [hb]
        · exact hbefore i (by omega) hi2

/-- C75: a solve ends, after at least one iteration, at least the minimum and at most the maximum
number (or the minimum, if that is larger) of iterations; it does not go on after an iteration in
which the solver converged and the constraints were satisfied, when the minimum was reached. -/
theorem solve_terminates (c : Settings F) (env : Nat → Iteration F) (s : Option (Running F))
    (hi : Initialised c env s) :
    ∃ o, solve c env s = some o ∧ 1 ≤ o.iterations ∧ c.minIterations ≤ o.iterations ∧
      o.iterations ≤ max 1 (max c.maxIterations c.minIterations) ∧
      o.last = env (o.iterations - 1) ∧
      ∀ i, c.minIterations ≤ i + 1 → i + 1 < o.iterations →
        ¬ (hasConverged c (env i) = true ∧ (env i).satisfied = true) := by
  obtain ⟨o, ho, hk, hle, hlast, ⟨st, hst, -⟩, hbefore⟩ :=
    loop_spec c env (max c.maxIterations c.minIterations + 1) 0 s (by
      rcases hi with h | h | h
      · exact Or.inl h
      · exact Or.inr (Or.inr ⟨rfl, h⟩)
      · exact Or.inr (Or.inl h)) (by omega) (by omega)
  refine ⟨o, ho, by omega, ?_, hle, hlast, ?_⟩
  · unfold ready at hst
    simp only [Bool.and_eq_true, decide_eq_true_eq] at hst
    exact hst.1
  · rintro i hmin hlt ⟨hc, hsat⟩
    have := hbefore i (by omega) hlt
    simp [ready, hmin, hc, hsat] at this

/-- C75: without stall detection, the result says more iterations than the maximum exactly when the
solve did not converge or the constraints were not satisfied, which is what `flagunconverged` tests
(DDECal.cc:720-739).  Not for all settings, see `stalled_looks_converged` and `min_above_max`. -/
theorem unconverged_partial (c : Settings F) (env : Nat → Iteration F) (s : Option (Running F))
    (hd : c.detectStalling = false) (hmm : c.minIterations ≤ c.maxIterations)
    (hmax : 1 ≤ c.maxIterations) (o : Outcome F) (ho : solve c env s = some o) :
    c.maxIterations < resultIterations c o ↔
      ¬ (hasConverged c o.last = true ∧ o.last.satisfied = true) := by
  obtain ⟨o', ho', hk, hle, hlast, ⟨st, hst, hst0⟩, -⟩ :=
    loop_spec c env (max c.maxIterations c.minIterations + 1) 0 s (Or.inl hd) (by omega) (by omega)
  have : o = o' := by
    unfold solve at ho
    rw [ho] at ho'
    exact Option.some.inj ho'
  subst this
  unfold resultIterations
  by_cases hc : hasConverged c o.last = true ∧ o.last.satisfied = true
  · have : (hasConverged c o.last && o.last.satisfied) = true := by simp [hc]
    rw [if_pos this]
    constructor
    · intro h; omega
    · intro h; exact absurd hc h
  · have hf : (hasConverged c o.last && o.last.satisfied) = false := by
      simpa using hc
    rw [hf]
    simp only [Bool.false_eq_true, if_false, hc, not_false_eq_true, iff_true]
    rw [hst0 hd] at hst
    unfold ready at hst
    rw [hf] at hst
    simp only [Bool.or_false, Bool.and_eq_true, decide_eq_true_eq] at hst
    omega

/-- When the constraints are not satisfied in the first iteration but are in the second one, stall
detection reads members that never got a value. -/
theorem stall_uninitialised (c : Settings F) (env : Nat → Iteration F)
    (hd : c.detectStalling = true) (h0 : (env 0).satisfied = false)
    (h1 : (env 1).satisfied = true) (hmax : 2 ≤ c.maxIterations) :
    solve c env none = none := by
  have hr0 : reachedStop c 1 (env 0) none = some (false, none) := by
    have : ¬ c.maxIterations ≤ 1 := by omega
    simp [reachedStop, h0, ready, this]
  have hr1 : reachedStop c 2 (env 1) none = none := by
    simp [reachedStop, h1, hd, updateRunning]
  unfold solve
  have : ∃ f, max c.maxIterations c.minIterations + 1 = f + 2 :=
    ⟨max c.maxIterations c.minIterations - 1, by omega⟩
  obtain ⟨f, hf⟩ := this
  rw [hf, loop_go c env hr0]
  unfold loop
  simp [hr1]

end

/-- A square root that is rounded down to an integer. -/
def exSqrt (x : ℚ) : ℚ := (Nat.sqrt x.floor.toNat : ℚ)

private theorem exSqrt_ok : IsSqrt exSqrt := by
  intro x hx
  refine ⟨by unfold exSqrt; positivity, ?_⟩
  unfold exSqrt
  have h1 : Nat.sqrt x.floor.toNat * Nat.sqrt x.floor.toNat ≤ x.floor.toNat := Nat.sqrt_le _
  have h0 : 0 ≤ x.floor := by
    rw [Rat.le_floor_iff]
    exact_mod_cast hx
  have h2 : (x.floor.toNat : ℚ) = (x.floor : ℚ) := by
    have : ((x.floor.toNat : ℤ) : ℚ) = (x.floor : ℚ) := by rw [Int.toNat_of_nonneg h0]
    exact_mod_cast this
  calc ((Nat.sqrt x.floor.toNat : ℚ)) * (Nat.sqrt x.floor.toNat : ℚ)
      ≤ (x.floor.toNat : ℚ) := by exact_mod_cast h1
    _ = (x.floor : ℚ) := h2
    _ ≤ x := Rat.floor_le x

/-- Settings with stall detection, as an example. -/
def exSettings (sigma : ℚ) (detect : Bool) (minIter maxIter : Nat) : Settings ℚ :=
  { minIterations := minIter, maxIterations := maxIter, accuracy := 1 / 10000,
    constraintAccuracy := 1 / 1000, detectStalling := detect, stepDiffSigma := sigma,
    sqrt := exSqrt }

/-- One large step, and then steps with magnitude one. -/
def exEnv (i : Nat) : Iteration ℚ := { satisfied := true, magnitude := if i = 0 then 1000 else 1 }

/-- C75 does not hold with stall detection: a solve that stalled has a number of iterations that is
not above the maximum although it did not converge, so that `flagunconverged` does not flag its
solutions. -/
theorem stalled_looks_converged :
    ∃ o, solve (exSettings (1 / 2) true 0 50) exEnv none = some o ∧
      resultIterations (exSettings (1 / 2) true 0 50) o ≤ 50 ∧
      hasConverged (exSettings (1 / 2) true 0 50) o.last = false := by
  have h : (solve (exSettings (1 / 2) true 0 50) exEnv none).map
      (fun o => (o.iterations, o.last.magnitude, o.last.satisfied)) = some (30, 1, true) := by
    decide +kernel
  obtain ⟨o, ho, hv⟩ := Option.map_eq_some_iff.mp h
  simp only [Prod.mk.injEq] at hv
  obtain ⟨h1, h2, h3⟩ := hv
  have hc : hasConverged (exSettings (1 / 2) true 0 50) o.last = false := by
    simp [hasConverged, h2, h3, exSettings]
    norm_num
  refine ⟨o, ho, ?_, hc⟩
  unfold resultIterations
  rw [hc, h1, h3]
  decide

/-- Nor does it hold when the minimum number of iterations is above the maximum: then a solve that
converged has more iterations than the maximum. -/
theorem min_above_max :
    ∃ o, solve (exSettings (1 / 10) false 10 5) (fun _ => ⟨true, 0⟩) none = some o ∧
      5 < resultIterations (exSettings (1 / 10) false 10 5) o ∧
      hasConverged (exSettings (1 / 10) false 10 5) o.last = true := by
  have h : (solve (exSettings (1 / 10) false 10 5) (fun _ => ⟨true, 0⟩) none).map
      (fun o => (o.iterations, o.last.magnitude, o.last.satisfied)) = some (10, 0, true) := by
    decide +kernel
  obtain ⟨o, ho, hv⟩ := Option.map_eq_some_iff.mp h
  simp only [Prod.mk.injEq] at hv
  obtain ⟨h1, h2, h3⟩ := hv
  have hc : hasConverged (exSettings (1 / 10) false 10 5) o.last = true := by
    simp [hasConverged, h2, h3, exSettings]
  refine ⟨o, ho, ?_, hc⟩
  unfold resultIterations
  rw [hc, h1, h3]
  decide

/-- What an earlier solve left behind affects a later one when the constraints are not satisfied in
the first iteration of the later one: the number of iterations depends on it. -/
theorem stall_stale :
    let env : Nat → Iteration ℚ := fun i => { satisfied := i != 0, magnitude := 1 }
    ((solve (exSettings (1 / 2) true 0 50) env (some ⟨1, 1, 0⟩)).map (·.iterations) = some 50) ∧
      ((solve (exSettings (1 / 2) true 0 50) env (some ⟨1, 1000, 0⟩)).map (·.iterations) =
        some 30) := by decide +kernel

example : IsSqrt exSqrt := exSqrt_ok
example : runningAfter none [1, 2, (6 : ℚ)] = some ⟨3, 3, 14⟩ := by decide +kernel
/-- A case in which the solve is stalled. -/
example : isStalled (exSettings (1 / 2) true 0 50) 30 ⟨30, 1029 / 30, 29 * 999 * 999 / 30⟩ = true := by
  decide +kernel
example : ((solve (exSettings (1 / 10) true 0 50) exEnv none).map (·.iterations)) = some 50 := by
  decide +kernel
example : ((solve (exSettings (1 / 10) false 3 50)
    (fun i => ⟨i != 0, 1 / (10 : ℚ) ^ i⟩) none).map (·.iterations)) = some 5 := by decide +kernel
example : Initialised (exSettings (1 / 2) true 0 50) exEnv none := Or.inr (Or.inl rfl)

end DP3.SolverBase
