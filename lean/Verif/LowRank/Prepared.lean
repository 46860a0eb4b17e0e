import Mathlib.Tactic.Ring
import Mathlib.Tactic.Linarith
import Mathlib.Tactic.IntervalCases
import Verif.LowRank.CorrProps
import Verif.SolverTools.Model

/-!
# The low rank solver with the data that DDECal prepares for it

DDECal weighs the data in linear mode for the low rank solver, and gives it the weights as well. The preparation is that
of `Verif.SolverTools`. There is one direction, so that the residual with the direction is the data.
-/

namespace DP3.LowRank

set_option linter.unusedSimpArgs false

open ComplexConjugate

/-- A visibility before the preparation; `finite` values are `some`. -/
structure Raw where
  sol : Nat
  a1 : Nat
  a2 : Nat
  flags : Nat → Bool
  weight : Nat → ℝ
  data : Nat → Option ℂ
  model : Nat → Option ℂ

/-- What AssignAndWeight gets for it, ddecal/gain_solvers/SolverTools.cc:91-128. -/
noncomputable def Raw.input (r : Raw) : SolverTools.Input ℂ :=
  ⟨r.flags, fun k => some ((r.weight k : ℝ) : ℂ), r.data, [r.model]⟩

/-- The visibility that the solver gets: AssignAndWeight in linear mode (steps/DDECal.cc:643-647), and the constructor of
SolveData (ddecal/gain_solvers/SolveData.cc:146-177), which also copies the weights. -/
noncomputable def Raw.prepared (r : Raw) : Vis :=
  let o := SolverTools.assignAndWeight true some 4 r.input
  ⟨r.sol, r.a1, r.a2, fun k => o.data.getD k none, r.weight, fun k => ((o.models.getD 0 []).getD k none).getD 0⟩

/-- The visibility itself. -/
noncomputable def Raw.plain (r : Raw) : Vis := ⟨r.sol, r.a1, r.a2, r.data, r.weight, fun k => (r.model k).getD 0⟩

/-- The visibility is to be used: no flag is set and all values are finite. -/
def Raw.Good (r : Raw) : Prop := ∀ k < 4, r.flags k = false ∧ (r.data k).isSome ∧ (r.model k).isSome

private theorem anyFlag_good (r : Raw) : SolverTools.anyFlag 4 r.input = false ↔ r.Good := by
  have h4 : List.range 4 = [0, 1, 2, 3] := rfl
  have hg : r.Good ↔ (r.flags 0 = false ∧ (r.data 0).isSome ∧ (r.model 0).isSome) ∧
      (r.flags 1 = false ∧ (r.data 1).isSome ∧ (r.model 1).isSome) ∧
      (r.flags 2 = false ∧ (r.data 2).isSome ∧ (r.model 2).isSome) ∧
      (r.flags 3 = false ∧ (r.data 3).isSome ∧ (r.model 3).isSome) := by
    constructor
    · intro h
      exact ⟨h 0 (by omega), h 1 (by omega), h 2 (by omega), h 3 (by omega)⟩
    · rintro ⟨h0, h1, h2, h3⟩ k hk
      interval_cases k
      · exact h0
      · exact h1
      · exact h2
      · exact h3
  rw [hg]
  simp [SolverTools.anyFlag, h4, Raw.input]
  tauto

private theorem prepared_bad (r : Raw) (h : ¬ r.Good) (k : Nat) (hk : k < 4) :
    r.prepared.data k = some 0 ∧ r.prepared.model k = 0 := by
  have hf : SolverTools.anyFlag 4 r.input = true := by
    rw [← anyFlag_good] at h
    simpa using h
  have h4 : List.range 4 = [0, 1, 2, 3] := rfl
  simp only [Raw.prepared, SolverTools.assignAndWeight, hf, SolverTools.weighMasked, if_true, h4]
  simp only [Raw.input, List.map_cons, List.map_nil, List.getD_cons_zero]
  interval_cases k <;> simp [SolverTools.weighMasked, h4]

private theorem prepared_good (r : Raw) (h : r.Good) (k : Nat) (hk : k < 4) :
    r.prepared.data k = (r.data k).map (fun d : ℂ => (r.weight k : ℂ) * d) ∧
      r.prepared.model k = r.weight k * (r.model k).getD 0 := by
  have hf : SolverTools.anyFlag 4 r.input = false := (anyFlag_good r).mpr h
  have h4 : List.range 4 = [0, 1, 2, 3] := rfl
  obtain ⟨_, h1, h2⟩ := h k hk
  obtain ⟨d, hd⟩ := Option.isSome_iff_exists.mp h1
  obtain ⟨m, hm⟩ := Option.isSome_iff_exists.mp h2
  simp only [Raw.prepared, SolverTools.assignAndWeight, hf, SolverTools.weighMasked, h4]
  simp only [Raw.input, List.map_cons, List.map_nil, List.getD_cons_zero, SolverTools.prepare, if_true]
  interval_cases k <;> simp [hd, hm, SolverTools.mul, mul_comm, SolverTools.weighMasked, h4]

private theorem about_prepared (sol : Nat) (rs : List Raw) (hg : ∀ r ∈ rs, r.Good) (i j : Nat) :
    about sol (rs.map Raw.prepared) i j =
      (about sol (rs.map Raw.plain) i j).map fun t => ((t.2.1 : ℂ) * t.1, t.2.1, (t.2.1 : ℂ) * t.2.2) := by
  induction rs with
  | nil => simp [about]
  | cons r rs ih =>
    have hcons : ∀ (v : Vis) vs, about sol (v :: vs) i j = about sol [v] i j ++ about sol vs i j := by
      intro v vs
      simp [about]
    rw [List.map_cons, List.map_cons, hcons, hcons r.plain, ih fun r hr => hg r (by simp [hr]), List.map_append]
    congr 1
    have hr := hg r (by simp)
    have hsol : r.prepared.sol = r.sol := rfl
    have ha1 : r.prepared.a1 = r.a1 := rfl
    have ha2 : r.prepared.a2 = r.a2 := rfl
    have hw : r.prepared.weight = r.weight := rfl
    simp only [about, List.flatMap_cons, List.flatMap_nil, List.append_nil, hsol, ha1, ha2, hw]
    by_cases hs : r.sol = sol
    · simp only [hs, if_true, Raw.plain, List.map_flatMap]
      have h2 : List.range 2 = [0, 1] := rfl
      have key : ∀ x < 2, ∀ y < 2, (match r.prepared.data (2 * x + y) with
          | none => []
          | some d =>
            (if i = 2 * r.a1 + x ∧ j = 2 * r.a2 + y then [(d, r.weight (2 * x + y), r.prepared.model (2 * x + y))] else []) ++
            (if i = 2 * r.a2 + y ∧ j = 2 * r.a1 + x then
              [(conj d, r.weight (2 * x + y), conj (r.prepared.model (2 * x + y)))] else [])) =
          (match r.data (2 * x + y) with
          | none => []
          | some d =>
            (if i = 2 * r.a1 + x ∧ j = 2 * r.a2 + y then [(d, r.weight (2 * x + y), (r.model (2 * x + y)).getD 0)] else []) ++
            (if i = 2 * r.a2 + y ∧ j = 2 * r.a1 + x then
              [(conj d, r.weight (2 * x + y), conj ((r.model (2 * x + y)).getD 0))] else [])).map
            fun (t : ℂ × ℝ × ℂ) => ((t.2.1 : ℂ) * t.1, t.2.1, (t.2.1 : ℂ) * t.2.2) := by
        intro x hx y hy
        obtain ⟨hd, hm⟩ := prepared_good r hr (2 * x + y) (by omega)
        obtain ⟨_, h1, _⟩ := hr (2 * x + y) (by omega)
        obtain ⟨d, hd'⟩ := Option.isSome_iff_exists.mp h1
        rw [hd, hm, hd']
        simp only [Option.map_some, List.map_append]
        congr 1
        · split <;> simp
        · split <;> simp
      refine List.flatMap_congr ?_
      intro x hx
      refine List.flatMap_congr ?_
      intro y hy
      exact key x (List.mem_range.mp hx) y (List.mem_range.mp hy)
    · simp only [hs, if_false, Raw.plain, List.map_nil]

/-- C227, for data without flags and values that are not finite, and with the weights to the third power; otherwise the claim
is false (`flagged_not_finite`, `weights_wrong`): an element of the matrix of correlations is the least squares
solution for the product of gains from the data as they were before the preparation. -/
theorem prepared_least_squares_partial (sol : Nat) (rs : List Raw) (hg : ∀ r ∈ rs, r.Good) (i j : Nat)
    (hw : ∀ t ∈ about sol (rs.map Raw.plain) i j, 0 < t.2.1) (hm : ∀ t ∈ about sol (rs.map Raw.plain) i j, t.2.2 ≠ 0) :
    ∃ c, correlation sol (rs.map Raw.prepared) i j = some c ∧
      ∀ c', ((about sol (rs.map Raw.plain) i j).map fun t => t.2.1 ^ 3 * Complex.normSq (t.1 - c * t.2.2)).sum ≤
        ((about sol (rs.map Raw.plain) i j).map fun t => t.2.1 ^ 3 * Complex.normSq (t.1 - c' * t.2.2)).sum := by
  have hab := about_prepared sol rs hg i j
  obtain ⟨c, hc, hmin, _⟩ := correlation_least_squares_partial sol (rs.map Raw.prepared) i j (by
    rw [hab]
    intro t ht
    obtain ⟨t', ht', rfl⟩ := List.mem_map.mp ht
    exact le_of_lt (hw t' ht')) (by
    rw [hab]
    intro t ht
    obtain ⟨t', ht', rfl⟩ := List.mem_map.mp ht
    have := hw t' ht'
    exact mul_ne_zero (by exact_mod_cast this.ne') (hm t' ht'))
  refine ⟨c, hc, ?_⟩
  intro c'
  have := hmin c'
  rw [hab, List.map_map, List.map_map] at this
  have he : ∀ (c : ℂ), (about sol (rs.map Raw.plain) i j).map ((fun t : ℂ × ℝ × ℂ => t.2.1 * Complex.normSq (t.1 - c * t.2.2)) ∘
      fun t => ((t.2.1 : ℂ) * t.1, t.2.1, (t.2.1 : ℂ) * t.2.2)) =
      (about sol (rs.map Raw.plain) i j).map fun t => t.2.1 ^ 3 * Complex.normSq (t.1 - c * t.2.2) := by
    intro c
    refine List.map_congr_left ?_
    intro t _
    simp only [Function.comp]
    rw [show ((t.2.1 : ℂ) * t.1 - c * ((t.2.1 : ℂ) * t.2.2)) = (t.2.1 : ℂ) * (t.1 - c * t.2.2) by ring, Complex.normSq_mul,
      Complex.normSq_ofReal]
    ring
  rw [he, he] at this
  exact this

private theorem mem_about (sol : Nat) (vs : List Vis) (v : Vis) (hv : v ∈ vs) (hs : v.sol = sol) (d : ℂ) (hd : v.data 0 = some d) :
    (d, v.weight 0, v.model 0) ∈ about sol vs (v.a1 * 2) (v.a2 * 2) := by
  unfold about
  rw [List.mem_flatMap]
  refine ⟨v, hv, ?_⟩
  rw [if_pos hs, List.mem_flatMap]
  refine ⟨0, by simp, ?_⟩
  rw [List.mem_flatMap]
  refine ⟨0, by simp, ?_⟩
  simp [hd, mul_comm]

/-- C227: a flagged visibility (or one with a value that is not finite) makes the solutions of all antennas not finite, if
there is another visibility of the same antennas that is to be used. -/
theorem flagged_not_finite {n : Nat} (h : 0 < n) (nLra nPower : Nat) (start x : Fin n → ℂ) (sol : Nat) (rs : List Raw)
    (hw : ∀ r ∈ rs, ∀ k, 0 ≤ r.weight k) (bad good : Raw) (hb : bad ∈ rs) (hbs : bad.sol = sol) (hbad : ¬ bad.Good)
    (hgm : good ∈ rs) (hgs : good.sol = sol) (hgood : good.Good) (h1 : bad.a1 = good.a1) (h2 : bad.a2 = good.a2)
    (hpos : 0 < good.weight 0) (hm : good.model 0 ≠ some 0) (hn : good.a1 * 2 < n ∧ good.a2 * 2 < n) :
    solveSolution h nLra nPower start x sol (rs.map Raw.prepared) = none := by
  obtain ⟨hbd, hbm⟩ := prepared_bad bad hbad 0 (by omega)
  obtain ⟨hgd, hgmod⟩ := prepared_good good hgood 0 (by omega)
  obtain ⟨_, hd, hmod⟩ := hgood 0 (by omega)
  obtain ⟨d, hd⟩ := Option.isSome_iff_exists.mp hd
  obtain ⟨m, hmod⟩ := Option.isSome_iff_exists.mp hmod
  have hm0 : m ≠ 0 := by
    intro e
    rw [hmod, e] at hm
    exact hm rfl
  have m1 := mem_about sol (rs.map Raw.prepared) bad.prepared (List.mem_map_of_mem hb) hbs 0 hbd
  have m2 := mem_about sol (rs.map Raw.prepared) good.prepared (List.mem_map_of_mem hgm) hgs (good.weight 0 * d)
    (by rw [hgd, hd]; rfl)
  have e1 : bad.prepared.a1 = good.prepared.a1 := h1
  have e2 : bad.prepared.a2 = good.prepared.a2 := h2
  rw [e1, e2] at m1
  have hc : correlation sol (rs.map Raw.prepared) (good.prepared.a1 * 2) (good.prepared.a2 * 2) = none := by
    refine zero_model sol _ _ _ _ _ m1 hbm ?_ m2 hpos ?_
    · intro t ht
      unfold about at ht
      simp only [List.mem_flatMap] at ht
      obtain ⟨v, hv, ht⟩ := ht
      obtain ⟨r, hr, rfl⟩ := List.mem_map.mp hv
      split at ht
      · simp only [List.mem_flatMap] at ht
        obtain ⟨a, _, b, _, ht⟩ := ht
        have hrw := hw r hr
        split at ht
        · simp at ht
        · rcases List.mem_append.mp ht with ht | ht <;> split at ht
          · rw [List.mem_singleton] at ht
            rw [ht]
            exact hrw _
          · simp at ht
          · rw [List.mem_singleton] at ht
            rw [ht]
            exact hrw _
          · simp at ht
      · simp at ht
    · dsimp only
      rw [hgmod, hmod]
      exact mul_ne_zero (by exact_mod_cast hpos.ne') hm0
  unfold solveSolution
  have hfin : finiteMatrix (fun (i j : Fin n) => correlation sol (rs.map Raw.prepared) i j) = none := by
    unfold finiteMatrix
    rw [if_neg]
    intro hall
    have := hall ⟨good.a1 * 2, hn.1⟩ ⟨good.a2 * 2, hn.2⟩
    have hc' : correlation sol (rs.map Raw.prepared) (good.a1 * 2) (good.a2 * 2) = none := hc
    dsimp only at this
    rw [hc'] at this
    simp at this
  rw [hfin]
  rfl

/-- A visibility of antennas 0 and 1 with model one, for the examples. -/
private noncomputable def raw (flag : Bool) (w : ℝ) (d : ℂ) : Raw :=
  ⟨0, 0, 1, fun _ => flag, fun _ => w, fun _ => some d, fun _ => some 1⟩

private theorem raw_good (w : ℝ) (d : ℂ) : (raw false w d).Good := by
  intro k _
  simp [raw]

private theorem about_raw (w w' : ℝ) (d d' : ℂ) :
    about 0 [(raw false w d).plain, (raw false w' d').plain] 0 2 = [(d, w, 1), (d', w', 1)] := by
  simp [about, raw, Raw.plain, List.range_succ]

/-- C227: the weights are not those of the data. Of values 0 with weight 1 and 1 with weight 2 and a model one, the least squares
solution is 2/3, but the element of the matrix is 8/9. -/
theorem weights_wrong : ∃ c, correlation 0 ([raw false 1 0, raw false 2 1].map Raw.prepared) 0 2 = some c ∧ c = 8 / 9 ∧
    ∃ c', ((about 0 ([raw false 1 0, raw false 2 1].map Raw.plain) 0 2).map fun t => t.2.1 * Complex.normSq (t.1 - c' * t.2.2)).sum <
      ((about 0 ([raw false 1 0, raw false 2 1].map Raw.plain) 0 2).map fun t => t.2.1 * Complex.normSq (t.1 - c * t.2.2)).sum := by
  have hg : ∀ r ∈ [raw false 1 0, raw false 2 1], r.Good := by
    intro r hr
    rcases List.mem_cons.mp hr with rfl | hr
    · exact raw_good _ _
    · rw [List.mem_singleton.mp hr]
      exact raw_good _ _
  have hab := about_prepared 0 _ hg 0 2
  have hpl : about 0 ([raw false 1 0, raw false 2 1].map Raw.plain) 0 2 = [(0, 1, 1), (1, 2, 1)] := about_raw 1 2 0 1
  rw [hpl] at hab
  have hc := correlation_least_squares_partial 0 ([raw false 1 0, raw false 2 1].map Raw.prepared) 0 2 (by rw [hab]; simp) (by rw [hab]; simp)
  obtain ⟨c, hc, _, huniq⟩ := hc
  have h89 : (8 / 9 : ℂ) = c := by
    apply huniq
    · rw [hab]
      exact ⟨_, List.mem_cons_self, by simp⟩
    · intro c''
      rw [hab]
      simp only [List.map_cons, List.map_nil, List.sum_cons, List.sum_nil, Complex.normSq_apply]
      simp
      norm_num
      nlinarith [sq_nonneg (9 * c''.re - 8), sq_nonneg c''.im]
  refine ⟨c, hc, h89.symm, 2 / 3, ?_⟩
  rw [hpl, ← h89]
  simp only [List.map_cons, List.map_nil, List.sum_cons, List.sum_nil, Complex.normSq_apply]
  simp
  norm_num

-- `prepared_least_squares_partial` and `flagged_not_finite`: the hypotheses hold.
example : (∀ t ∈ about 0 ([raw false 1 0, raw false 2 1].map Raw.plain) 0 2, 0 < t.2.1) ∧
    (∀ t ∈ about 0 ([raw false 1 0, raw false 2 1].map Raw.plain) 0 2, t.2.2 ≠ 0) := by
  have hpl : about 0 ([raw false 1 0, raw false 2 1].map Raw.plain) 0 2 = [(0, 1, 1), (1, 2, 1)] := about_raw 1 2 0 1
  rw [hpl]
  simp

example : solveSolution (n := 4) (by omega) 5 10 (fun _ => 1) (fun _ => 1) 0 ([raw false 1 3, raw true 2 1].map Raw.prepared) = none := by
  refine flagged_not_finite _ 5 10 _ _ 0 _ ?_ (raw true 2 1) (raw false 1 3) (by simp) rfl ?_ (by simp) rfl (raw_good _ _) rfl rfl
    (by simp [raw]) (by simp [raw]) (by simp [raw])
  · intro r hr k
    rcases List.mem_cons.mp hr with rfl | hr
    · simp [raw]
    · rw [List.mem_singleton.mp hr]
      simp [raw]
  · intro h
    have := (h 0 (by omega)).1
    simp [raw] at this

end DP3.LowRank
