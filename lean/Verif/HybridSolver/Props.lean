import Verif.HybridSolver.Model

/-!
# Properties of the hybrid solver (C87)
-/

namespace DP3.HybridSolver

/-! ## One stage -/

theorem loop_spec (s : Stage) : ∀ fuel i, s.min + s.current + 1 ≤ i + fuel →
    (∀ j, 1 ≤ j → j ≤ i → stops s j = false) → s.min + s.current + 1 ≥ i → fuel ≥ 1 →
    stops s (loop s fuel i) = true ∧ i + 1 ≤ loop s fuel i ∧ loop s fuel i ≤ s.min + s.current + 1 ∧
      ∀ j, 1 ≤ j → j < loop s fuel i → stops s j = false := by
  intro fuel
  induction fuel with
  | zero => intro i _ _ _ h; omega
  | succ f ih =>
    intro i hf hbefore hi _
    rw [loop]
    split
    · rename_i h
      refine ⟨h, Nat.le_refl _, ?_, fun j h1 h2 => hbefore j h1 (by omega)⟩
      rcases Nat.lt_or_ge i (s.min + s.current + 1) with h' | h'
      · omega
      · have := hbefore (s.min + s.current + 1) (by omega) (by omega)
        simp [stops] at this
        omega
    · rename_i h
      have hstop : stops s (s.min + s.current + 1) = true := by simp [stops]; omega
      have hlt : i + 1 < s.min + s.current + 1 := by
        rcases Nat.lt_trichotomy (i + 1) (s.min + s.current + 1) with h' | h' | h'
        · exact h'
        · rw [h'] at h; exact absurd hstop h
        · have := hbefore (s.min + s.current + 1) (by omega) (by omega)
          rw [hstop] at this; cases this
      obtain ⟨h1, h2, h3, h4⟩ := ih (i + 1) (by omega) (by
        intro j hj1 hj2
        rcases Nat.lt_or_ge i j with h' | h'
        · have : j = i + 1 := by omega
          subst this; simpa using h
        · exact hbefore j hj1 h') (by omega) (by omega)
      exact ⟨h1, by omega, h3, h4⟩

/-- A stage runs until the first iteration at which it may stop. -/
theorem performed_spec (s : Stage) : stops s (performed s) = true ∧ 1 ≤ performed s ∧
    ∀ j, 1 ≤ j → j < performed s → stops s j = false := by
  obtain ⟨h1, h2, -, h4⟩ := loop_spec s (s.min + s.current + 1) 0 (by omega) (by intro j _ _; omega) (by omega)
    (by omega)
  exact ⟨h1, Nat.le_trans (by omega) h2, h4⟩

/-- C87. A stage does at least one iteration, and otherwise not more than its minimum and maximum allow. -/
theorem performed_le (s : Stage) : 1 ≤ performed s ∧ performed s ≤ max 1 (max s.min s.current) := by
  obtain ⟨-, h1, h2⟩ := performed_spec s
  refine ⟨h1, ?_⟩
  rcases Nat.lt_or_ge (max 1 (max s.min s.current)) (performed s) with h | h
  · have := h2 (max 1 (max s.min s.current)) (by omega) h
    simp [stops] at this
    omega
  · exact h

theorem performed_current (s : Stage) (c : Nat) (h : s.min ≤ 1) :
    1 ≤ performed { s with current := c } ∧ performed { s with current := c } ≤ max 1 c := by
  obtain ⟨h1, h2⟩ := performed_le { s with current := c }
  refine ⟨h1, Nat.le_trans h2 ?_⟩
  show max 1 (max s.min c) ≤ max 1 c
  omega

theorem reported_bounds (s : Stage) : performed s ≤ reported s ∧ reported s ≤ performed s + 1 := by
  unfold reported; split <;> omega

/-- Reported above the maximum: neither converged nor stalled before it, or never allowed to. -/
theorem reported_gt (s : Stage) (hmin : s.min ≤ s.current) (hc : 1 ≤ s.current) (h : reported s > s.current) :
    performed s = s.current ∧ s.converged s.current = false := by
  have h1 := (performed_le s).2
  have h2 := reported_bounds s
  have h3 : performed s = s.current := by
    unfold reported at h
    split at h <;> omega
  refine ⟨h3, ?_⟩
  unfold reported at h
  rw [h3] at h
  cases hb : s.converged s.current with
  | false => rfl
  | true => rw [hb] at h; simp at h

/-- Stages of the solver factory: their settings except the maximum are those of the user, and no minimum
number of iterations above one is set. -/
structure TwoStages (n : Nat) (a b : Stage) : Prop where
  first : a.stored = firstMax n
  second : b.stored = n
  min1 : a.min ≤ 1
  min2 : b.min ≤ 1

theorem firstMax_lt {n : Nat} (h : 2 ≤ n) : 1 ≤ firstMax n ∧ firstMax n < n := by
  unfold firstMax
  have : n / 6 ≤ n / 2 := Nat.div_le_div_left (by omega) (by omega)
  omega

/-- The first stage as it is run. -/
theorem limit_first {n : Nat} (h : 2 ≤ n) {a b : Stage} (hs : TwoStages n a b) :
    limit n a = { a with current := firstMax n } := by
  have := firstMax_lt h
  simp only [limit, hs.first]
  rw [if_neg (by omega)]

theorem limit_second {n m : Nat} (hm : m ≤ n) {a b : Stage} (hs : TwoStages n a b) :
    limit m b = { b with current := m } := by
  simp only [limit, hs.second]
  split
  · rfl
  · have : n = m := by omega
    rw [this]

/-- What remains for the second stage. -/
def remaining (n : Nat) (a : Stage) : Nat :=
  if reported { a with current := firstMax n } ≤ firstMax n then n - reported { a with current := firstMax n }
  else n - firstMax n

theorem remaining_bounds {n : Nat} (h : 2 ≤ n) (a : Stage) (hmin : a.min ≤ 1) :
    1 ≤ remaining n a ∧ remaining n a ≤ n ∧ performed { a with current := firstMax n } + remaining n a ≤ n := by
  have hf := firstMax_lt h
  have h1 := performed_current a (firstMax n) hmin
  have h2 := reported_bounds { a with current := firstMax n }
  unfold remaining
  split <;> omega

theorem wrapSub_le {W a b : Nat} (h : b ≤ a) : wrapSub W a b = a - b := by simp [wrapSub, h]

/-- The course of a call for the stages of the solver factory. -/
theorem solve_two {W n : Nat} (hn : 2 ≤ n) {a b : Stage} (hs : TwoStages n a b) :
    solve W false n [a, b] =
      (if reported { b with current := remaining n a } ≤ remaining n a then
          reported { a with current := firstMax n } + reported { b with current := remaining n a } else n + 1,
        performed { a with current := firstMax n } + performed { b with current := remaining n a }) := by
  have hf := firstMax_lt hn
  have hr := remaining_bounds hn a hs.min1
  have h1 : runSolver W ⟨n, 0, false, 0⟩ a =
      ⟨remaining n a, reported { a with current := firstMax n },
        decide (reported { a with current := firstMax n } ≤ firstMax n),
        performed { a with current := firstMax n }⟩ := by
    simp only [runSolver, limit_first hn hs, Nat.zero_add, remaining]
    by_cases h : reported { a with current := firstMax n } ≤ firstMax n
    · simp [h]; rw [wrapSub_le (by omega)]
    · simp [h]; rw [wrapSub_le (by omega)]
  simp only [solve, runAll, h1, Bool.and_false, Bool.false_eq_true, if_false]
  simp only [runSolver, limit_second hr.2.1 hs, Bool.not_false, Bool.true_and]
  by_cases h : reported { b with current := remaining n a } ≤ remaining n a <;> simp [h]

/-- C87 (the hybrid solver of the solver factory, with at least two iterations and no minimum above one): the iterations
of both stages together do not exceed the maximum. -/
theorem hybrid_budget_partial {W n : Nat} (hn : 2 ≤ n) {a b : Stage} (hs : TwoStages n a b) :
    (solve W false n [a, b]).2 ≤ n := by
  rw [solve_two hn hs]
  have hr := remaining_bounds hn a hs.min1
  have h2 := performed_current b (remaining n a) hs.min2
  simp only
  omega

/-- C87. The reported number of iterations is within the maximum exactly when the last stage ended before its
maximum, and either the first one did too or the last one did not need all that remained. -/
theorem hybrid_reports_converged_iff {W n : Nat} (hn : 2 ≤ n) {a b : Stage} (hs : TwoStages n a b) :
    (solve W false n [a, b]).1 ≤ n ↔
      reported { b with current := remaining n a } ≤ remaining n a ∧
      (reported { a with current := firstMax n } ≤ firstMax n ∨
        reported { b with current := remaining n a } < remaining n a) := by
  rw [solve_two hn hs]
  have hf := firstMax_lt hn
  have h1 := performed_current a (firstMax n) hs.min1
  have h2 := reported_bounds { a with current := firstMax n }
  have hr : remaining n a = if reported { a with current := firstMax n } ≤ firstMax n then
      n - reported { a with current := firstMax n } else n - firstMax n := rfl
  split at hr <;> split <;> omega

/-- C87. A last stage that uses all its iterations without converging is reported as one more than the
maximum. -/
theorem hybrid_unconverged {W n : Nat} (hn : 2 ≤ n) {a b : Stage} (hs : TwoStages n a b)
    (hb : ∀ i, b.converged i = false ∧ b.stalled i = false) : (solve W false n [a, b]).1 = n + 1 := by
  rw [solve_two hn hs]
  have hr := remaining_bounds hn a hs.min1
  obtain ⟨h1, h2, -⟩ := performed_spec { b with current := remaining n a }
  simp only [stops, (hb _).1, (hb _).2, Bool.or_false, Bool.and_eq_true, decide_eq_true_eq] at h1
  have h3 : reported { b with current := remaining n a } > remaining n a := by
    simp only [reported, (hb _).1, Bool.false_eq_true, if_false]; omega
  rw [if_neg (by omega)]

/-- C87. The maxima that earlier calls left behind in the stages make no difference. -/
theorem solve_restores_maxima (W : Nat) (stop : Bool) (n : Nat) (stages : List Stage) (left : Stage → Nat) :
    solve W stop n (stages.map fun s => { s with current := left s }) = solve W stop n stages := by
  have key : ∀ (l : List Stage) (st : State),
      runAll W stop st (l.map fun s => { s with current := left s }) = runAll W stop st l := by
    intro l
    induction l with
    | nil => intro st; rfl
    | cons s rest ih =>
      intro st
      simp only [List.map_cons, runAll]
      have : runSolver W st { s with current := left s } = runSolver W st s := rfl
      rw [this, ih]
  simp only [solve, key]

/-- C87. With StopOnConvergence, the stages after one that ended before its maximum are not run. -/
theorem stop_on_convergence (W n : Nat) (s : Stage) (rest : List Stage)
    (h : reported (limit n s) ≤ (limit n s).current) :
    solve W true n (s :: rest) = (reported (limit n s), performed (limit n s)) := by
  simp [solve, runAll, runSolver, h]

/-- C87. With StopOnConvergence, the next stage is run after one that used its maximum without converging. -/
theorem stop_only_on_convergence (W n : Nat) (s t : Stage) (h : (limit n s).current < reported (limit n s)) :
    (solve W true n [s, t]).2 = performed (limit n s) + performed (limit (n - (limit n s).current) t) := by
  have hc : (limit n s).current ≤ n := by simp only [limit]; split <;> omega
  have h1 : runSolver W ⟨n, 0, false, 0⟩ s =
      ⟨n - (limit n s).current, reported (limit n s), false, performed (limit n s)⟩ := by
    simp only [runSolver, Nat.zero_add]
    rw [decide_eq_false (by omega)]
    simp only [Bool.false_eq_true, if_false, wrapSub_le hc]
  simp only [solve, runAll, h1, Bool.false_and, Bool.false_eq_true, if_false]
  split <;> rfl

/-! ## Examples and violations -/

/-- A stage that converges at iteration `c`, if given a maximum. -/
def convergesAt (stored c : Nat) : Stage := ⟨stored, stored, 0, fun i => decide (c ≤ i), fun _ => false⟩

/-- Never converges. -/
def never (stored : Nat) : Stage := ⟨stored, stored, 0, fun _ => false, fun _ => false⟩

/-- With 12 iterations the first stage gets 2. -/
example : TwoStages 12 (convergesAt 2 1) (convergesAt 12 5) := ⟨rfl, rfl, by decide, by decide⟩

example : solve (2 ^ 64) false 12 [convergesAt 2 1, convergesAt 12 5] = (6, 6) := by decide

example : TwoStages 12 (never 2) (never 12) := ⟨rfl, rfl, by decide, by decide⟩

example : solve (2 ^ 64) false 12 [never 2, never 12] = (13, 12) := by decide

example : solve (2 ^ 64) true 12 [convergesAt 2 1, convergesAt 12 5] = (1, 1) := by decide

example : (limit 12 (never 2)).current < reported (limit 12 (never 2)) ∧
    solve (2 ^ 64) true 12 [never 2, convergesAt 12 5] = (8, 7) := by decide

/-- C87 fails for one iteration: both stages do one. -/
theorem one_iteration_exceeds : ∃ a b, TwoStages 1 a b ∧ (solve (2 ^ 64) false 1 [a, b]).2 = 2 :=
  ⟨never 1, never 1, ⟨rfl, rfl, by decide, by decide⟩, by decide⟩

/-- C87 fails with a minimum: stages with a minimum of 4 iterations do more than the maximum of 6. -/
theorem minimum_exceeds : ∃ a b : Stage, a.stored = firstMax 6 ∧ b.stored = 6 ∧ a.min = 4 ∧ b.min = 4 ∧
    (solve (2 ^ 64) false 6 [a, b]).2 > 6 :=
  ⟨{ never 1 with min := 4 }, { never 6 with min := 4 }, rfl, rfl, rfl, rfl, by decide⟩

/-- A call whose last stage converges at the last iteration is reported as not converged. -/
theorem converged_reported_as_not : ∃ a b, TwoStages 12 a b ∧
    b.converged (performed { b with current := remaining 12 a }) = true ∧
    (solve (2 ^ 64) false 12 [a, b]).1 = 13 :=
  ⟨never 2, convergesAt 12 10, ⟨rfl, rfl, by decide, by decide⟩, by decide, by decide⟩

/-- A last stage that stalls is reported as converged. -/
theorem stalled_reported_as_converged : ∃ a b, TwoStages 12 a b ∧ (∀ i, b.converged i = false) ∧
    (solve (2 ^ 64) false 12 [a, b]).1 ≤ 12 :=
  ⟨convergesAt 2 1, { never 12 with stalled := fun i => decide (3 ≤ i) }, ⟨rfl, rfl, by decide, by decide⟩, fun _ => rfl,
    by decide⟩

/-- With three stages the iterations of the first are subtracted twice, the remaining number wraps around, and
the maximum is exceeded. -/
theorem three_stages_exceed : (solve (2 ^ 64) false 10 [convergesAt 4 4, convergesAt 4 4, never 4]).2 = 12 := by
  decide

end DP3.HybridSolver
