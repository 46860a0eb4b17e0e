import Verif.SolverChoice.Model

/-!
# The solver fits the mode, the data and the settings
-/

namespace DP3.SolverChoice

set_option linter.unusedSimpArgs false

/-- Modes in which only phases are solved for. -/
def Mode.isPhase : Mode → Prop := fun m =>
  m = .scalarPhase ∨ m = .diagonalPhase ∨ m = .tec ∨ m = .tecAndDelay ∨ m = .tecAndPhase ∨ m = .tecPhaseAndDelay ∨ m = .tecScreen

private theorem scalar_spec (b : Build) (s : Settings) (a : Algorithm) :
    (a ≠ .hybrid → createScalar b a s ≠ .error .ub) ∧ ∀ k, createScalar b a s = .ok k → k.polarizations = 1 ∧
      (s.dataUse = .full → k.data = .full) ∧ (∀ d, k ≠ .cudaDiagonal d) := by
  obtain ⟨bc, bd, bs⟩ := b
  unfold createScalar
  cases a <;> cases bd <;> simp [Kind.polarizations, Kind.data]

private theorem fullJones_spec (b : Build) (s : Settings) (a : Algorithm) :
    (a ≠ .hybrid → createFullJones b a s ≠ .error .ub) ∧ ∀ k, createFullJones b a s = .ok k → k.polarizations = 4 ∧
      k.data = .full ∧ (∀ d, k ≠ .cudaDiagonal d) := by
  obtain ⟨bc, bd, bs⟩ := b
  unfold createFullJones
  cases a <;> cases bd <;> simp [Kind.polarizations, Kind.data]

private theorem diagonal_spec (b : Build) (s : Settings) (a : Algorithm) :
    (a ≠ .hybrid → createDiagonal b a s ≠ .error .ub) ∧ ∀ k, createDiagonal b a s = .ok k → k.polarizations = 2 ∧
      (s.useGpu = false → s.dataUse = .full → k.data = .full) ∧ ((∃ d, k = .cudaDiagonal d) ↔ s.useGpu = true) ∧
      (s.useGpu = true → k.data = .dual ∧ s.dataUse = .full ∧ b.cuda = true ∧ a = .directionIterative) := by
  obtain ⟨m, al, d, g, mi, ac, av, sm, ap⟩ := s
  obtain ⟨bc, bd, bs⟩ := b
  unfold createDiagonal
  cases a <;> cases d <;> cases g <;> cases bc <;> cases bd <;> simp [Kind.polarizations, Kind.data]

private theorem map_ok (e : Except Err Kind) (p : Bool) (k : Kind × Bool) (h : e.map (·, p) = .ok k) : e = .ok k.1 ∧ k.2 = p := by
  cases e with
  | error x => exact absurd h (by simp [Except.map])
  | ok x =>
    simp only [Except.map, Except.ok.injEq] at h
    subst h
    exact ⟨rfl, rfl⟩

private theorem map_ub (e : Except Err Kind) (p : Bool) (h : e ≠ .error .ub) : e.map (·, p) ≠ .error .ub := by
  cases e with
  | error x => simpa [Except.map] using h
  | ok x => simp [Except.map]

private theorem kind_no_null (b : Build) (s : Settings) (a : Algorithm) (ha : a ≠ .hybrid) : createKind b s a ≠ .error .ub := by
  have h1 := (scalar_spec b s a).1 ha
  have h2 := (diagonal_spec b s a).1 ha
  have h4 := (fullJones_spec b s a).1 ha
  unfold createKind
  split <;> first | exact map_ub _ _ h1 | exact map_ub _ _ h2 | exact map_ub _ _ h4 | skip
  split
  · exact map_ub _ _ h1
  · simp

private theorem kind_spec (b : Build) (s : Settings) (a : Algorithm) (k : Kind × Bool) (h : createKind b s a = .ok k) :
    k.1.polarizations = s.mode.polarizations ∧ (k.2 = true ↔ s.mode.isPhase) ∧
      (s.useGpu = false → s.dataUse = .full → k.1.data = .full) ∧
      ((∃ d, k.1 = .cudaDiagonal d) ↔ s.useGpu = true ∧ s.mode.polarizations = 2) ∧
      ((∃ d, k.1 = .cudaDiagonal d) → k.1.data = .dual ∧ s.dataUse = .full ∧ b.cuda = true ∧ a = .directionIterative) := by
  have h1 := (scalar_spec b s a).2 k.1
  have h2 := (diagonal_spec b s a).2 k.1
  have h4 := (fullJones_spec b s a).2 k.1
  have hs : ∀ p, (createScalar b a s).map (·, p) = .ok k → s.mode.polarizations = 1 → (p = true ↔ s.mode.isPhase) →
      k.1.polarizations = s.mode.polarizations ∧ (k.2 = true ↔ s.mode.isPhase) ∧
      (s.useGpu = false → s.dataUse = .full → k.1.data = .full) ∧
      ((∃ d, k.1 = .cudaDiagonal d) ↔ s.useGpu = true ∧ s.mode.polarizations = 2) ∧
      ((∃ d, k.1 = .cudaDiagonal d) → k.1.data = .dual ∧ s.dataUse = .full ∧ b.cuda = true ∧ a = .directionIterative) := by
    intro p hp hm hph
    obtain ⟨e1, e2⟩ := map_ok _ _ _ hp
    obtain ⟨f1, f2, f3⟩ := h1 e1
    refine ⟨by rw [f1, hm], by rw [e2]; exact hph, fun _ => f2, ?_, fun ⟨d, hd⟩ => absurd hd (f3 d)⟩
    rw [hm]
    simp [f3]
  have hd : ∀ p, (createDiagonal b a s).map (·, p) = .ok k → s.mode.polarizations = 2 → (p = true ↔ s.mode.isPhase) →
      k.1.polarizations = s.mode.polarizations ∧ (k.2 = true ↔ s.mode.isPhase) ∧
      (s.useGpu = false → s.dataUse = .full → k.1.data = .full) ∧
      ((∃ d, k.1 = .cudaDiagonal d) ↔ s.useGpu = true ∧ s.mode.polarizations = 2) ∧
      ((∃ d, k.1 = .cudaDiagonal d) → k.1.data = .dual ∧ s.dataUse = .full ∧ b.cuda = true ∧ a = .directionIterative) := by
    intro p hp hm hph
    obtain ⟨e1, e2⟩ := map_ok _ _ _ hp
    obtain ⟨f1, f2, f3, f4⟩ := h2 e1
    refine ⟨by rw [f1, hm], by rw [e2]; exact hph, f2, ?_, fun hx => f4 (f3.mp hx)⟩
    rw [f3, hm]
    simp
  have hf : ∀ p, (createFullJones b a s).map (·, p) = .ok k → s.mode.polarizations = 4 → (p = true ↔ s.mode.isPhase) →
      k.1.polarizations = s.mode.polarizations ∧ (k.2 = true ↔ s.mode.isPhase) ∧
      (s.useGpu = false → s.dataUse = .full → k.1.data = .full) ∧
      ((∃ d, k.1 = .cudaDiagonal d) ↔ s.useGpu = true ∧ s.mode.polarizations = 2) ∧
      ((∃ d, k.1 = .cudaDiagonal d) → k.1.data = .dual ∧ s.dataUse = .full ∧ b.cuda = true ∧ a = .directionIterative) := by
    intro p hp hm hph
    obtain ⟨e1, e2⟩ := map_ok _ _ _ hp
    obtain ⟨f1, f2, f3⟩ := h4 e1
    refine ⟨by rw [f1, hm], by rw [e2]; exact hph, fun _ _ => f2, ?_, fun ⟨d, hd⟩ => absurd hd (f3 d)⟩
    rw [hm]
    simp [f3]
  unfold createKind at h
  split at h <;> rename_i hm <;>
    first
    | exact hs _ h (by rw [hm]; rfl) (by rw [hm]; simp [Mode.isPhase])
    | exact hd _ h (by rw [hm]; rfl) (by rw [hm]; simp [Mode.isPhase])
    | exact hf _ h (by rw [hm]; rfl) (by rw [hm]; simp [Mode.isPhase])
    | skip
  split at h
  · exact hs _ h (by rw [hm]; rfl) (by rw [hm]; simp [Mode.isPhase])
  · exact absurd h (by simp)

private theorem stage_ok (b : Build) (s : Settings) (a : Algorithm) (x : Stage) (h : createStage b s a = .ok x) :
    createKind b s a = .ok (x.kind, x.phaseOnly) ∧ addConstraints b s = .ok x.constraints ∧ x.maxIterations = s.maxIterations := by
  unfold createStage at h
  cases hk : createKind b s a with
  | error e => rw [hk] at h; exact absurd h (by simp [bind, Except.bind])
  | ok k =>
    cases hc : addConstraints b s with
    | error e => rw [hk, hc] at h; exact absurd h (by simp [bind, Except.bind])
    | ok c =>
      rw [hk, hc] at h
      simp only [bind, Except.bind, pure, Except.pure, Except.ok.injEq] at h
      subst h
      exact ⟨rfl, rfl, rfl⟩

private theorem solver_stages (b : Build) (s : Settings) (x : Solver) (h : createSolver b s = .ok x) :
    (s.algorithm ≠ .hybrid ∧ ∃ y, createStage b s s.algorithm = .ok y ∧ x = .single y) ∨
    (s.algorithm = .hybrid ∧ ∃ y z, createStage b s .directionSolve = .ok y ∧ createStage b s .directionIterative = .ok z ∧
      x = .hybrid [{ y with maxIterations := max 1 (s.maxIterations / 6) }, z] s.maxIterations) := by
  unfold createSolver at h
  by_cases ha : s.algorithm = .hybrid
  · rw [if_pos ha] at h
    right
    refine ⟨ha, ?_⟩
    cases hy : createStage b s .directionSolve with
    | error e => rw [hy] at h; exact absurd h (by simp [bind, Except.bind])
    | ok y =>
      cases hz : createStage b s .directionIterative with
      | error e => rw [hy, hz] at h; exact absurd h (by simp [bind, Except.bind])
      | ok z =>
        rw [hy, hz] at h
        simp only [bind, Except.bind, pure, Except.pure, Except.ok.injEq] at h
        exact ⟨y, z, rfl, rfl, h.symm⟩
  · rw [if_neg ha] at h
    left
    refine ⟨ha, ?_⟩
    cases hy : createStage b s s.algorithm with
    | error e => rw [hy] at h; exact absurd h (by simp [Except.map])
    | ok y =>
      rw [hy] at h
      simp only [Except.map, Except.ok.injEq] at h
      exact ⟨y, rfl, h.symm⟩

/-- Every stage of a solver is one that CreateSolver makes for some algorithm, but for the number of iterations. -/
private theorem each_stage (b : Build) (s : Settings) (x : Solver) (h : createSolver b s = .ok x) :
    ∀ y ∈ x.constraintSolvers, ∃ a, a ≠ .hybrid ∧ createKind b s a = .ok (y.kind, y.phaseOnly) ∧
      addConstraints b s = .ok y.constraints := by
  rcases solver_stages b s x h with ⟨ha, y, hy, rfl⟩ | ⟨_, y, z, hy, hz, rfl⟩
  · intro t ht
    simp only [Solver.constraintSolvers, List.mem_singleton] at ht
    subst ht
    obtain ⟨h1, h2, _⟩ := stage_ok b s _ _ hy
    exact ⟨_, ha, h1, h2⟩
  · intro t ht
    simp only [Solver.constraintSolvers, List.mem_cons, List.not_mem_nil, or_false] at ht
    rcases ht with rfl | rfl
    · obtain ⟨h1, h2, _⟩ := stage_ok b s _ _ hy
      exact ⟨.directionSolve, by simp, h1, h2⟩
    · obtain ⟨h1, h2, _⟩ := stage_ok b s _ _ hz
      exact ⟨.directionIterative, by simp, h1, h2⟩

/-- C233: a solver and all its stages have as many polarizations as the mode, and solve for phases only when the mode does. -/
theorem stage_polarizations (b : Build) (s : Settings) (x : Solver) (h : createSolver b s = .ok x) :
    x.polarizations = s.mode.polarizations ∧
      ∀ y ∈ x.constraintSolvers, y.kind.polarizations = s.mode.polarizations ∧ (y.phaseOnly = true ↔ s.mode.isPhase) := by
  have hall : ∀ y ∈ x.constraintSolvers, y.kind.polarizations = s.mode.polarizations ∧ (y.phaseOnly = true ↔ s.mode.isPhase) := by
    intro y hy
    obtain ⟨a, _, h1, _⟩ := each_stage b s x h y hy
    obtain ⟨h2, h3, _⟩ := kind_spec b s a _ h1
    exact ⟨h2, h3⟩
  refine ⟨?_, hall⟩
  rcases solver_stages b s x h with ⟨_, y, _, rfl⟩ | ⟨_, y, z, _, _, rfl⟩
  · exact (hall y (by simp [Solver.constraintSolvers])).1
  · exact (hall _ (by simp [Solver.constraintSolvers])).1

/-- What the constraints of a mode are for. -/
def Constraint.belongs (c : Constraint) (m : Mode) : Prop :=
  match c with
  | .amplitudeOnly => m = .scalarAmplitude ∨ m = .diagonalAmplitude ∨ m = .leakageAmplitude
  | .tec p | .approximateTec p => (m = .tec ∧ p = false) ∨ (m = .tecAndPhase ∧ p = true)
  | .tecOffsetDelay o => (m = .tecAndDelay ∧ o = false) ∨ (m = .tecPhaseAndDelay ∧ o = true)
  | .screen => m = .tecScreen
  | .rotationAndDiagonal => m = .rotationAndDiagonal
  | .rotation => m = .rotation
  | .faraday => m = .faradayRotation
  | .leakage => m = .leakage ∨ m = .leakageAmplitude
  | .antenna | .antennaInterval | .smoothness => False

/-- Constraints that can be used with all modes. -/
def Constraint.isGeneral (c : Constraint) : Prop := c = .antenna ∨ c = .antennaInterval ∨ c = .smoothness

/-- C233: every stage has the general constraints that are set, and after these the ones that belong to the mode, of which a TEC
constraint is approximate if that is set. -/
theorem stage_constraints (b : Build) (s : Settings) (x : Solver) (h : createSolver b s = .ok x) (y : Stage)
    (hy : y ∈ x.constraintSolvers) :
    ∃ general own, y.constraints = general ++ own ∧ (∀ c ∈ general, c.isGeneral) ∧
      (.antenna ∈ general ↔ s.antennaConstraint = true) ∧ (.antennaInterval ∈ general ↔ s.averaging = true) ∧
      (.smoothness ∈ general ↔ s.smoothness = true) ∧ general.Nodup ∧ own.Nodup ∧
      ∀ c, c ∈ own ↔ c.belongs s.mode ∧ (∀ p, c = .tec p → s.approximateTec = false) ∧
        (∀ p, c = .approximateTec p → s.approximateTec = true) := by
  obtain ⟨a, _, _, h1⟩ := each_stage b s x h y hy
  unfold addConstraints at h1
  cases hm : modeConstraints b s with
  | error e => rw [hm] at h1; exact absurd h1 (by simp [Except.map])
  | ok own =>
    rw [hm] at h1
    simp only [Except.map, Except.ok.injEq] at h1
    refine ⟨_, own, h1.symm, ?_⟩
    clear h1 hy h
    obtain ⟨m, al, d, g, mi, ac, av, sm, ap⟩ := s
    obtain ⟨bc, bd, bs⟩ := b
    refine ⟨?_, ?_, ?_, ?_, ?_, ?_, ?_⟩
    · cases ac <;> cases av <;> cases sm <;> simp [Constraint.isGeneral]
    · cases ac <;> cases av <;> cases sm <;> simp
    · cases ac <;> cases av <;> cases sm <;> simp
    · cases ac <;> cases av <;> cases sm <;> simp
    · cases ac <;> cases av <;> cases sm <;> simp
    · revert hm
      cases m <;> cases ap <;> cases bs <;> simp [modeConstraints] <;> (rintro rfl) <;> simp
    · revert hm
      cases m <;> cases ap <;> cases bs <;> simp [modeConstraints] <;> (rintro rfl) <;> intro c <;> cases c <;>
        simp [Constraint.belongs]

/-- C233: the first stage of a hybrid solver has at most a sixth of the iterations, but at least one; all other solvers have
all of them. -/
theorem stage_iterations (b : Build) (s : Settings) (x : Solver) (h : createSolver b s = .ok x) :
    x.constraintSolvers.map Stage.maxIterations =
      if s.algorithm = .hybrid then [max 1 (s.maxIterations / 6), s.maxIterations] else [s.maxIterations] := by
  rcases solver_stages b s x h with ⟨ha, y, hy, rfl⟩ | ⟨ha, y, z, hy, hz, rfl⟩
  · rw [if_neg ha]
    simp [Solver.constraintSolvers, (stage_ok b s _ _ hy).2.2]
  · rw [if_pos ha]
    simp [Solver.constraintSolvers, (stage_ok b s _ _ hz).2.2]

/-- C233: creating a solver gives one or throws: no null pointer is used. -/
theorem no_null (b : Build) (s : Settings) : createSolver b s ≠ .error .ub := by
  have hk : ∀ a, a ≠ .hybrid → createStage b s a ≠ .error .ub := by
    intro a ha
    have h1 := kind_no_null b s a ha
    have h2 : addConstraints b s ≠ .error .ub := by
      have : modeConstraints b s ≠ .error .ub := by
        unfold modeConstraints
        split <;> (try simp)
        split <;> simp
      unfold addConstraints
      revert this
      cases modeConstraints b s <;> simp [Except.map]
    unfold createStage
    revert h1 h2
    cases createKind b s a <;> cases addConstraints b s <;> simp [bind, Except.bind, pure, Except.pure]
    intro h _
    exact h
  unfold createSolver
  split
  · intro h
    have h1 := hk .directionSolve (by simp)
    have h2 := hk .directionIterative (by simp)
    revert h h1 h2
    cases createStage b s .directionSolve <;> cases createStage b s .directionIterative <;>
      simp [bind, Except.bind, pure, Except.pure]
    rintro rfl
    simp
  · rename_i ha
    have h1 := hk s.algorithm ha
    revert h1
    cases createStage b s s.algorithm <;> simp [Except.map]

/-- C234: with full data, which is the default, and without a GPU, a solver that is created solves. -/
theorem full_solves_partial (b : Build) (s : Settings) (x : Solver) (h : createSolver b s = .ok x) (hg : s.useGpu = false)
    (hd : s.dataUse = .full) : x.solves s.dataUse = true := by
  have hall : ∀ y ∈ x.constraintSolvers, y.kind.data = .full := by
    intro y hy
    obtain ⟨a, _, h1, _⟩ := each_stage b s x h y hy
    exact (kind_spec b s a _ h1).2.2.1 hg hd
  rw [hd]
  rcases solver_stages b s x h with ⟨_, y, _, rfl⟩ | ⟨_, y, z, _, _, rfl⟩
  · simpa [Solver.solves] using hall y (by simp [Solver.constraintSolvers])
  · simpa [Solver.solves, Solver.constraintSolvers] using hall

/-- C234: the same holds for single and dual data with the iterative algorithm, for all but the modes with four polarizations. -/
theorem iterative_solves_partial (b : Build) (s : Settings) (x : Solver) (h : createSolver b s = .ok x) (hg : s.useGpu = false)
    (ha : s.algorithm = .directionIterative) (hm : s.mode.polarizations ≠ 4) : x.solves s.dataUse = true := by
  obtain ⟨m, al, d, g, mi, ac, av, sm, ap⟩ := s
  obtain ⟨bc, bd, bs⟩ := b
  dsimp only at hg ha
  subst hg ha
  revert h
  cases m <;> cases d <;> cases bs <;>
    simp [createSolver, createStage, addConstraints, createKind, createScalar, createDiagonal, createFullJones, modeConstraints,
      Except.map, bind, Except.bind, pure, Except.pure, Mode.polarizations] at hm ⊢ <;> (rintro rfl) <;>
    simp [Solver.solves, Kind.data]

/-- C234: no solver for other data than full ones exists for the other algorithms and modes: it is created, and throws when it
has to solve. -/
theorem not_full_throws (b : Build) (s : Settings) (x : Solver) (h : createSolver b s = .ok x) (hd : s.dataUse ≠ .full)
    (hm : s.algorithm ≠ .directionIterative ∨ s.mode.polarizations = 4) : x.solves s.dataUse = false := by
  rcases solver_stages b s x h with ⟨ha, y, hy, rfl⟩ | ⟨ha, y, z, hy, hz, rfl⟩
  · obtain ⟨h1, _, _⟩ := stage_ok b s _ _ hy
    clear h hy
    have : y.kind.data = .full := by
      obtain ⟨kind, po, cs, mx⟩ := y
      dsimp only at h1 ⊢
      obtain ⟨m, al, d, g, mi, ac, av, sm, ap⟩ := s
      obtain ⟨bc, bd, bs⟩ := b
      revert h1
      cases m <;> cases al <;> cases d <;> cases g <;> cases bd <;> cases bs <;>
        simp [createKind, createScalar, createDiagonal, createFullJones, Except.map, Mode.polarizations] at hm hd ha ⊢ <;>
        (try (rintro rfl rfl)) <;> simp [Kind.data]
    simp only [Solver.solves, this, decide_eq_false_iff_not]
    exact Ne.symm hd
  · simp [Solver.solves, hd]

/-- C234, C235: a solver for the GPU never solves: it is created only with full data, but is one for dual data. -/
theorem gpu_throws (b : Build) (s : Settings) (x : Solver) (h : createSolver b s = .ok x) (hg : s.useGpu = true)
    (hm : s.mode.polarizations = 2) : s.algorithm = .directionIterative ∧ s.dataUse = .full ∧ b.cuda = true ∧
      x.solves s.dataUse = false := by
  rcases solver_stages b s x h with ⟨ha, y, hy, rfl⟩ | ⟨ha, y, z, hy, hz, rfl⟩
  · obtain ⟨h1, _, _⟩ := stage_ok b s _ _ hy
    obtain ⟨_, _, _, h4, h6⟩ := kind_spec b s _ _ h1
    obtain ⟨h7, h8, h9, h10⟩ := h6 (h4.mpr ⟨hg, hm⟩)
    refine ⟨h10, h8, h9, ?_⟩
    dsimp only at h7
    simp [Solver.solves, h7, h8]
  · exfalso
    obtain ⟨h1, _, _⟩ := stage_ok b s _ _ hy
    clear h hy hz
    obtain ⟨m, al, d, g, mi, ac, av, sm, ap⟩ := s
    dsimp only at hg
    subst hg
    revert h1
    cases m <;> simp [createKind, createDiagonal, Except.map, Mode.polarizations] at hm ⊢

/-- C235: without support for GPUs, asking for one is refused in the modes with two polarizations. -/
theorem gpu_refused_partial (b : Build) (s : Settings) (hb : b.cuda = false) (hg : s.useGpu = true)
    (hm : s.mode.polarizations = 2) : createSolver b s = .error .refused := by
  cases h : createSolver b s with
  | ok x =>
    have := (gpu_throws b s x h hg hm).2.2.1
    rw [hb] at this
    exact absurd this (by simp)
  | error e =>
    cases e with
    | refused => rfl
    | ub => exact absurd h (no_null b s)

/-- C235: in all other modes the setting is ignored. -/
theorem gpu_ignored (b : Build) (s : Settings) (hm : s.mode.polarizations ≠ 2) :
    createSolver b s = createSolver b { s with useGpu := false } := by
  obtain ⟨m, al, d, g, mi, ac, av, sm, ap⟩ := s
  cases m <;> first | exact absurd rfl hm | rfl

/-- C236: a solver that is not a hybrid one gives the weights of the model to all its constraints. -/
theorem model_weights_partial (b : Build) (s : Settings) (x : Solver) (h : createSolver b s = .ok x)
    (ha : s.algorithm ≠ .hybrid) : ∀ y ∈ x.constraintSolvers, ∀ c ∈ y.constraints, c ∈ x.modelWeighted := by
  rcases solver_stages b s x h with ⟨_, y, _, rfl⟩ | ⟨ha', _⟩
  · intro t ht c hc
    simp only [Solver.constraintSolvers, List.mem_singleton] at ht
    subst ht
    exact hc
  · exact absurd ha' ha

/-- C236: with the hybrid solver no constraint gets them. -/
theorem hybrid_unweighted_wrong (b : Build) (s : Settings) (x : Solver) (h : createSolver b s = .ok x)
    (ha : s.algorithm = .hybrid) : x.modelWeighted = [] := by
  rcases solver_stages b s x h with ⟨ha', _⟩ | ⟨_, y, z, _, _, rfl⟩
  · exact absurd ha ha'
  · rfl

/-! ## Examples -/

/-- Settings with the defaults of the step, but for a mode, an algorithm and smoothing. -/
def example1 : Settings := ⟨.diagonalAmplitude, .hybrid, .full, false, 50, false, false, true, false⟩

example : createSolver ⟨false, false, false⟩ example1 = .ok (.hybrid
    [⟨.diagonal, false, [.smoothness, .amplitudeOnly], 8⟩, ⟨.iterativeDiagonal .full, false, [.smoothness, .amplitudeOnly], 50⟩]
    50) := rfl

example : (createSolver ⟨false, false, false⟩ { example1 with algorithm := .directionSolve, dataUse := .dual }).map
    (Solver.solves .dual) = .ok false := rfl

example : (createSolver ⟨true, false, false⟩ { example1 with algorithm := .directionIterative, useGpu := true }).map
    (Solver.solves .full) = .ok false := rfl

example : (createSolver ⟨false, false, false⟩ { example1 with algorithm := .directionIterative, dataUse := .dual }).map
    (Solver.solves .dual) = .ok true := rfl

example : (createSolver ⟨true, true, true⟩ { example1 with mode := .tec, useGpu := true }).map Solver.polarizations = .ok 1 := rfl

end DP3.SolverChoice
