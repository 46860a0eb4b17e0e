/-!
# The choice of a solver

Models the functions of ddecal/SolverFactory.cc that create a solver, and which of the three functions `Solve` of a solver
exist. Constraints are represented by their type. The options with which DP3 can be built are a parameter. The arguments of
constraints and of the LBFGS solver, and the parsing of averaging factors, are not modelled here.
-/

namespace DP3.SolverChoice

/-- Calibration modes, base/CalType.h:11-29. -/
inductive Mode
  | scalar | scalarAmplitude | scalarPhase | diagonal | diagonalAmplitude | diagonalPhase | fullJones | tec | tecAndDelay
  | tecAndPhase | tecPhaseAndDelay | tecScreen | rotationAndDiagonal | rotation | faradayRotation | leakage | leakageAmplitude
  deriving DecidableEq, Repr

/-- Algorithms, ddecal/Settings.cc:31-48. -/
inductive Algorithm
  | directionSolve | directionIterative | hybrid | lbfgs | antennaSolve | lowRank
  deriving DecidableEq, Repr

/-- What is used of the data, ddecal/Settings.h:29. -/
inductive DataUse
  | single | dual | full
  deriving DecidableEq, Repr

/-- Options of the build: HAVE_CUDA_SOLVER, HAVE_LIBDIRAC and ENABLE_SCREENFITTER, SolverFactory.cc:88, 70, 324. -/
structure Build where
  cuda : Bool
  dirac : Bool
  screen : Bool

/-- The settings that are used, SolverFactory.cc:178-192, 199, 219, 89 and 513. -/
structure Settings where
  mode : Mode
  algorithm : Algorithm
  dataUse : DataUse
  useGpu : Bool
  maxIterations : Nat
  /-- `core_constraint != 0.0 || !antenna_constraint.empty()` -/
  antennaConstraint : Bool
  /-- `!antenna_averaging_factors.empty()` -/
  averaging : Bool
  /-- `smoothness_constraint != 0.0` -/
  smoothness : Bool
  approximateTec : Bool

/-- An exception, and the use of a null pointer. -/
inductive Err
  | refused | ub
  deriving DecidableEq, Repr

/-- Solver classes, with the type of visibilities of templates, SolverFactory.cc:49-174: `single` is `std::complex<float>`,
`dual` is MC2x2FDiag and `full` is MC2x2F. -/
inductive Kind
  | iterativeScalar (d : DataUse) | scalar | iterativeDiagonal (d : DataUse) | cudaDiagonal (d : DataUse) | diagonal | antenna
  | lowRank | iterativeFullJones | fullJones | lbfgs (polarizations : Nat)
  deriving DecidableEq, Repr

/-- Constraint classes, SolverFactory.cc:176-274. -/
inductive Constraint
  | antenna | antennaInterval | smoothness | amplitudeOnly | tec (withPhase : Bool) | approximateTec (withPhase : Bool)
  | tecOffsetDelay (withOffset : Bool) | screen | rotationAndDiagonal | rotation | faraday | leakage
  deriving DecidableEq, Repr

/-- CreateScalarSolver, SolverFactory.cc:49-84; after the `switch` a null pointer is returned, that CreateSolver uses. -/
def createScalar (b : Build) (a : Algorithm) (s : Settings) : Except Err Kind :=
  match a with
  | .directionIterative => .ok (.iterativeScalar s.dataUse)
  | .directionSolve => .ok .scalar
  | .antennaSolve | .lowRank => .error .refused
  | .lbfgs => if b.dirac then .ok (.lbfgs 1) else .error .refused
  | .hybrid => .error .ub

/-- CreateDiagonalSolver, SolverFactory.cc:86-146. -/
def createDiagonal (b : Build) (a : Algorithm) (s : Settings) : Except Err Kind :=
  if s.useGpu then
    if b.cuda ∧ a = .directionIterative ∧ s.dataUse = .full then .ok (.cudaDiagonal .dual) else .error .refused
  else
    match a with
    | .directionIterative =>
      match s.dataUse with
      | .dual => .ok (.iterativeDiagonal .dual)
      | .full => .ok (.iterativeDiagonal .full)
      | .single => .error .refused
    | .directionSolve => .ok .diagonal
    | .antennaSolve => .ok .antenna
    | .lowRank => .ok .lowRank
    | .lbfgs => if b.dirac then .ok (.lbfgs 2) else .error .refused
    | .hybrid => .error .ub

/-- CreateFullJonesSolver, SolverFactory.cc:148-174. -/
def createFullJones (b : Build) (a : Algorithm) (_s : Settings) : Except Err Kind :=
  match a with
  | .directionIterative => .ok .iterativeFullJones
  | .directionSolve => .ok .fullJones
  | .antennaSolve | .lowRank => .error .refused
  | .lbfgs => if b.dirac then .ok (.lbfgs 4) else .error .refused
  | .hybrid => .error .ub

/-- The constraints of the mode, SolverFactory.cc:199-273. -/
def modeConstraints (b : Build) (s : Settings) : Except Err (List Constraint) :=
  match s.mode with
  | .scalar | .diagonal | .fullJones | .scalarPhase | .diagonalPhase => .ok []
  | .scalarAmplitude | .diagonalAmplitude => .ok [.amplitudeOnly]
  | .tec => .ok [if s.approximateTec then .approximateTec false else .tec false]
  | .tecAndPhase => .ok [if s.approximateTec then .approximateTec true else .tec true]
  | .tecAndDelay => .ok [.tecOffsetDelay false]
  | .tecPhaseAndDelay => .ok [.tecOffsetDelay true]
  | .tecScreen => if b.screen then .ok [.screen] else .error .refused
  | .rotationAndDiagonal => .ok [.rotationAndDiagonal]
  | .rotation => .ok [.rotation]
  | .faradayRotation => .ok [.faraday]
  | .leakage => .ok [.leakage]
  | .leakageAmplitude => .ok [.amplitudeOnly, .leakage]

/-- AddConstraints, SolverFactory.cc:176-274: the list of constraints of the solver. -/
def addConstraints (b : Build) (s : Settings) : Except Err (List Constraint) :=
  (modeConstraints b s).map fun own =>
    (if s.antennaConstraint then [.antenna] else []) ++ (if s.averaging then [.antennaInterval] else []) ++
      (if s.smoothness then [.smoothness] else []) ++ own

/-- A solver that is not a hybrid one. -/
structure Stage where
  kind : Kind
  phaseOnly : Bool
  constraints : List Constraint
  maxIterations : Nat
  deriving DecidableEq, Repr

/-- The solver and its phase-only setting, SolverFactory.cc:290-333. -/
def createKind (b : Build) (s : Settings) (a : Algorithm) : Except Err (Kind × Bool) :=
  match s.mode with
  | .scalar | .scalarAmplitude => (createScalar b a s).map (·, false)
  | .scalarPhase | .tec | .tecAndDelay | .tecAndPhase | .tecPhaseAndDelay => (createScalar b a s).map (·, true)
  | .diagonal | .diagonalAmplitude => (createDiagonal b a s).map (·, false)
  | .diagonalPhase => (createDiagonal b a s).map (·, true)
  | .fullJones | .rotationAndDiagonal | .rotation | .faradayRotation | .leakage | .leakageAmplitude =>
    (createFullJones b a s).map (·, false)
  | .tecScreen => if b.screen then (createScalar b a s).map (·, true) else .error .refused

/-- CreateSolver with an algorithm, SolverFactory.cc:287-340. -/
def createStage (b : Build) (s : Settings) (a : Algorithm) : Except Err Stage := do
  let k ← createKind b s a
  let c ← addConstraints b s
  pure ⟨k.1, k.2, c, s.maxIterations⟩

/-- A solver: a single one or the hybrid solver, with its own maximum number of iterations. -/
inductive Solver
  | single (s : Stage)
  | hybrid (stages : List Stage) (maxIterations : Nat)
  deriving DecidableEq, Repr

/-- CreateSolver, SolverFactory.cc:504-528. Adding a stage with another number of polarizations would throw
(HybridSolver.cc:13-19); `stage_polarizations` shows that this does not happen. -/
def createSolver (b : Build) (s : Settings) : Except Err Solver :=
  if s.algorithm = .hybrid then do
    let x ← createStage b s .directionSolve
    let y ← createStage b s .directionIterative
    pure (.hybrid [{ x with maxIterations := max 1 (s.maxIterations / 6) }, y] s.maxIterations)
  else (createStage b s s.algorithm).map .single

/-- NSolutionPolarizations of the classes, for instance ScalarSolver.h:19, DiagonalSolver.h:21, FullJonesSolver.h:19,
IterativeScalarSolver.h:24, IterativeDiagonalSolver.h:21 and LBFGSSolver.h:54-65. -/
def Kind.polarizations : Kind → Nat
  | .iterativeScalar _ | .scalar => 1
  | .iterativeDiagonal _ | .cudaDiagonal _ | .diagonal | .antenna | .lowRank => 2
  | .iterativeFullJones | .fullJones => 4
  | .lbfgs n => n

/-- HybridSolver::NSolutionPolarizations, HybridSolver.h:40-43. -/
def Solver.polarizations : Solver → Nat
  | .single s => s.kind.polarizations
  | .hybrid [] _ => 0
  | .hybrid (s :: _) _ => s.kind.polarizations

/-- The type of data for which a class has a `Solve`; for other data the one of SolverBase is used, which throws
(SolverBase.h:205-227): IterativeScalarSolver.h:20, IterativeDiagonalSolver.h:17, IterativeDiagonalSolverCuda.h:23,
ScalarSolver.h:15, DiagonalSolver.h:17, DiagonalAntennaSolver.h:19, DiagonalLowRankSolver.h:59, FullJonesSolver.h:15,
IterativeFullJonesSolver.h:19, LBFGSSolver.h:50. -/
def Kind.data : Kind → DataUse
  | .iterativeScalar d | .iterativeDiagonal d | .cudaDiagonal d => d
  | _ => .full

/-- Whether a call of `Solve` gets to a solver for the data that the step makes, DDECal.cc:653-702 and BdaDdeCal.cc:648-674;
the hybrid solver has a `Solve` for full data only, and gives these to all stages, HybridSolver.cc:24-60. -/
def Solver.solves (d : DataUse) : Solver → Bool
  | .single s => s.kind.data = d
  | .hybrid stages _ => d = .full ∧ ∀ s ∈ stages, s.kind.data = .full

/-- ConstraintSolvers, SolverBase.h:193 and HybridSolver.h:57-62; these are initialized and get the weights of the data,
DDECal.cc:369-373 and 616-621. -/
def Solver.constraintSolvers : Solver → List Stage
  | .single s => [s]
  | .hybrid stages _ => stages

/-- The constraints that SetDdConstraintWeights gives the weights of the model to, SolverBase.cc:437-442: those of the solver
itself. CreateSolver adds none to the hybrid solver, SolverFactory.cc:517-523. -/
def Solver.modelWeighted : Solver → List Constraint
  | .single s => s.constraints
  | .hybrid _ _ => []

/-- GetNPolarizations, base/CalType.h:37-61. -/
def Mode.polarizations : Mode → Nat
  | .diagonal | .diagonalPhase | .diagonalAmplitude => 2
  | .fullJones | .rotationAndDiagonal | .rotation | .faradayRotation | .leakage | .leakageAmplitude => 4
  | .scalar | .scalarAmplitude | .scalarPhase | .tec | .tecAndDelay | .tecAndPhase | .tecPhaseAndDelay | .tecScreen => 1

end DP3.SolverChoice
