/-!
# Iterations of the hybrid solver

Model of `HybridSolver` (ddecal/gain_solvers/HybridSolver.cc) and of what `SolverBase` counts. The solutions
themselves are left out: of a stage only is known after which iterations it has converged and stalled.
-/

namespace DP3.HybridSolver

/-- A solver of the hybrid solver, with the maximum that AddSolver stored (HybridSolver.cc:20-21), its present
maximum (`max_iterations_`), its minimum, and the course of its iterations: whether after that many it has
converged with its constraints satisfied, and whether it has stalled. -/
structure Stage where
  stored : Nat
  current : Nat
  min : Nat
  converged : Nat → Bool
  stalled : Nat → Bool

/-- ReachedStoppingCriterion, ddecal/gain_solvers/SolverBase.h:274-285. -/
def stops (s : Stage) (iteration : Nat) : Bool :=
  decide (s.min ≤ iteration) &&
    (decide (s.current ≤ iteration) || s.converged iteration || s.stalled iteration)

/-- The do-while loop of the solvers (e.g. ddecal/gain_solvers/IterativeScalarSolver.cc:60-86): the number of
iterations. It ends within `s.min + s.current + 1` iterations, which is the fuel. -/
def loop (s : Stage) : Nat → Nat → Nat
  | 0, i => i
  | fuel + 1, i => if stops s (i + 1) then i + 1 else loop s fuel (i + 1)

/-- The number of iterations of a stage, IterativeScalarSolver.cc:50-86. -/
def performed (s : Stage) : Nat := loop s (s.min + s.current + 1) 0

/-- `iterations` of MakeResult, ddecal/gain_solvers/SolverBase.cc:192-200. -/
def reported (s : Stage) : Nat := if s.converged (performed s) then performed s else performed s + 1

/-- Subtraction of numbers of type size_t, with `W` values. -/
def wrapSub (W a b : Nat) : Nat := if b ≤ a then a - b else (W + a % W - b % W) % W

/-- State of HybridSolver::Solve (HybridSolver.cc:28-30); `total` counts the iterations that are done. -/
structure State where
  available : Nat
  iterations : Nat
  isConverged : Bool
  total : Nat
  deriving DecidableEq

/-- SetMaxIterations of a stage: HybridSolver.cc:33 and 47-48. -/
def limit (available : Nat) (s : Stage) : Stage :=
  { s with current := if s.stored > available then available else s.stored }

/-- RunSolver, HybridSolver.cc:42-61. -/
def runSolver (W : Nat) (st : State) (s : Stage) : State :=
  let run := limit st.available s
  let iterations := st.iterations + reported run
  let isConverged := decide (reported run ≤ run.current)
  ⟨if isConverged then wrapSub W st.available iterations else wrapSub W st.available run.current, iterations,
    isConverged, st.total + performed run⟩

/-- The loop of Solve, HybridSolver.cc:31-37; `stop` is StopOnConvergence(). The flag is set when it returns
early. -/
def runAll (W : Nat) (stop : Bool) : State → List Stage → State × Bool
  | st, [] => (st, false)
  | st, s :: rest =>
    let st' := runSolver W st s
    if st'.isConverged && stop then (st', true) else runAll W stop st' rest

/-- Solve, HybridSolver.cc:24-40: the reported number of iterations, and how many are done. -/
def solve (W : Nat) (stop : Bool) (maxIterations : Nat) (stages : List Stage) : Nat × Nat :=
  let r := runAll W stop ⟨maxIterations, 0, false, 0⟩ stages
  (if !r.2 && !r.1.isConverged then maxIterations + 1 else r.1.iterations, r.1.total)

/-- The stored maximum of the first stage, ddecal/SolverFactory.cc:508-512. -/
def firstMax (n : Nat) : Nat := max 1 (n / 6)

end DP3.HybridSolver
