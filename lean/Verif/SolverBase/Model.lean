import Mathlib.Algebra.Field.Defs
import Mathlib.Order.Defs.LinearOrder

/-!
# SolverBase: non-finite solutions, convergence, stalling and the iterations of a solve

Model of parts of ddecal/gain_solvers/SolverBase.cc and .h, and of the loop that all solvers have
(for example ScalarSolver.cc:34-93).

Simplifications: solutions are in a field `C` with an absolute value in an ordered field `F`; a value
that is not finite is `none`.  Arithmetic is exact.  A vector of solutions with 2 or 4 polarisations
is a list of pairs or of 2x2 matrices.
-/

namespace DP3.SolverBase

/-! ## MakeSolutionsFinite -/

section
variable {F : Type} [Field F] {C : Type}

/-- The loop body that adds to `average` and `count`: SolverBase.cc:325-330. -/
def add1 (abs : C → F) (acc : F × Nat) (x : Option C) : F × Nat :=
  match x with
  | some z => (acc.1 + abs z, acc.2 + 1)
  | none => acc

/-- `MakeSolutionsFinite1Pol` for one channel block: SolverBase.cc:321-339. -/
def makeFinite1 (abs : C → F) (ofReal : F → C) (v : List (Option C)) : List (Option C) :=
  let r := v.foldl (add1 abs) (0, 0)
  let average := if r.2 = 0 then 1 else r.1 / (r.2 : F)
  v.map fun x => if x.isSome then x else some (ofReal average)

/-- The loop body that adds to `average` and `count`: SolverBase.cc:351-357. -/
def add2 (abs : C → F) (acc : (F × F) × Nat) (x : Option C × Option C) : (F × F) × Nat :=
  match x with
  | (some z, some _) => ((acc.1.1 + abs z, acc.1.2 + abs z), acc.2 + 1)
  | _ => acc

/-- `MakeSolutionsFinite2Pol` for one channel block: SolverBase.cc:347-370. -/
def makeFinite2 (abs : C → F) (ofReal : F → C) (v : List (Option C × Option C)) :
    List (Option C × Option C) :=
  let r := v.foldl (add2 abs) ((0, 0), 0)
  let average := if r.2 = 0 then (1, 1) else (r.1.1 / (r.2 : F), r.1.2 / (r.2 : F))
  v.map fun x =>
    if x.1.isSome && x.2.isSome then x else (some (ofReal average.1), some (ofReal average.2))

/-- A 2x2 matrix. -/
structure Mat (C : Type) where
  m00 : C
  m01 : C
  m10 : C
  m11 : C
deriving DecidableEq, Repr

/-- The loop body that adds to `average` and `count`: SolverBase.cc:382-388. -/
def add4 (abs : C → F) (acc : Mat F × Nat) (x : Option (Mat C)) : Mat F × Nat :=
  match x with
  | some z =>
    (⟨acc.1.m00 + abs z.m00, acc.1.m01 + abs z.m00, acc.1.m10 + abs z.m00, acc.1.m11 + abs z.m00⟩,
      acc.2 + 1)
  | none => acc

/-- `MakeSolutionsFinite4Pol` for one channel block; `none` is a matrix of which an element is not
finite: SolverBase.cc:378-403. -/
def makeFinite4 (abs : C → F) (ofReal : F → C) (v : List (Option (Mat C))) : List (Option (Mat C)) :=
  let r := v.foldl (add4 abs) (⟨0, 0, 0, 0⟩, 0)
  let average : Mat F :=
    if r.2 = 0 then ⟨1, 0, 0, 1⟩
    else ⟨r.1.m00 / (r.2 : F), r.1.m01 / (r.2 : F), r.1.m10 / (r.2 : F), r.1.m11 / (r.2 : F)⟩
  v.map fun x =>
    if x.isSome then x
    else some ⟨ofReal average.m00, ofReal average.m01, ofReal average.m10, ofReal average.m11⟩

end

/-! ## Step and AssignSolutions -/

section
variable {F : Type} [Field F] [LinearOrder F] {C : Type} [Field C] [DecidableEq C]

/-- `Step` for one solution, not phase only: SolverBase.cc:112-115.  `stepSize` is a complex number
here. -/
def step (stepSize : C) (old next : Option C) : Option C :=
  match old, next with
  | some o, some n => some (o * (1 - stepSize) + n * stepSize)
  | _, _ => none

/-- What a solution adds to the sum `avgAbsDiff` and the count `n` for one polarisation.  The old
solutions are finite, see `makeFinite1`: SolverBase.cc:245-253. -/
def addDiff1 (abs : C → F) (acc : F × Nat) (x : C × Option C) : F × Nat :=
  if x.1 = 0 then acc
  else match x.2 with
    | some n => (acc.1 + abs ((n - x.1) / x.1), acc.2 + 1)
    | none => acc

/-- The sum and the count for one polarisation: SolverBase.cc:234-253. -/
def diff1 (abs : C → F) (v : List (C × Option C)) : F × Nat := v.foldl (addDiff1 abs) (0, 0)

/-- What a solution adds for two polarisations: SolverBase.cc:255-268. -/
def addDiff2 (abs : C → F) (acc : F × Nat) (x : (C × C) × (Option C × Option C)) : F × Nat :=
  if x.1.1 = 0 ∨ x.1.2 = 0 then acc
  else match x.2 with
    | (some n0, some n1) =>
      (acc.1 + (abs ((n0 - x.1.1) * (1 / x.1.1)) + abs ((n1 - x.1.2) * (1 / x.1.2))), acc.2 + 2)
    | _ => acc

/-- The sum and the count for two polarisations: SolverBase.cc:234-268. -/
def diff2 (abs : C → F) (v : List ((C × C) × (Option C × Option C))) : F × Nat :=
  v.foldl (addDiff2 abs) (0, 0)

/-- The determinant, on which `MC2x2::Invert` depends (aocommon, not in the repository). -/
def Mat.det (m : Mat C) : C := m.m00 * m.m11 - m.m01 * m.m10

/-- The inverse of a matrix with a determinant that is not zero. -/
def Mat.inv (m : Mat C) : Mat C :=
  ⟨m.m11 / m.det, -m.m01 / m.det, -m.m10 / m.det, m.m00 / m.det⟩

/-- `ns -= s`: SolverBase.cc:275. -/
def Mat.sub (a b : Mat C) : Mat C := ⟨a.m00 - b.m00, a.m01 - b.m01, a.m10 - b.m10, a.m11 - b.m11⟩

/-- `ns *= sInv`: SolverBase.cc:276. -/
def Mat.mul (a b : Mat C) : Mat C :=
  ⟨a.m00 * b.m00 + a.m01 * b.m10, a.m00 * b.m01 + a.m01 * b.m11,
    a.m10 * b.m00 + a.m11 * b.m10, a.m10 * b.m01 + a.m11 * b.m11⟩

/-- What a solution adds for four polarisations: SolverBase.cc:271-283. -/
def addDiff4 (abs : C → F) (acc : F × Nat) (x : Mat C × Option (Mat C)) : F × Nat :=
  if x.1.det = 0 then acc
  else match x.2 with
    | some n =>
      let r := (n.sub x.1).mul x.1.inv
      (acc.1 + (abs r.m00 + abs r.m01 + abs r.m10 + abs r.m11), acc.2 + 4)
    | none => acc

/-- The sum and the count for four polarisations: SolverBase.cc:234-284. -/
def diff4 (abs : C → F) (v : List (Mat C × Option (Mat C))) : F × Nat :=
  v.foldl (addDiff4 abs) (0, 0)

/-- `stepMagnitude`: SolverBase.cc:299. -/
def stepMagnitude (stepSize : F) (d : F × Nat) : F :=
  if d.2 = 0 then 0 else d.1 / stepSize / (d.2 : F)

end

/-! ## DetectStall and the loop -/

section
variable {F : Type} [Field F] [LinearOrder F]

/-- `n_var_count_`, `step_mean_` and `step_var_`: SolverBase.h:357-359. -/
structure Running (F : Type) where
  count : Nat
  mean : F
  var : F
deriving DecidableEq, Repr

/-- The settings used below: SolverBase.h:340-346. -/
structure Settings (F : Type) where
  minIterations : Nat
  maxIterations : Nat
  accuracy : F
  constraintAccuracy : F
  detectStalling : Bool
  stepDiffSigma : F
  sqrt : F → F

/-- The update of the running values in `DetectStall` with the last step magnitude `m`; the members
have no initial value, so that `none` before the first iteration means undefined behaviour:
SolverBase.cc:65-76. -/
def updateRunning (iteration : Nat) (m : F) (s : Option (Running F)) : Option (Running F) :=
  if iteration = 1 then some { count := 1, mean := m, var := 0 }
  else s.map fun r =>
    let count : Nat := r.count + 1
    let delta1 := m - r.mean
    let mean := r.mean + delta1 / (count : F)
    let delta2 := m - mean
    { count := count, mean := mean, var := r.var + delta1 * delta2 }

/-- The criterion in `DetectStall`: SolverBase.cc:78-85. -/
def isStalled (c : Settings F) (iteration : Nat) (r : Running F) : Bool :=
  if iteration < 30 then false
  else decide (r.mean < c.stepDiffSigma * c.sqrt (r.var / (r.count : F)))

/-- What an iteration of a solver leads to: whether the constraints are satisfied, and the step
magnitude. -/
structure Iteration (F : Type) where
  satisfied : Bool
  magnitude : F

/-- `has_converged`, the result of `AssignSolutions`: SolverBase.cc:302-306. -/
def hasConverged (c : Settings F) (x : Iteration F) : Bool :=
  if !x.satisfied then decide (x.magnitude ≤ c.constraintAccuracy)
  else decide (x.magnitude ≤ c.accuracy)

/-- The condition in `ReachedStoppingCriterion`: SolverBase.h:279-284. -/
def ready (c : Settings F) (iteration : Nat) (x : Iteration F) (stalled : Bool) : Bool :=
  decide (c.minIterations ≤ iteration) &&
    (decide (c.maxIterations ≤ iteration) || (hasConverged c x && x.satisfied) || stalled)

/-- `ReachedStoppingCriterion` after `iteration` iterations; `none` when it reads members without a
value: SolverBase.h:274-285. -/
def reachedStop (c : Settings F) (iteration : Nat) (x : Iteration F) (s : Option (Running F)) :
    Option (Bool × Option (Running F)) :=
  if c.detectStalling && x.satisfied then
    match updateRunning iteration x.magnitude s with
    | none => none
    | some r => some (ready c iteration x (isStalled c iteration r), some r)
  else some (ready c iteration x false, s)

/-- The result of the loop: the number of iterations and the last one. -/
structure Outcome (F : Type) where
  iterations : Nat
  last : Iteration F

/-- The loop, given what each iteration leads to: ScalarSolver.cc:58-91 and the other solvers.
`iteration` is the number of iterations done; `fuel` bounds the loop, see `solve_terminates`. -/
def loop (c : Settings F) (env : Nat → Iteration F) :
    Nat → Nat → Option (Running F) → Option (Outcome F)
  | 0, _, _ => none
  | fuel + 1, iteration, s =>
    let x := env iteration
    match reachedStop c (iteration + 1) x s with
    | none => none
    | some (true, _) => some { iterations := iteration + 1, last := x }
    | some (false, s') => loop c env fuel (iteration + 1) s'

/-- A solve. -/
def solve (c : Settings F) (env : Nat → Iteration F) (s : Option (Running F)) : Option (Outcome F) :=
  loop c env (max c.maxIterations c.minIterations + 1) 0 s

/-- `iterations` of `MakeResult`: SolverBase.cc:197-200. -/
def resultIterations (c : Settings F) (o : Outcome F) : Nat :=
  if hasConverged c o.last && o.last.satisfied then o.iterations else o.iterations + 1

end

end DP3.SolverBase
