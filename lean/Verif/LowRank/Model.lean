import Mathlib.Analysis.Complex.Basic
import Mathlib.Analysis.Real.Sqrt
import Mathlib.Data.List.Sort
import Verif.IterSolver.Model

/-!
# The low rank solver

Models ddecal/gain_solvers/DiagonalLowRankSolver.cc: the matrix of correlations of a direction, the iterations with the
power method, the order of directions and the loop over iterations. Arithmetic is exact, on the complex numbers; `none`
is a value that is not finite. The random vector at the start of the power method is an argument. Vectors and matrices
have an index `antenna * 2 + polarization`.
-/

namespace DP3.LowRank

open ComplexConjugate

/-- A visibility in SolveDirectionSolution, DiagonalLowRankSolver.cc:264-271: its solution index for the direction, its
antennas, and the residual, weight and model of its four elements. -/
structure Vis where
  sol : Nat
  a1 : Nat
  a2 : Nat
  data : Nat → Option ℂ
  weight : Nat → ℝ
  model : Nat → ℂ

/-- A call of AddToCorrelation, DiagonalLowRankSolver.cc:273-309. -/
structure Entry where
  row : Nat
  col : Nat
  data : Option ℂ
  weight : ℝ
  model : ℂ

/-- The calls for a visibility, DiagonalLowRankSolver.cc:273-309. -/
def Vis.entries (v : Vis) : List Entry :=
  [⟨v.a1 * 2, v.a2 * 2, v.data 0, v.weight 0, v.model 0⟩,
   ⟨v.a1 * 2, v.a2 * 2 + 1, v.data 1, v.weight 1, v.model 1⟩,
   ⟨v.a1 * 2 + 1, v.a2 * 2, v.data 2, v.weight 2, v.model 2⟩,
   ⟨v.a1 * 2 + 1, v.a2 * 2 + 1, v.data 3, v.weight 3, v.model 3⟩,
   ⟨v.a2 * 2, v.a1 * 2, (v.data 0).map conj, v.weight 0, conj (v.model 0)⟩,
   ⟨v.a2 * 2, v.a1 * 2 + 1, (v.data 2).map conj, v.weight 2, conj (v.model 2)⟩,
   ⟨v.a2 * 2 + 1, v.a1 * 2, (v.data 1).map conj, v.weight 1, conj (v.model 1)⟩,
   ⟨v.a2 * 2 + 1, v.a1 * 2 + 1, (v.data 3).map conj, v.weight 3, conj (v.model 3)⟩]

/-- An element of the three matrices, DiagonalLowRankSolver.cc:255-260. -/
structure Element where
  corr : Option ℂ
  var : ℝ
  div : ℝ

/-- AddToCorrelation, DiagonalLowRankSolver.cc:17-33. A division by zero makes the sum not finite. -/
noncomputable def Element.add (x : Element) (e : Entry) : Element :=
  match e.data with
  | none => x
  | some d =>
    ⟨if e.model = 0 then none else x.corr.map (· + e.weight * Complex.normSq e.model * (d / e.model)),
     x.var + e.weight * e.weight * Complex.normSq e.model * Complex.normSq e.model,
     x.div + e.weight * Complex.normSq e.model⟩

/-- The sums for a row and column, DiagonalLowRankSolver.cc:262-311. -/
noncomputable def sums (sol : Nat) (vs : List Vis) (i j : Nat) : Element :=
  ((((vs.filter fun v => v.sol = sol).flatMap Vis.entries).filter fun e => e.row = i ∧ e.col = j).foldl Element.add
    ⟨some 0, 0, 0⟩)

/-- `correlation_matrix`, DiagonalLowRankSolver.cc:313-322. -/
noncomputable def correlation (sol : Nat) (vs : List Vis) (i j : Nat) : Option ℂ :=
  let x := sums sol vs i j
  if x.div = 0 then some 0 else x.corr.map (· / x.div)

/-- `variance_matrix` before it is scaled, DiagonalLowRankSolver.cc:313-322. -/
noncomputable def variance (sol : Nat) (vs : List Vis) (i j : Nat) : ℝ :=
  let x := sums sol vs i j
  if x.div = 0 then 0 else x.var / (x.div * x.div)

variable {n : Nat}

/-- `max_weight`, DiagonalLowRankSolver.cc:323, for `n` = NAntennas() * 2. -/
noncomputable def maxWeight (n : Nat) (sol : Nat) (vs : List Vis) : ℝ :=
  ⨆ p : Fin n × Fin n, variance sol vs p.1 p.2

/-- `variance_matrix` after DiagonalLowRankSolver.cc:323-324. -/
noncomputable def weights (n : Nat) (sol : Nat) (vs : List Vis) (i j : Fin n) : ℝ :=
  if maxWeight n sol vs ≠ 0 then variance sol vs i j / maxWeight n sol vs else variance sol vs i j

/-- `term`, DiagonalLowRankSolver.cc:339-342 and 349-352. -/
noncomputable def term (w : Fin n → Fin n → ℝ) (a : Fin n → Fin n → ℂ) (ev : ℝ) (x : Fin n → ℂ) (i j : Fin n) : ℂ :=
  w i j * a i j + (1 - w i j) * (ev * (x i * conj (x j)))

/-- `xt::linalg::dot` of a matrix and a vector, DiagonalLowRankSolver.cc:60. -/
noncomputable def apply (m : Fin n → Fin n → ℂ) (v : Fin n → ℂ) (i : Fin n) : ℂ := ∑ j, m i j * v j

/-- `xt::linalg::norm` of order 2, DiagonalLowRankSolver.cc:61. -/
noncomputable def norm2 (v : Fin n → ℂ) : ℝ := √(∑ i, Complex.normSq (v i))

/-- The loop of DominantEigenPairNear, DiagonalLowRankSolver.cc:59-65; `none` when the vector becomes zero and the
division makes it not finite. -/
noncomputable def power (m : Fin n → Fin n → ℂ) : Nat → (Fin n → ℂ) → Option (Fin n → ℂ)
  | 0, v => some v
  | k + 1, v =>
    let u := apply m v
    if norm2 u = 0 then none else power m k fun i => u i / norm2 u

/-- The eigen value, DiagonalLowRankSolver.cc:70-71. -/
noncomputable def rayleigh (m : Fin n → Fin n → ℂ) (v : Fin n → ℂ) : ℝ := (∑ j, (∑ i, conj (v i) * m i j) * v j).re

/-- DominantEigenPairNear, DiagonalLowRankSolver.cc:56-73. -/
noncomputable def eigenPair (m : Fin n → Fin n → ℂ) (k : Nat) (v : Fin n → ℂ) : Option (ℝ × (Fin n → ℂ)) :=
  (power m k v).map fun u => (rayleigh m u, u)

/-- The loop of the low rank approximations, DiagonalLowRankSolver.cc:348-354. -/
noncomputable def refine (w : Fin n → Fin n → ℝ) (a : Fin n → Fin n → ℂ) (nPower : Nat) :
    Nat → ℝ × (Fin n → ℂ) → Option (ℝ × (Fin n → ℂ))
  | 0, p => some p
  | k + 1, p => (eigenPair (term w a p.1 p.2) nPower p.2).bind (refine w a nPower k)

/-- The square root of a real number as a complex number, DiagonalLowRankSolver.cc:358. -/
noncomputable def csqrt (x : ℝ) : ℂ := if 0 ≤ x then (√x : ℝ) else Complex.I * (√(-x) : ℝ)

/-- The scaling and phase reference, DiagonalLowRankSolver.cc:357-360. -/
noncomputable def reference (h : 0 < n) (p : ℝ × (Fin n → ℂ)) : Option (Fin n → ℂ) :=
  let copy := fun i => p.2 i * csqrt p.1
  let c0 := copy ⟨0, h⟩
  if c0 = 0 then none else some fun i => copy i / (c0 / ((‖c0‖ : ℝ) : ℂ))

/-- The values of a matrix if all of them are finite. -/
noncomputable def finiteMatrix (a : Fin n → Fin n → Option ℂ) : Option (Fin n → Fin n → ℂ) :=
  open Classical in if ∀ i j, (a i j).isSome then some fun i j => (a i j).getD 0 else none

/-- The low rank approximations and the result, DiagonalLowRankSolver.cc:334-363: `x` has the present solutions and
`start` is the random vector of DiagonalLowRankSolver.cc:46-52. -/
noncomputable def approximate (h : 0 < n) (w : Fin n → Fin n → ℝ) (a : Fin n → Fin n → ℂ) (nLra nPower : Nat)
    (start x : Fin n → ℂ) : Option (Fin n → ℂ) :=
  (eigenPair (term w a 1 x) (nPower * 2) start).bind fun p => (refine w a nPower (nLra - 1) p).bind (reference h)

/-- SolveDirectionSolution, DiagonalLowRankSolver.cc:249-364, for `n` = NAntennas() * 2; `none` if the new solutions are
not finite. -/
noncomputable def solveSolution (h : 0 < n) (nLra nPower : Nat) (start x : Fin n → ℂ) (sol : Nat) (vs : List Vis) :
    Option (Fin n → ℂ) :=
  (finiteMatrix fun i j => correlation sol vs i j).bind fun a =>
    approximate h (weights n sol vs) a nLra nPower start x

/-! ## The order of the directions -/

/-- The sum of norms of a direction, DiagonalLowRankSolver.cc:142-157: for every channel block the weights (those of the
first element) and the norms of the model data of the direction. -/
def normSum {F : Type} [Zero F] [Add F] [DecidableEq F] (blocks : List (List (F × (Nat → F)))) (d : Nat) : F :=
  blocks.foldl (fun s vis => vis.foldl (fun s x => if x.1 ≠ 0 then s + x.2 d else s) s) 0

/-- What CalculateNormPerDirection adds to the order, DiagonalLowRankSolver.cc:139-164, for at least one channel block.
The comparison is that of `std::greater` on pairs; the pairs are different, so that every sort gives the same. -/
def normOrder {F : Type} [Zero F] [Add F] [LinearOrder F] (nDir : Nat) (blocks : List (List (F × (Nat → F)))) : List Nat :=
  (((List.range nDir).map fun (d : Nat) => (normSum blocks d, d)).insertionSort
    fun x y => y.1 < x.1 ∨ (¬ x.1 < y.1 ∧ y.2 ≤ x.2)).map Prod.snd

/-- `direction_ordering_` after the start of a solve, DiagonalLowRankSolver.cc:80-87. -/
def orderAfter {F : Type} [Zero F] [Add F] [LinearOrder F] (immediate : Bool) (nDir : Nat) (old : List Nat)
    (blocks : List (List (F × (Nat → F)))) : List Nat :=
  old ++ if immediate then normOrder nDir blocks else List.range nDir

/-! ## An iteration -/

open IterSolver (Kernel subtractDirection addDirection)

/-- The part of PerformIteration for a direction, DiagonalLowRankSolver.cc:222-246. `solve d residual next` is the effect
of the calls of SolveDirectionSolution on the tensor with new solutions of all channel blocks; `flat` is the vector
`new_solutions`, of which DiagonalAddOrSubtractDirection uses the elements that an index without channel block has.
`S` are the two values of a solution. -/
def iterateDirection {V S N D O T : Type} [AddCommGroup V] (k : Kernel V S N D O) (nSub : Nat) (immediate : Bool)
    (flat : T → Nat → S) (solve : Nat → List V → T → T) (s : Nat → S) (vs : List (IterSolver.Vis V)) (copy : List V)
    (st : List V × T) (d : Nat) : List V × T :=
  let residual := addDirection k nSub s d vs (if d ≠ 0 ∧ !immediate then copy else st.1)
  let next := solve d residual st.2
  (if immediate then subtractDirection k nSub (flat next) d vs residual else residual, next)

/-- PerformIteration, DiagonalLowRankSolver.cc:201-247. -/
def performIteration {V S N D O T : Type} [AddCommGroup V] (k : Kernel V S N D O) (nSub nDirs : Nat) (immediate : Bool)
    (ordering : List Nat) (iteration : Nat) (flat : T → Nat → S) (solve : Nat → List V → T → T) (s : Nat → S)
    (vs : List (IterSolver.Vis V)) (next : T) : List V × T :=
  let residual := (List.range nDirs).foldl (fun r d => subtractDirection k nSub s d vs r) (vs.map (·.data))
  let count := if immediate then min nDirs (iteration + 1) else nDirs
  (ordering.take count).foldl (iterateDirection k nSub immediate flat solve s vs residual) (residual, next)

/-! ## The loop -/

/-- Settings of SolverBase that ReachedStoppingCriterion uses, ddecal/gain_solvers/SolverBase.h:274-285. -/
structure Limits where
  minIterations : Nat
  maxIterations : Nat
  detectStalling : Bool

/-- ReachedStoppingCriterion, ddecal/gain_solvers/SolverBase.h:274-285; `stalled` is the result of DetectStall. -/
def reachedStop (c : Limits) (iteration : Nat) (converged satisfied : Bool) (stalled : Bool) : Bool :=
  decide (c.minIterations ≤ iteration) &&
    (decide (c.maxIterations ≤ iteration) || (converged && satisfied) || (c.detectStalling && satisfied && stalled))

/-- What an iteration gives: the results of ApplyConstraints and AssignSolutions, DiagonalLowRankSolver.cc:122-128, and what
DetectStall would return after it. -/
structure Report where
  satisfied : Bool
  converged : Bool
  stalled : Bool

/-- The variables `has_converged`, `constraints_satisfied` and `has_previously_converged` that are declared before the
loop, DiagonalLowRankSolver.cc:106-108. -/
structure Flags where
  converged : Bool
  satisfied : Bool
  previously : Bool

/-- The variables before the loop after an iteration, DiagonalLowRankSolver.cc:122-131: the loop body declares variables of
the same names, so that only the third one is assigned to. -/
def afterIteration (f : Flags) (r : Report) : Flags := { f with previously := r.converged || f.previously }

/-- The loop, DiagonalLowRankSolver.cc:110-134. `env` gives the report of an iteration, which depends on
`has_previously_converged`. The result has the number of iterations and the variables. -/
def loop (c : Limits) (env : Nat → Bool → Report) : Nat → Nat → Flags → Nat × Flags
  | 0, i, f => (i, f)
  | fuel + 1, i, f =>
    let r := env i f.previously
    let f' := afterIteration f r
    if reachedStop c (i + 1) f'.converged f'.satisfied r.stalled then (i + 1, f') else loop c env fuel (i + 1) f'

/-- `iterations` and `constraint_iterations` of the result (MakeResult, ddecal/gain_solvers/SolverBase.cc:192-204); the
second is 0 if it is not set. -/
def makeResult (iteration : Nat) (converged satisfied : Bool) : Nat × Nat :=
  (if converged && satisfied then iteration else iteration + 1, if satisfied then 0 else iteration + 1)

/-- Solve, DiagonalLowRankSolver.cc:105-136, with enough fuel for the loop to end: the number of iterations done and the
result. -/
def solve (c : Limits) (env : Nat → Bool → Report) : Nat × (Nat × Nat) :=
  let x := loop c env (max c.minIterations c.maxIterations + 1) 0 ⟨false, false, false⟩
  (x.1, makeResult x.1 x.2.converged x.2.satisfied)

end DP3.LowRank
