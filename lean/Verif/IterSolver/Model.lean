import Verif.Cx.Basic
import Verif.StringTools.Model

/-!
# One iteration of the direction-iterative solvers

Model of `IterativeScalarSolver`, `IterativeDiagonalSolver` and `IterativeFullJonesSolver`
(ddecal/gain_solvers). The three have the same loops; what differs is a `Kernel`, given for each solver and
each type of visibilities. Vectors are functions of the index; the polarizations of one solution are one
element. Arithmetic is exact, so the conversion of solutions to single precision is not modelled.
-/

namespace DP3.IterSolver

open DP3.StringTools

/-- A visibility of a channel block (ddecal/gain_solvers/SolveData.h:66-91): the data, the antennas, and for
each direction the model data and the index of the solution. -/
structure Vis (V : Type) where
  data : V
  ant1 : Nat
  ant2 : Nat
  model : Nat → V
  sol : Nat → Nat

/-- The formulas of a solver: the contribution of a direction to a visibility, from its model and the
solutions of both antennas; numerator and denominator for the first antenna, from the residual, the model and
the solution of the second antenna; these for the second antenna, from the solution of the first; and the new
solution. -/
structure Kernel (V S N D O : Type) where
  contribution : V → S → S → V
  num1 : V → V → S → N
  den1 : V → S → D
  num2 : V → V → S → N
  den2 : V → S → D
  finish : N → D → O

section Skeleton

variable {V S N D O : Type} [AddCommGroup V] [AddCommMonoid N] [AddCommMonoid D]

/-- The term of a direction, IterativeScalarSolver.cc:209-221, SolveData.h:217-237,
IterativeFullJonesSolver.cc:205-217: `nSub` is NSubSolutions(). -/
def term (k : Kernel V S N D O) (nSub : Nat) (s : Nat → S) (d : Nat) (v : Vis V) : V :=
  k.contribution (v.model d) (s (v.ant1 * nSub + v.sol d)) (s (v.ant2 * nSub + v.sol d))

/-- AddOrSubtractDirection<false>, IterativeScalarSolver.cc:197-229, IterativeFullJonesSolver.cc:192-225;
DiagonalAddOrSubtractDirection<false>, SolveData.h:204-244. Each visibility is updated on its own. -/
def subtractDirection (k : Kernel V S N D O) (nSub : Nat) (s : Nat → S) (d : Nat) (vs : List (Vis V))
    (residual : List V) : List V :=
  List.zipWith (fun v r => r - term k nSub s d v) vs residual

/-- AddOrSubtractDirection<true>, at the same lines. -/
def addDirection (k : Kernel V S N D O) (nSub : Nat) (s : Nat → S) (d : Nat) (vs : List (Vis V))
    (residual : List V) : List V :=
  List.zipWith (fun v r => r + term k nSub s d v) vs residual

/-- The accumulators of SolveDirection, IterativeScalarSolver.cc:129-131. -/
structure Sums (N D : Type) where
  num : Nat → N
  den : Nat → D

/-- Accumulators filled with zeros, IterativeScalarSolver.cc:129-131 and 141-144. -/
def Sums.zero : Sums N D := ⟨fun _ => 0, fun _ => 0⟩

/-- `+=` on an element, IterativeScalarSolver.cc:165-167. -/
def bump {X : Type} [Add X] (i : Nat) (x : X) (f : Nat → X) : Nat → X :=
  fun j => if j = i then f j + x else f j

/-- The loop body of SolveDirection, IterativeScalarSolver.cc:145-176, IterativeDiagonalSolver.cc:157-198,
IterativeFullJonesSolver.cc:131-170. `nDir` is the number of solutions of the direction, `first` its first
solution. -/
def addVis (k : Kernel V S N D O) (nSub nDir first : Nat) (s : Nat → S) (d : Nat) (acc : Sums N D)
    (x : Vis V × V) : Sums N D :=
  let s1 := s (x.1.ant1 * nSub + x.1.sol d)
  let s2 := s (x.1.ant2 * nSub + x.1.sol d)
  let i1 := x.1.ant1 * nDir + (x.1.sol d - first)
  let i2 := x.1.ant2 * nDir + (x.1.sol d - first)
  ⟨bump i2 (k.num2 x.2 (x.1.model d) s1) (bump i1 (k.num1 x.2 (x.1.model d) s2) acc.num),
    bump i2 (k.den2 (x.1.model d) s1) (bump i1 (k.den1 (x.1.model d) s2) acc.den)⟩

/-- The accumulation over a part of the visibilities by one thread, and adding it to the result under the
lock, IterativeScalarSolver.cc:140-182. -/
def addPart (k : Kernel V S N D O) (nSub nDir first : Nat) (s : Nat → S) (d : Nat) (acc : Sums N D)
    (part : List (Vis V × V)) : Sums N D :=
  let sums := part.foldl (addVis k nSub nDir first s d) Sums.zero
  ⟨fun i => acc.num i + sums.num i, fun i => acc.den i + sums.den i⟩

/-- SolveDirection, IterativeScalarSolver.cc:117-195, IterativeDiagonalSolver.cc:129-222,
IterativeFullJonesSolver.cc:103-190: for each antenna and solution of the direction. The division of the
visibilities over threads is `split`. The index of the first solution is read from the first visibility, that
must exist. -/
def solveDirection (k : Kernel V S N D O) (split : List (Vis V × V) → List (List (Vis V × V)))
    (nAnt nSub nDir : Nat) (s : Nat → S) (d : Nat) (vs : List (Vis V)) (residual : List V)
    (next : Nat → Nat → O) : Except Err (Nat → Nat → O) :=
  match vs with
  | [] => .error .ub
  | v0 :: _ =>
    let first := v0.sol d
    let sums := (split (vs.zip residual)).foldl (addPart k nSub nDir first s d) Sums.zero
    .ok fun a j =>
      if a < nAnt ∧ first ≤ j ∧ j < first + nDir then
        k.finish (sums.num (a * nDir + (j - first))) (sums.den (a * nDir + (j - first)))
      else next a j

/-- The body of the second loop of PerformIteration, IterativeScalarSolver.cc:105-114. -/
def iterateDirection (k : Kernel V S N D O) (split : List (Vis V × V) → List (List (Vis V × V)))
    (nAnt nSub : Nat) (nSol : Nat → Nat) (s : Nat → S) (vs : List (Vis V)) (copy : List V)
    (next : Except Err (Nat → Nat → O)) (d : Nat) : Except Err (Nat → Nat → O) :=
  match next with
  | .error e => .error e
  | .ok next => solveDirection k split nAnt nSub (nSol d) s d vs (addDirection k nSub s d vs copy) next

/-- PerformIteration, IterativeScalarSolver.cc:91-115, IterativeDiagonalSolver.cc:99-127,
IterativeFullJonesSolver.cc:78-101. `nSol` has the number of solutions of each direction. -/
def performIteration (k : Kernel V S N D O) (split : List (Vis V × V) → List (List (Vis V × V)))
    (nAnt nSub nDirs : Nat) (nSol : Nat → Nat) (s : Nat → S) (vs : List (Vis V)) (next : Nat → Nat → O) :
    Except Err (Nat → Nat → O) :=
  let residual := (List.range nDirs).foldl (fun r d => subtractDirection k nSub s d vs r) (vs.map Vis.data)
  (List.range nDirs).foldl (iterateDirection k split nAnt nSub nSol s vs residual) (.ok next)

end Skeleton

/-! ## The solvers -/

section Kernels

variable {K : Type} [Field K] [DecidableEq K]

/-- IterativeScalarSolver.cc:189-192: NaN when the denominator is zero. -/
def finishScalar (n : Cx K) (d : K) : Option (Cx K) := if d = 0 then none else some (n.divReal d)

/-- IterativeScalarSolver<MC2x2F>: the contribution at IterativeScalarSolver.cc:220-221, the sums
at 161-175. -/
def scalarFull : Kernel (M2 K) (Cx K) (Cx K) K (Option (Cx K)) where
  contribution m s1 s2 := (m.smul s1).smul s2.conj
  num1 r m s2 := (r * m.herm.smul s2).trace
  den1 m s2 := (m.herm.smul s2).norm
  num2 r m s1 := (r.herm * m.smul s1).trace
  den2 m s1 := (m.smul s1).norm
  finish := finishScalar

/-- The product of a diagonal matrix with a number (aocommon), used at IterativeScalarSolver.cc:161. -/
def smulD (m : D2 K) (x : Cx K) : D2 K := ⟨m.x * x, m.y * x⟩

/-- The trace of a diagonal matrix (aocommon), used at IterativeScalarSolver.cc:166. -/
def traceD (m : D2 K) : Cx K := m.x + m.y

/-- The norm of a diagonal matrix (aocommon), used at IterativeScalarSolver.cc:167. -/
def normD (m : D2 K) : K := m.x.normSq + m.y.normSq

/-- IterativeScalarSolver<MC2x2FDiag>, instantiated at IterativeScalarSolver.cc:233. -/
def scalarDuo : Kernel (D2 K) (Cx K) (Cx K) K (Option (Cx K)) where
  contribution m s1 s2 := smulD (smulD m s1) s2.conj
  num1 r m s2 := traceD (r * smulD m.herm s2)
  den1 m s2 := normD (smulD m.herm s2)
  num2 r m s1 := traceD (r.herm * smulD m s1)
  den2 m s1 := normD (smulD m s1)
  finish := finishScalar

/-- IterativeScalarSolver<std::complex<float>>, with the functions at IterativeScalarSolver.cc:20-27. -/
def scalarUni : Kernel (Cx K) (Cx K) (Cx K) K (Option (Cx K)) where
  contribution m s1 s2 := m * s1 * s2.conj
  num1 r m s2 := r * (m.conj * s2)
  den1 m s2 := (m.conj * s2).normSq
  num2 r m s1 := r.conj * (m * s1)
  den2 m s1 := (m * s1).normSq
  finish := finishScalar

/-- IterativeDiagonalSolver.cc:211-219: each polarization. -/
def finishDiagonal (n : D2 K) (d : K × K) : Option (Cx K) × Option (Cx K) :=
  (finishScalar n.x d.1, finishScalar n.y d.2)

/-- The diagonal of a matrix (aocommon), used at IterativeDiagonalSolver.cc:179. -/
def diagonal (m : M2 K) : D2 K := ⟨m.a, m.d⟩

/-- AddNormToDenominator, IterativeDiagonalSolver.cc:20-28. -/
def normsFull (m : M2 K) : K × K := (m.a.normSq + m.c.normSq, m.b.normSq + m.d.normSq)

/-- IterativeDiagonalSolver<MC2x2F>: the contribution at SolveData.h:236-237, the sums at
IterativeDiagonalSolver.cc:173-197. -/
def diagonalFull : Kernel (M2 K) (D2 K) (D2 K) (K × K) (Option (Cx K) × Option (Cx K)) where
  contribution m s1 s2 := s1.toM2 * m * s2.herm.toM2
  num1 r m s2 := diagonal (r * (s2.toM2 * m.herm))
  den1 m s2 := normsFull (s2.toM2 * m.herm)
  num2 r m s1 := diagonal (r.herm * (s1.toM2 * m))
  den2 m s1 := normsFull (s1.toM2 * m)
  finish := finishDiagonal

/-- AddNormToDenominator, IterativeDiagonalSolver.cc:30-34. -/
def normsDuo (m : D2 K) : K × K := (m.x.normSq, m.y.normSq)

/-- IterativeDiagonalSolver<MC2x2FDiag>, instantiated at IterativeDiagonalSolver.cc:225. -/
def diagonalDuo : Kernel (D2 K) (D2 K) (D2 K) (K × K) (Option (Cx K) × Option (Cx K)) where
  contribution m s1 s2 := s1 * m * s2.herm
  num1 r m s2 := r * (s2 * m.herm)
  den1 m s2 := normsDuo (s2 * m.herm)
  num2 r m s1 := r.herm * (s1 * m)
  den2 m s1 := normsDuo (s1 * m)
  finish := finishDiagonal

/-- IterativeFullJonesSolver.cc:182-186: NaN when the denominator is singular. -/
def finishFull (n d : M2 K) : Option (M2 K) :=
  match d.inv with
  | some i => some (n * i)
  | none => none

/-- IterativeFullJonesSolver: the term at IterativeFullJonesSolver.cc:216-217, the sums at 151-169. -/
def fullJones : Kernel (M2 K) (M2 K) (M2 K) (M2 K) (Option (M2 K)) where
  contribution m s1 s2 := s1 * (m * s2.herm)
  num1 r m s2 := r * (s2 * m.herm)
  den1 m s2 := (s2 * m.herm).herm * (s2 * m.herm)
  num2 r m s1 := r.herm * (s1 * m)
  den2 m s1 := (s1 * m).herm * (s1 * m)
  finish := finishFull

end Kernels

end DP3.IterSolver
