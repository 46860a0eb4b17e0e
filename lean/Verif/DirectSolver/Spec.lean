import Verif.DirectSolver.Model

/-!
# What an iteration of these solvers must compute

Stated with 2x2 matrices for all three: a visibility is predicted as the sum over the directions of `J₁ M J₂ᴴ`, and
the misfit is the sum of the squared differences with the data. A linear solver must minimize the squared residuals.
-/

namespace DP3.DirectSolver

variable {K : Type} [CommRing K]

/-- The visibility predicted from the Jones matrices of each antenna and direction. -/
def predicted (n : Nat) (J : Nat → Nat → M2 K) (v : Vis K) : M2 K :=
  ((List.range n).map fun s => J v.ant1 s * v.model s * (J v.ant2 s).herm).sum

/-- The sum of the squared differences between the data and the predicted visibilities. -/
def misfit (n : Nat) (J : Nat → Nat → M2 K) (vis : List (Vis K)) : K :=
  (vis.map fun v => (v.data - predicted n J v).norm).sum

/-- The matrices `J`, but with those of one antenna replaced. -/
def withAntenna (J : Nat → Nat → M2 K) (a : Nat) (g : Nat → M2 K) : Nat → Nat → M2 K :=
  fun b s => if b = a then g s else J b s

/-- A scalar as a Jones matrix. -/
def scalarMatrix (x : Cx K) : M2 K := ⟨x, 0, 0, x⟩

/-- Two polarizations as a Jones matrix. -/
def diagonalMatrix (x y : Cx K) : M2 K := ⟨x, 0, 0, y⟩

/-- The Jones matrices of scalar solutions (ddecal/gain_solvers/SolverBase.h:201-203). -/
def scalarJones (n : Nat) (sols : Nat → Cx K) (a s : Nat) : M2 K := scalarMatrix (sols (a * n + s))

/-- The Jones matrices of diagonal solutions. -/
def diagonalJones (n : Nat) (sols : Nat → Cx K) (a s : Nat) : M2 K :=
  diagonalMatrix (sols ((a * n + s) * 2)) (sols ((a * n + s) * 2 + 1))

/-- The Jones matrices of full solutions. -/
def fullJones (n : Nat) (sols : Nat → Cx K) (a s : Nat) : M2 K := jonesAt sols (a * n + s)

/-- Antennas are in range and there are no autocorrelations, as SolveData leaves them out
(ddecal/gain_solvers/SolveData.cc:137 and 234). -/
def Layout (nAnt : Nat) (vis : List (Vis K)) : Prop :=
  ∀ v ∈ vis, v.ant1 < nAnt ∧ v.ant2 < nAnt ∧ v.ant1 ≠ v.ant2

/-- The squared residuals of `A X = B`, for an `m` x `n` matrix and `nrhs` right-hand sides, all stored column after
column; `ldb` and `ldx` are the distances between the columns of `B` and `X`. -/
def residual (m n nrhs ldb ldx : Nat) (a b x : Nat → Cx K) : K :=
  ((List.range m).map fun i => ((List.range nrhs).map fun j =>
    (b (i + j * ldb) - ((List.range n).map fun c => a (i + c * m) * x (c + j * ldx)).sum).normSq).sum).sum

/-- What a linear solver must do (the comments in ddecal/linear_solvers/QRSolver.h:27-34): when it succeeds, its result
minimizes the squared residuals. -/
def Minimizes [LE K] (lls : Lls K) (nrhs : Nat) : Prop :=
  ∀ m n a b x, lls m n nrhs a b = some x → ∀ y,
    residual m n nrhs (max m n) (max m n) a b x ≤ residual m n nrhs (max m n) (max m n) a b y

/-- What a linear solver must do also: succeed if there are enough rows, the equations have a solution, and different
values of the unknowns do not have the same product with the matrix. -/
def Succeeds (lls : Lls K) (nrhs : Nat) : Prop :=
  ∀ m n a b, n ≤ m → (∃ y, residual m n nrhs (max m n) (max m n) a b y = 0) →
    (∀ x : Nat → Cx K, (∀ i < m, ((List.range n).map fun c => a (i + c * m) * x c).sum = 0) → ∀ c < n, x c = 0) →
    (lls m n nrhs a b).isSome

/-- An element of the Hermitian matrix of which the upper triangle is stored column after column. -/
def hermitian (n : Nat) (h : Nat → Cx K) (r c : Nat) : Cx K := if r ≤ c then h (r + c * n) else (h (c + r * n)).conj

/-- What `cposv` of LAPACK does: when it succeeds, its result solves the equations. -/
def SolvesHermitian (cposv : Nat → Nat → (Nat → Cx K) → (Nat → Cx K) → Option (Nat → Cx K)) : Prop :=
  ∀ n nrhs h b x, cposv n nrhs h b = some x → ∀ p < nrhs, ∀ r < n,
    ((List.range n).map fun c => hermitian n h r c * x (c + p * n)).sum = b (r + p * n)

/-- And it succeeds for a matrix that is positive definite. -/
def SucceedsPositive [LT K] (cposv : Nat → Nat → (Nat → Cx K) → (Nat → Cx K) → Option (Nat → Cx K)) : Prop :=
  ∀ n nrhs h b, (∀ x : Nat → Cx K, (∃ c < n, x c ≠ 0) →
    0 < (((List.range n).map fun r => (x r).conj * ((List.range n).map fun c => hermitian n h r c * x c).sum).sum).re) →
    (cposv n nrhs h b).isSome

/-- The data determine the solutions of an antenna, given those of the others: no others give the same
predictions. -/
def Determined (n : Nat) (J : Nat → Nat → M2 K) (vis : List (Vis K)) (a : Nat) (P : (Nat → M2 K) → Prop) : Prop :=
  ∀ g h, P g → P h →
    (∀ v ∈ vis, predicted n (withAntenna J a g) v = predicted n (withAntenna J a h) v) → ∀ s < n, g s = h s

end DP3.DirectSolver
