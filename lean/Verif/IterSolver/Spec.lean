import Verif.IterSolver.Model

/-!
# What an iteration of the iterative solvers must compute

Stated with 2x2 matrices for every solver: a visibility is predicted as the sum over the directions of
`J₁ M J₂ᴴ`, and the misfit is the sum of the squared differences with the data.
-/

namespace DP3.IterSolver

variable {K V S : Type} [CommRing K]

/-- The visibility predicted from the model and the solutions. -/
def predicted (embV : V → M2 K) (embS : S → M2 K) (nSub nDirs : Nat) (s : Nat → S) (v : Vis V) : M2 K :=
  ((List.range nDirs).map fun d =>
    embS (s (v.ant1 * nSub + v.sol d)) * embV (v.model d) * (embS (s (v.ant2 * nSub + v.sol d))).herm).sum

/-- The sum of the squared differences between the data and the predicted visibilities. -/
def misfit (embV : V → M2 K) (embS : S → M2 K) (nSub nDirs : Nat) (s : Nat → S) (vs : List (Vis V)) : K :=
  (vs.map fun v => (embV v.data - predicted embV embS nSub nDirs s v).norm).sum

/-- The solutions with the one of antenna `a` and solution index `j` replaced. -/
def replace (s : Nat → S) (nSub a j : Nat) (y : S) : Nat → S := fun i => if i = a * nSub + j then y else s i

/-- The first solution index of a direction. -/
def firstSol (nSol : Nat → Nat) (d : Nat) : Nat := ((List.range d).map nSol).sum

/-- What is documented in ddecal/gain_solvers/SolveData.h:72-80 about the solution indices, and antennas in
range without autocorrelations. -/
structure Layout (nAnt nSub nDirs : Nat) (nSol : Nat → Nat) (vs : List (Vis V)) : Prop where
  ants : ∀ v ∈ vs, v.ant1 < nAnt ∧ v.ant2 < nAnt ∧ v.ant1 ≠ v.ant2
  sols : ∀ v ∈ vs, ∀ d < nDirs, firstSol nSol d ≤ v.sol d ∧ v.sol d < firstSol nSol d + nSol d
  first : ∀ v, vs.head? = some v → ∀ d < nDirs, v.sol d = firstSol nSol d
  total : firstSol nSol nDirs = nSub

/-- A scalar solution as a matrix. -/
def scalarMatrix (x : Cx K) : M2 K := ⟨x, 0, 0, x⟩

/-- A single visibility as a matrix. -/
def uniMatrix (x : Cx K) : M2 K := ⟨x, 0, 0, 0⟩

/-- Two diagonal elements as a matrix. -/
def duoMatrix (x : D2 K) : M2 K := ⟨x.x, 0, 0, x.y⟩

/-- A solution that is NaN stays arbitrary: it is `y`. -/
def orElse {X : Type} (o : Option X) (y : X) : X := o.getD y

/-- For both polarizations. -/
def orElse2 (o : Option (Cx K) × Option (Cx K)) (y : D2 K) : D2 K := ⟨o.1.getD y.x, o.2.getD y.y⟩

/-- An iteration of a solver gives for each antenna and solution index the value that minimizes the misfit when
all other solutions stay as they are, and no other value does; whatever the division over threads. Where it is
NaN, any value `y` does. -/
def LeastSquares {N D O : Type} [LE K] [AddCommGroup V] [AddCommMonoid N] [AddCommMonoid D]
    (k : Kernel V S N D O) (embV : V → M2 K) (embS : S → M2 K) (fill : O → S → S) : Prop :=
  ∀ (split : List (Vis V × V) → List (List (Vis V × V))), (∀ l, (split l).flatten.Perm l) →
  ∀ (nAnt nSub nDirs : Nat) (nSol : Nat → Nat) (s : Nat → S) (vs : List (Vis V)) (old next : Nat → Nat → O),
    Layout nAnt nSub nDirs nSol vs →
    performIteration k split nAnt nSub nDirs nSol s vs old = .ok next →
    ∀ a < nAnt, ∀ j < nSub, ∀ y : S,
      misfit embV embS nSub nDirs (replace s nSub a j (fill (next a j) y)) vs ≤
        misfit embV embS nSub nDirs (replace s nSub a j y) vs ∧
      (misfit embV embS nSub nDirs (replace s nSub a j y) vs ≤
        misfit embV embS nSub nDirs (replace s nSub a j (fill (next a j) y)) vs → fill (next a j) y = y)

/-- Solutions that predict the data exactly do not change, where they are not NaN. -/
def KeepsExact {N D O : Type} [AddCommGroup V] [AddCommMonoid N] [AddCommMonoid D]
    (k : Kernel V S N D O) (embV : V → M2 K) (embS : S → M2 K) (fill : O → S → S) : Prop :=
  ∀ (split : List (Vis V × V) → List (List (Vis V × V))), (∀ l, (split l).flatten.Perm l) →
  ∀ (nAnt nSub nDirs : Nat) (nSol : Nat → Nat) (s : Nat → S) (vs : List (Vis V)) (old next : Nat → Nat → O),
    Layout nAnt nSub nDirs nSol vs →
    performIteration k split nAnt nSub nDirs nSol s vs old = .ok next →
    (∀ v ∈ vs, embV v.data = predicted embV embS nSub nDirs s v) →
    ∀ a < nAnt, ∀ j < nSub, fill (next a j) (s (a * nSub + j)) = s (a * nSub + j)

end DP3.IterSolver
