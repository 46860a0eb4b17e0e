import Verif.Cx.Basic

/-!
# One iteration of the solvers that solve all directions at once

Model of `ScalarSolver`, `DiagonalSolver` and `FullJonesSolver` (ddecal/gain_solvers) and of the linear
solvers they use (ddecal/linear_solvers). The matrices are stored as in the code, column after column. The
routines of LAPACK are parameters. Arithmetic is exact, so the conversion of solutions to single precision is
not modelled; neither are the threads, which solve for different antennas.
-/

namespace DP3.DirectSolver

/-! ## Linear solvers -/

section Linear

variable {K : Type} [CommRing K]

/-- `LLSSolver::Solve` (ddecal/linear_solvers/LLSSolver.h:29-33) with the sizes of its constructor (LLSSolver.h:25):
the number of rows, of columns and of right-hand sides, the matrix, the right-hand sides, and the initial value.
Nothing if it returns false, otherwise what is in `b` afterwards. -/
abbrev Lls (K : Type) := Nat → Nat → Nat → (Nat → Cx K) → (Nat → Cx K) → Option (Nat → Cx K)

/-- `QRSolver::Solve`, ddecal/linear_solvers/QRSolver.h:35-51. `cgels` is the routine of LAPACK. -/
def qr (cgels : Lls K) : Lls K := fun m n nrhs a b => if m < n then none else cgels m n nrhs a b

/-- `SVDSolver::Solve`, ddecal/linear_solvers/SVDSolver.h:35-56. `cgelss` is the routine of LAPACK. -/
def svd (cgelss : Lls K) : Lls K := fun m n nrhs a b => cgelss m n nrhs a b

/-- An element of the upper triangle of the normal matrix, ddecal/linear_solvers/NormalEquationsSolver.h:35-42.
Elements below the diagonal keep their initial zero (NormalEquationsSolver.h:23). -/
def adaggera (m n : Nat) (a : Nat → Cx K) (idx : Nat) : Cx K :=
  let r := idx % n
  let c := idx / n
  if r ≤ c ∧ c < n then ((List.range m).map fun i => (a (i + r * m)).conj * a (i + c * m)).sum else 0

/-- An element of the right-hand side, ddecal/linear_solvers/NormalEquationsSolver.h:43-50. -/
def adaggerb (m n : Nat) (a b : Nat → Cx K) (idx : Nat) : Cx K :=
  let r := idx % n
  let p := idx / n
  ((List.range m).map fun i => (a (i + r * m)).conj * b (i + p * m)).sum

/-- `NormalEquationsSolver::Solve`, ddecal/linear_solvers/NormalEquationsSolver.h:33-64. `cposv` is the routine of
LAPACK, given the size, the number of right-hand sides, the matrix of which it reads the upper triangle, and the
right-hand sides. -/
def normalEquations (cposv : Nat → Nat → (Nat → Cx K) → (Nat → Cx K) → Option (Nat → Cx K)) : Lls K :=
  fun m n nrhs a b => (cposv n nrhs (adaggera m n a) (adaggerb m n a b)).map fun x idx =>
    if idx < n * nrhs then x idx else b idx

/-- `LLSSolverType`, ddecal/linear_solvers/LLSSolver.h:16. -/
inductive LlsType
  | qr
  | svd
  | normalEquations
  deriving DecidableEq

/-- `LLSSolver::Make`, ddecal/linear_solvers/LLSSolver.cc:15-26. -/
def makeLls (cgels cgelss : Lls K)
    (cposv : Nat → Nat → (Nat → Cx K) → (Nat → Cx K) → Option (Nat → Cx K)) : LlsType → Lls K
  | .svd => svd cgelss
  | .qr => qr cgels
  | .normalEquations => normalEquations cposv

end Linear

/-! ## Matrices -/

section Fill

variable {K : Type} [CommRing K]

/-- A visibility of a channel block (ddecal/gain_solvers/SolveData.h:66-91): the data, the antennas and the model
data of each direction. These solvers have one solution for each direction (ddecal/gain_solvers/SolverBase.cc:47-55). -/
structure Vis (K : Type) where
  data : M2 K
  ant1 : Nat
  ant2 : Nat
  model : Nat → M2 K

/-- `MC2x2::Get` (aocommon). -/
def get (m : M2 K) : Nat → Cx K
  | 0 => m.a
  | 1 => m.b
  | 2 => m.c
  | _ => m.d

/-- The matrices in `g_times_cs` or `vs`: `SolverBase::Matrix`, ddecal/gain_solvers/SolverBase.h:29-59, whose
`columns_` is the number of rows here, as the matrices are stored column after column. -/
structure Mats (K : Type) where
  slots : Nat
  rows : Nat → Nat
  cols : Nat
  val : Nat → Nat → Cx K

/-- `Reset`, ddecal/gain_solvers/SolverBase.h:43-54, for all matrices: they only have zeros. -/
def reset (slots : Nat) (rows : Nat → Nat) (cols : Nat) : Mats K := ⟨slots, rows, cols, fun _ _ => 0⟩

/-- An assignment to an element of a matrix. -/
structure Write (K : Type) where
  slot : Nat
  row : Nat
  col : Nat
  x : Cx K

/-- The position of an element, ddecal/gain_solvers/SolverBase.h:35-37. -/
def Mats.index (m : Mats K) (slot row col : Nat) : Nat := row + col * m.rows slot

/-- An assignment to the result of `operator()`, ddecal/gain_solvers/SolverBase.h:35-37: not defined outside the
vectors. -/
def Mats.set (m : Mats K) (w : Write K) : Option (Mats K) :=
  if w.slot < m.slots ∧ m.index w.slot w.row w.col < m.rows w.slot * m.cols then
    some { m with val := fun t i => if t = w.slot ∧ i = m.index w.slot w.row w.col then w.x else m.val t i }
  else none

/-- An iteration of a loop that fills the matrices, given the values in `ant_positions`: what it assigns, and the
positions it increases. -/
structure Body (K : Type) where
  writes : (Nat → Nat) → List (Write K)
  bumps : List (Nat × Nat)

/-- `a1pos += 2` and so on, ddecal/gain_solvers/FullJonesSolver.cc:174-175. -/
def bump (pos : Nat → Nat) (b : Nat × Nat) : Nat → Nat := fun t => if t = b.1 then pos t + b.2 else pos t

/-- An iteration of a loop that fills the matrices: the assignments are done one after the other
(ddecal/gain_solvers/ScalarSolver.cc:105-120). -/
def runBody (st : (Nat → Nat) × Mats K) (b : Body K) : Option ((Nat → Nat) × Mats K) :=
  ((b.writes st.1).foldlM Mats.set st.2).map fun m => (b.bumps.foldl bump st.1, m)

/-- A loop that fills the matrices, with `ant_positions` that start at zero
(ddecal/gain_solvers/ScalarSolver.cc:104-120). -/
def fill (m : Mats K) (bodies : List (Body K)) : Option (Mats K) :=
  (bodies.foldlM runBody ((fun _ => 0), m)).map Prod.snd

/-- `NAntennaVisibilities`, counted in ddecal/gain_solvers/SolveData.cc:303-311. -/
def nAntennaVis (vis : List (Vis K)) (ant : Nat) : Nat :=
  (vis.map fun v => (if v.ant1 = ant then 1 else 0) + (if v.ant2 = ant then 1 else 0)).sum

/-! ## The scalar solver -/

/-- `p1_to_p2`, ddecal/gain_solvers/ScalarSolver.cc:101. -/
def swap : Nat → Nat
  | 0 => 0
  | 1 => 2
  | 2 => 1
  | _ => 3

/-- The loop body that fills `vs`, ddecal/gain_solvers/ScalarSolver.cc:105-120. -/
def scalarRhs (v : Vis K) : Body K where
  writes pos := [0, 1, 2, 3].flatMap fun p =>
    [⟨v.ant1, pos v.ant1 * 4 + swap p, 0, get v.data p⟩, ⟨v.ant2, pos v.ant2 * 4 + p, 0, (get v.data p).conj⟩]
  bumps := [(v.ant1, 1), (v.ant2, 1)]

/-- The loop body that fills `g_times_cs`, ddecal/gain_solvers/ScalarSolver.cc:125-149. -/
def scalarLhs (nSub : Nat) (sols : Nat → Cx K) (s : Nat) (v : Vis K) : Body K where
  writes pos := [0, 1, 2, 3].flatMap fun p =>
    [⟨v.ant1, pos v.ant1 * 4 + swap p, s, (sols (v.ant2 * nSub + s)).conj * get (v.model s) p⟩,
      ⟨v.ant2, pos v.ant2 * 4 + p, s, (sols (v.ant1 * nSub + s) * get (v.model s) p).conj⟩]
  bumps := [(v.ant1, 1), (v.ant2, 1)]

/-- The matrices before they are solved: InitializeModelMatrix (ddecal/gain_solvers/ScalarSolver.cc:178-199) and the
loops of PerformIteration, ScalarSolver.cc:103-151. -/
def scalarFill (nAnt nSub : Nat) (vis : List (Vis K)) (sols : Nat → Cx K) : Option (Mats K × Mats K) := do
  let rows := fun ant => nAntennaVis vis ant * 4
  let vs ← fill (reset nAnt (fun ant => max (rows ant) nSub) 1) (vis.map scalarRhs)
  let gs ← (List.range nSub).foldlM (fun gs s => fill gs (vis.map (scalarLhs nSub sols s))) (reset nAnt rows nSub)
  pure (gs, vs)

variable [DecidableEq K]

/-- What is kept of the result of a linear solver, ddecal/gain_solvers/ScalarSolver.cc:167-174 and the same lines in
the other solvers: nothing (NaN values) if it failed or if the first element is zero. -/
def keep (x : Option (Nat → Cx K)) : Option (Nat → Cx K) := x.bind fun x => if x 0 = 0 then none else some x

/-- `ScalarSolver::PerformIteration`, ddecal/gain_solvers/ScalarSolver.cc:96-176: the next solutions for each antenna
and direction. -/
def scalarIteration (lls : Lls K) (nAnt nSub : Nat) (vis : List (Vis K)) (sols : Nat → Cx K) :
    Option (Nat → Nat → Option (Cx K)) := do
  let (gs, vs) ← scalarFill nAnt nSub vis sols
  pure fun ant s =>
    (keep (lls (nAntennaVis vis ant * 4) nSub 1 (gs.val ant) (vs.val ant))).map fun x => x (vs.index ant s 0)

/-! ## The diagonal solver -/

/-- The loop body that fills `vs`, ddecal/gain_solvers/DiagonalSolver.cc:115-127. -/
def diagonalRhs (v : Vis K) (p : Nat) : Body K where
  writes pos :=
    [⟨v.ant1 * 2 + p / 2, pos (v.ant1 * 2 + p / 2), 0, get v.data p⟩,
      ⟨v.ant2 * 2 + p % 2, pos (v.ant2 * 2 + p % 2), 0, (get v.data p).conj⟩]
  bumps := [(v.ant1 * 2 + p / 2, 1), (v.ant2 * 2 + p % 2, 1)]

/-- The loop body that fills `g_times_cs`, ddecal/gain_solvers/DiagonalSolver.cc:139-157. -/
def diagonalLhs (nSub : Nat) (sols : Nat → Cx K) (s : Nat) (v : Vis K) (p : Nat) : Body K where
  writes pos :=
    [⟨v.ant1 * 2 + p / 2, pos (v.ant1 * 2 + p / 2), s,
        (sols ((v.ant2 * nSub + s) * 2 + p % 2)).conj * get (v.model s) p⟩,
      ⟨v.ant2 * 2 + p % 2, pos (v.ant2 * 2 + p % 2), s,
        (sols ((v.ant1 * nSub + s) * 2 + p / 2) * get (v.model s) p).conj⟩]
  bumps := [(v.ant1 * 2 + p / 2, 1), (v.ant2 * 2 + p % 2, 1)]

/-- The matrices before they are solved: InitializeModelMatrix (ddecal/gain_solvers/DiagonalSolver.cc:201-223) and the
loops of PerformIteration, DiagonalSolver.cc:103-159. -/
def diagonalFill (nAnt nSub : Nat) (vis : List (Vis K)) (sols : Nat → Cx K) : Option (Mats K × Mats K) := do
  let rows := fun slot => nAntennaVis vis (slot / 2) * 2
  let vs ← fill (reset (nAnt * 2) (fun slot => max (rows slot) nSub) 1)
    (vis.flatMap fun v => [0, 1, 2, 3].map (diagonalRhs v))
  let gs ← (List.range nSub).foldlM
    (fun gs s => fill gs (vis.flatMap fun v => [0, 1, 2, 3].map (diagonalLhs nSub sols s v)))
    (reset (nAnt * 2) rows nSub)
  pure (gs, vs)

/-- `DiagonalSolver::PerformIteration`, ddecal/gain_solvers/DiagonalSolver.cc:99-187: the next solutions for each
antenna, direction and polarization. -/
def diagonalIteration (lls : Lls K) (nAnt nSub : Nat) (vis : List (Vis K)) (sols : Nat → Cx K) :
    Option (Nat → Nat → Nat → Option (Cx K)) := do
  let (gs, vs) ← diagonalFill nAnt nSub vis sols
  pure fun ant s pol =>
    (keep (lls (nAntennaVis vis ant * 2) nSub 1 (gs.val (ant * 2 + pol)) (vs.val (ant * 2 + pol)))).map
      fun x => x s

/-! ## The full-Jones solver -/

/-- The loop body that fills `vs`, ddecal/gain_solvers/FullJonesSolver.cc:157-176. -/
def fullRhs (v : Vis K) : Body K where
  writes pos := [0, 1, 2, 3].flatMap fun p =>
    [⟨v.ant1, pos v.ant1 + p % 2, p / 2, (get v.data p).conj⟩, ⟨v.ant2, pos v.ant2 + p / 2, p % 2, get v.data p⟩]
  bumps := [(v.ant1, 2), (v.ant2, 2)]

/-- The Jones matrix at a solution index: a matrix made from a pointer, ddecal/gain_solvers/FullJonesSolver.cc:198-199. -/
def jonesAt (sols : Nat → Cx K) (i : Nat) : M2 K := ⟨sols (i * 4), sols (i * 4 + 1), sols (i * 4 + 2), sols (i * 4 + 3)⟩

/-- The loop body that fills `g_times_cs`, ddecal/gain_solvers/FullJonesSolver.cc:181-210. -/
def fullLhs (nSub : Nat) (sols : Nat → Cx K) (s : Nat) (v : Vis K) : Body K where
  writes pos :=
    let gc2 := jonesAt sols (v.ant1 * nSub + s) * v.model s
    let gc1 := jonesAt sols (v.ant2 * nSub + s) * (v.model s).herm
    [0, 1, 2, 3].flatMap fun p =>
      [⟨v.ant2, pos v.ant2 + p / 2, s * 2 + p % 2, get gc2 p⟩, ⟨v.ant1, pos v.ant1 + p / 2, s * 2 + p % 2, get gc1 p⟩]
  bumps := [(v.ant1, 2), (v.ant2, 2)]

/-- The matrices before they are solved: InitializeModelMatrix (ddecal/gain_solvers/FullJonesSolver.cc:242-263) and the
loops of PerformIteration, FullJonesSolver.cc:128-211. -/
def fullFill (nAnt nSub : Nat) (vis : List (Vis K)) (sols : Nat → Cx K) : Option (Mats K × Mats K) := do
  let rows := fun ant => nAntennaVis vis ant * 2
  let vs ← fill (reset nAnt (fun ant => max (rows ant) (nSub * 2)) 2) (vis.map fullRhs)
  let gs ← (List.range nSub).foldlM (fun gs s => fill gs (vis.map (fullLhs nSub sols s)))
    (reset nAnt rows (nSub * 2))
  pure (gs, vs)

/-- `FullJonesSolver::PerformIteration`, ddecal/gain_solvers/FullJonesSolver.cc:124-240: the next solutions for each
antenna, direction and element. It always uses the QR solver (FullJonesSolver.cc:222). -/
def fullIteration (cgels : Lls K) (nAnt nSub : Nat) (vis : List (Vis K)) (sols : Nat → Cx K) :
    Option (Nat → Nat → Nat → Option (Cx K)) := do
  let (gs, vs) ← fullFill nAnt nSub vis sols
  pure fun ant s p =>
    (keep (qr cgels (nAntennaVis vis ant * 2) (nSub * 2) 2 (gs.val ant) (vs.val ant))).map
      fun x => (x (vs.index ant (s * 2 + p % 2) (p / 2))).conj

end Fill

end DP3.DirectSolver
