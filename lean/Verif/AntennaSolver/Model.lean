import Verif.Cx.Basic
import Verif.LowRank.Model

/-!
# The antenna solver

Models ddecal/gain_solvers/DiagonalAntennaSolver.cc: the functions it gives to GSL's nonlinear least squares solver for
the solutions of a direction, and the loop over iterations. Arithmetic is exact, in a commutative ring. GSL itself is not
modelled. An access outside a GSL vector calls GSL's error handler, which ends the program; it is `none`. Solutions of all
antennas are a function of the index in their GSL vector: `NAntennas() * 4` real numbers, and antenna indices of a
visibility are less than `NAntennas()`.
-/

namespace DP3.AntennaSolver

variable {K : Type} [CommRing K]

/-- A visibility for the direction that is solved: its solution index, its antennas, the residual that has this direction
and the model, DiagonalAntennaSolver.cc:394-404. -/
structure Vis (K : Type) where
  sol : Nat
  a1 : Nat
  a2 : Nat
  data : M2 K
  model : M2 K

/-- A `gsl_vector` with a value for each visibility, DiagonalAntennaSolver.cc:331-333. -/
structure Vec (K : Type) where
  size : Nat
  get : Nat → K

/-- `gsl_vector_set`, used at DiagonalAntennaSolver.cc:29-30. -/
def Vec.set (x : Vec K) (i : Nat) (a : K) : Option (Vec K) :=
  if i < x.size then some ⟨x.size, Function.update x.get i a⟩ else none

/-- `gsl_vector_get`, used at DiagonalAntennaSolver.cc:17-24. -/
def Vec.read (x : Vec K) (i : Nat) : Option K := if i < x.size then some (x.get i) else none

/-- `gsl_vector_set_all` with zero, DiagonalAntennaSolver.cc:424, 541. -/
def Vec.zero (x : Vec K) : Vec K := ⟨x.size, fun _ => 0⟩

/-- `MC2x2::Get`, used at DiagonalAntennaSolver.cc:29-30. -/
def element (m : M2 K) (i : Nat) : Cx K := if i = 0 then m.a else if i = 1 then m.b else if i = 2 then m.c else m.d

/-- GetVisibility, DiagonalAntennaSolver.cc:16-25. -/
def getVisibility (x : Vec K) (k : Nat) : Option (M2 K) := do
  let a ← x.read (k * 8 + 0)
  let b ← x.read (k * 8 + 1)
  let c ← x.read (k * 8 + 2)
  let d ← x.read (k * 8 + 3)
  let e ← x.read (k * 8 + 4)
  let f ← x.read (k * 8 + 5)
  let g ← x.read (k * 8 + 6)
  let h ← x.read (k * 8 + 7)
  return ⟨⟨a, b⟩, ⟨c, d⟩, ⟨e, f⟩, ⟨g, h⟩⟩

/-- SetVisibility, DiagonalAntennaSolver.cc:27-32. -/
def setVisibility (x : Vec K) (k : Nat) (m : M2 K) : Option (Vec K) :=
  (List.range 4).foldlM (fun (x : Vec K) i =>
    (x.set (k * 8 + i * 2) (element m i).re).bind fun x => x.set (k * 8 + i * 2 + 1) (element m i).im) x

/-- GetSolution, DiagonalAntennaSolver.cc:34-39. -/
def getSolution (x : Nat → K) (a : Nat) : D2 K := ⟨⟨x (a * 4), x (a * 4 + 1)⟩, ⟨x (a * 4 + 2), x (a * 4 + 3)⟩⟩

/-- AddSolution, DiagonalAntennaSolver.cc:41-55. -/
def addSolution (v : Nat → K) (a : Nat) (t : D2 K) : Nat → K :=
  let i := a * 4
  let v := Function.update v i (t.x.re + v i)
  let v := Function.update v (i + 1) (t.x.im + v (i + 1))
  let v := Function.update v (i + 2) (t.y.re + v (i + 2))
  Function.update v (i + 3) (t.y.im + v (i + 3))

/-- The sixteen elements that AddSolutionToMatrix changes, with the row and column in the block and what is added,
DiagonalAntennaSolver.cc:67-106. -/
def blockTerms (t : M2 K) : List (Nat × Nat × K) :=
  [(0, 0, t.a.re), (0, 1, t.a.im), (1, 0, -t.a.im), (1, 1, t.a.re),
   (2, 2, t.d.re), (2, 3, t.d.im), (3, 2, -t.d.im), (3, 3, t.d.re),
   (0, 2, t.b.re), (0, 3, t.b.im), (1, 2, -t.b.im), (1, 3, t.b.re),
   (2, 0, t.c.re), (2, 1, t.c.im), (3, 0, -t.c.im), (3, 1, t.c.re)]

/-- `gsl_matrix_set` of an element to its sum with a term, DiagonalAntennaSolver.cc:68-69. -/
def addElement (m : Nat → Nat → K) (i j : Nat) (x : K) : Nat → Nat → K :=
  fun i' j' => if i' = i ∧ j' = j then m i j + x else m i' j'

/-- AddSolutionToMatrix, DiagonalAntennaSolver.cc:57-107. -/
def addSolutionToMatrix (m : Nat → Nat → K) (row col : Nat) (t : M2 K) : Nat → Nat → K :=
  (blockTerms t).foldl (fun m e => addElement m (row * 4 + e.1) (col * 4 + e.2.1) e.2.2) m

/-- The loop over visibilities in PenaltyFunction, PenaltyDerivative and PenaltyVV, DiagonalAntennaSolver.cc:394-409,
430-448, 549-574: the visibilities of the solution are set to a value. -/
def forSolution (s : Nat) (f : Vis K → M2 K) (vs : List (Vis K)) (x : Vec K) : Option (Vec K) :=
  vs.zipIdx.foldlM (fun x e => if e.1.sol = s then setVisibility x e.2 (f e.1) else some x) x

/-- PenaltyFunction, DiagonalAntennaSolver.cc:385-411. -/
def penaltyFunction (s : Nat) (vs : List (Vis K)) (x : Nat → K) (f : Vec K) : Option (Vec K) :=
  forSolution s (fun v =>
    (getSolution x v.a1).toM2 * v.model * (getSolution x v.a2).herm.toM2 - v.data) vs f

/-- PenaltyDerivative, DiagonalAntennaSolver.cc:413-450. -/
def penaltyDerivative (s : Nat) (vs : List (Vis K)) (x u : Nat → K) (v : Vec K) : Option (Vec K) :=
  forSolution s (fun vis =>
    (getSolution u vis.a1).toM2 * vis.model * (getSolution x vis.a2).herm.toM2 +
      (getSolution x vis.a1).toM2 * vis.model * (getSolution u vis.a2).herm.toM2) vs v.zero

/-- PenaltyVV, DiagonalAntennaSolver.cc:535-577. -/
def penaltyVV (s : Nat) (vs : List (Vis K)) (v : Nat → K) (fvv : Vec K) : Option (Vec K) :=
  forSolution s (fun vis =>
    M2.smul ((getSolution v vis.a1).toM2 * vis.model * (getSolution v vis.a2).herm.toM2) (Cx.ofReal 2)) vs fvv.zero

/-- `Diagonal`, used at DiagonalAntennaSolver.cc:482, 484. -/
def diagonal (m : M2 K) : D2 K := ⟨m.a, m.d⟩

/-- The contributions of a visibility to the transposed derivative, DiagonalAntennaSolver.cc:474-487. -/
def transposedStep (x : Nat → K) (vis : Vis K) (u : M2 K) (v : Nat → K) : Nat → K :=
  let contrib1 := diagonal (u.herm * vis.model * (getSolution x vis.a2).herm.toM2)
  let contrib2 := diagonal (((getSolution x vis.a1).toM2 * vis.model).herm * u)
  addSolution (addSolution v vis.a1 contrib1) vis.a2 ⟨contrib2.x.conj, contrib2.y.conj⟩

/-- PenaltyTransposedDerivative, DiagonalAntennaSolver.cc:452-491. -/
def penaltyTransposed (s : Nat) (vs : List (Vis K)) (x : Nat → K) (u : Vec K) : Option (Nat → K) :=
  vs.zipIdx.foldlM (fun v e =>
    if e.1.sol ≠ s then some v else (getVisibility u e.2).map fun m => transposedStep x e.1 m v) (fun _ => 0)

/-- The contributions of a visibility to the matrix, DiagonalAntennaSolver.cc:509-531. -/
def jtjStep (x : Nat → K) (vis : Vis K) (jtj : Nat → Nat → K) : Nat → Nat → K :=
  let a := vis.model * (getSolution x vis.a2).herm.toM2
  let b := (getSolution x vis.a1).toM2 * vis.model
  let cross := a.herm * b
  let jtj := addSolutionToMatrix jtj vis.a1 vis.a1 (a.herm * a)
  let jtj := addSolutionToMatrix jtj vis.a2 vis.a2 (b.herm * b)
  let jtj := addSolutionToMatrix jtj vis.a1 vis.a2 cross
  addSolutionToMatrix jtj vis.a2 vis.a1 cross.herm

/-- PenaltyJTJ, DiagonalAntennaSolver.cc:493-533. -/
def penaltyJtj (s : Nat) (vs : List (Vis K)) (x : Nat → K) : Nat → Nat → K :=
  vs.foldl (fun m vis => if vis.sol ≠ s then m else jtjStep x vis m) fun _ _ => 0

/-- The number of values for which GSL allocates vectors, DiagonalAntennaSolver.cc:322-333; NSolutionVisibilities counts
the visibilities of a solution (ddecal/gain_solvers/SolveData.cc:347-360). -/
def dataSize (s : Nat) (vs : List (Vis K)) : Nat := vs.countP (fun v => v.sol = s) * 4 * 2

/-! ## The loop -/

open LowRank (Limits Report Flags reachedStop)

/-- The variables declared before the loop, after an iteration, DiagonalAntennaSolver.cc:187-196: `has_converged` is
declared again in the loop. -/
def afterIteration (f : Flags) (r : Report) : Flags :=
  { f with satisfied := r.satisfied, previously := r.converged || f.previously }

/-- The loop, DiagonalAntennaSolver.cc:171-199, with the reports of the iterations. -/
def loop (c : Limits) (reports : Nat → Report) : Nat → Nat → Flags → Nat × Flags
  | 0, i, f => (i, f)
  | fuel + 1, i, f =>
    let f' := afterIteration f (reports i)
    if reachedStop c (i + 1) f'.converged f'.satisfied (reports i).stalled then (i + 1, f')
    else loop c reports fuel (i + 1) f'

/-- Solve, DiagonalAntennaSolver.cc:171-205, with enough fuel for the loop to end: the number of iterations done, and
`iterations` of the result. -/
def solve (c : Limits) (reports : Nat → Report) : Nat × Nat :=
  let x := loop c reports (max c.minIterations c.maxIterations + 1) 0 ⟨false, false, false⟩
  (x.1, if x.2.converged && x.2.satisfied then x.1 else x.1 + 1)

end DP3.AntennaSolver
