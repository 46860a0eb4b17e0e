import Mathlib.Algebra.Field.Defs
import Verif.Cx.Basic

/-!
# The cost and gradient of the LBFGS solver

Models the cost functions and gradients that ddecal/gain_solvers/LBFGSSolver.cc gives to the LBFGS routines of libdirac
(which are not in the repository), and the conversion of solutions to unknowns. The logarithm is an argument of the
cost. Arithmetic is exact.
-/

namespace DP3.Lbfgs

variable {K : Type}

/-- A visibility of a channel block with its model data per direction and its antennas, as used in
ddecal/gain_solvers/LBFGSSolver.cc:68-75. -/
structure Vis (K : Type) where
  data : M2 K
  model : Nat → M2 K
  a1 : Nat
  a2 : Nat

/-- The modes of the solver, ddecal/gain_solvers/LBFGSSolver.cc:571-604. -/
inductive Mode where
  | full | diagonal | scalar
  deriving DecidableEq

/-- The number of values of a solution, ddecal/gain_solvers/LBFGSSolver.cc:56, 169 and 286. -/
def Mode.nPol : Mode → Nat
  | .full => 4
  | .diagonal => 2
  | .scalar => 1

/-- `n_sol`, ddecal/gain_solvers/LBFGSSolver.cc:56, 169 and 286. -/
def Mode.nSol (m : Mode) (nAnt nDir : Nat) : Nat := nAnt * nDir * m.nPol

/-- The solution with an index: the imaginary parts are in the second half of the unknowns,
ddecal/gain_solvers/LBFGSSolver.cc:60-63. -/
def solution (u : Nat → K) (n i : Nat) : Cx K := ⟨u i, u (n + i)⟩

/-- The index of the first value of an antenna and direction, ddecal/gain_solvers/LBFGSSolver.cc:74, 185 and 302. -/
def Mode.base (m : Mode) (nDir ant d : Nat) : Nat := (ant * nDir + d) * m.nPol

section Ring
variable [CommRing K]

/-- The four values at an index as a matrix, ddecal/gain_solvers/LBFGSSolver.cc:74-75. -/
def matrix (s : Nat → Cx K) (i : Nat) : M2 K := ⟨s i, s (i + 1), s (i + 2), s (i + 3)⟩

/-- The model data with the solutions of both antennas, ddecal/gain_solvers/LBFGSSolver.cc:73-77, 183-189 and 300-305. -/
def Mode.predicted (m : Mode) (s : Nat → Cx K) (i1 i2 : Nat) (md : M2 K) : M2 K :=
  match m with
  | .full => matrix s i1 * md * (matrix s i2).herm
  | .diagonal =>
    let x : M2 K := ⟨s i1 * md.a, s i1 * md.b, s (i1 + 1) * md.c, s (i1 + 1) * md.d⟩
    ⟨x.a * (s i2).conj, x.b * (s (i2 + 1)).conj, x.c * (s i2).conj, x.d * (s (i2 + 1)).conj⟩
  | .scalar => md.smul (s i1 * (s i2).conj)

/-- `res`, ddecal/gain_solvers/LBFGSSolver.cc:68-79 (also 109-121, 178-191, 221-235, 295-306 and 336-348). -/
def residual (m : Mode) (nDir : Nat) (s : Nat → Cx K) (v : Vis K) : M2 K :=
  (List.range nDir).foldl (fun r d => r - m.predicted s (m.base nDir v.a1 d) (m.base nDir v.a2 d) (v.model d)) v.data

/-- What is added to the gradient for a visibility and direction: indices and values before they are scaled,
ddecal/gain_solvers/LBFGSSolver.cc:129-153, 244-269 and 357-375. -/
def Mode.terms (m : Mode) (s : Nat → Cx K) (i1 i2 : Nat) (md r : M2 K) : List (Nat × Cx K) :=
  match m with
  | .full =>
    let x := r * matrix s i2 * md.herm
    let y := r.herm * matrix s i1 * md
    [(i1, x.a), (i1 + 1, x.b), (i1 + 2, x.c), (i1 + 3, x.d), (i2, y.a), (i2 + 1, y.b), (i2 + 2, y.c), (i2 + 3, y.d)]
  | .diagonal =>
    let rc : M2 K := ⟨r.a * md.a.conj, r.b * md.b.conj, r.c * md.c.conj, r.d * md.d.conj⟩
    [(i2, (s i1).conj * rc.a + (s (i1 + 1)).conj * rc.c), (i2 + 1, (s i1).conj * rc.b + (s (i1 + 1)).conj * rc.d),
     (i1, (s i2 * rc.a + s (i2 + 1) * rc.b).conj), (i1 + 1, (s i2 * rc.c + s (i2 + 1) * rc.d).conj)]
  | .scalar =>
    let tr := md.a * r.a.conj + md.b * r.b.conj + md.c * r.c.conj + md.d * r.d.conj
    [(i1, (s i2).conj * tr), (i2, (s i1 * tr).conj)]

/-- `complex_gradient[i] += x`, ddecal/gain_solvers/LBFGSSolver.cc:138-153. -/
def addAt (g : Nat → Cx K) (c : Nat × Cx K) : Nat → Cx K := fun j => if j = c.1 then g j + c.2 else g j

/-- The sign of the imaginary part when the gradient is copied, ddecal/gain_solvers/LBFGSSolver.cc:157-162, 273-279 and
379-385. -/
def Mode.sign : Mode → K
  | .full => 1
  | _ => -1

end Ring

section Field
variable [Field K]

/-- `FullCost`, `DiagonalCost` and `ScalarCost`, ddecal/gain_solvers/LBFGSSolver.cc:52-86, 165-198 and 282-313, for the
visibilities of the batch. -/
def cost (log : K → K) (m : Mode) (nAnt nDir : Nat) (nu : K) (vs : List (Vis K)) (u : Nat → K) : K :=
  (vs.map fun v => log (1 + (residual m nDir (solution u (m.nSol nAnt nDir)) v).norm / nu)).sum / (vs.length : K)

/-- `scale_factor`, ddecal/gain_solvers/LBFGSSolver.cc:105-106 and 122-126. -/
def scale (nu : K) (n : Nat) (r : M2 K) : K := -2 * (1 / (n : K)) / (nu + r.norm)

/-- All that is added to the gradient for a visibility, ddecal/gain_solvers/LBFGSSolver.cc:109-154. -/
def visTerms (m : Mode) (nDir : Nat) (nu : K) (n : Nat) (s : Nat → Cx K) (v : Vis K) : List (Nat × Cx K) :=
  (List.range nDir).flatMap fun d =>
    (m.terms s (m.base nDir v.a1 d) (m.base nDir v.a2 d) (v.model d) (residual m nDir s v)).map fun c =>
      (c.1, Cx.ofReal (scale nu n (residual m nDir s v)) * c.2)

/-- `complex_gradient`, ddecal/gain_solvers/LBFGSSolver.cc:102-155, 214-271 and 329-377. -/
def complexGradient (m : Mode) (nDir : Nat) (nu : K) (vs : List (Vis K)) (s : Nat → Cx K) : Nat → Cx K :=
  (vs.flatMap (visTerms m nDir nu vs.length s)).foldl addAt fun _ => 0

/-- `FullGradient`, `DiagonalGradient` and `ScalarGradient`, ddecal/gain_solvers/LBFGSSolver.cc:88-163, 200-280 and
315-386. -/
def gradient (m : Mode) (nAnt nDir : Nat) (nu : K) (vs : List (Vis K)) (u : Nat → K) (i : Nat) : K :=
  let n := m.nSol nAnt nDir
  let g := complexGradient m nDir nu vs (solution u n)
  if i < n then (g i).re else m.sign * (g (i - n)).im

end Field

/-- ddecal/gain_solvers/LBFGSSolver.cc:495-506 SplitSolutions. -/
def splitSolutions (l : List (Cx K)) : List K := l.map Cx.re ++ l.map Cx.im

/-- ddecal/gain_solvers/LBFGSSolver.cc:508-523 MergeSolutions, for `n` solutions: the values of a channel block in the
order of antenna, sub solution and polarization. -/
def mergeSolutions (n : Nat) (d : List K) : List (Cx K) := List.zipWith Cx.mk (d.take n) ((d.drop n).take n)

end DP3.Lbfgs
