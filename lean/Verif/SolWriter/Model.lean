import Mathlib.Algebra.Order.Field.Basic
import Verif.SolveData.Model

/-!
# Writing of the solutions of DDECal

Model of ddecal/SolutionWriter.cc, ddecal/SolutionResampler.cc:43-179 and base/CalType.h:37-61.  The
H5Parm library (schaapcommon) is not part of the repository: a table is a record of what it is given.
Times and frequencies are elements of an ordered field.
-/

namespace DP3.SolWriter

open DP3.SolveData

/-- `CalType`: base/CalType.h:12-31. -/
inductive Mode where
  | scalar | scalarAmplitude | scalarPhase
  | diagonal | diagonalAmplitude | diagonalPhase
  | fullJones | leakage | leakageAmplitude
  | tec | tecAndDelay | tecAndPhase | tecPhaseAndDelay | tecScreen
  | rotation | rotationAndDiagonal | faradayRotation
  deriving DecidableEq, Repr

/-- `GetNPolarizations`: base/CalType.h:37-61. -/
def Mode.nPol : Mode → Nat
  | .diagonal | .diagonalPhase | .diagonalAmplitude => 2
  | .fullJones | .rotationAndDiagonal | .rotation | .faradayRotation | .leakage
  | .leakageAmplitude => 4
  | .scalar | .scalarAmplitude | .scalarPhase | .tec | .tecAndDelay | .tecAndPhase
  | .tecPhaseAndDelay | .tecScreen => 1

/-- The exceptions of the writer; `ub` is access outside an array or division of integers by zero. -/
inductive Err where
  | ub          -- undefined behaviour
  | noOutput    -- SolutionWriter.cc:252
  | count       -- SolutionWriter.cc:318-326
  | pols        -- SolutionWriter.cc:362-365
  deriving DecidableEq, Repr

/-- `ConstraintResult`: ddecal/constraints/Constraint.h; names and sizes of the axes (`axes` and
`dims`) as pairs, after `tokenize`. -/
structure Result (V : Type) where
  name : String
  axes : List (String × Nat)
  vals : List V
  weights : List V

/-- A solution table as it is given to the H5Parm library: SolutionWriter.cc:255-267, 346-392.  A
frequency that is not a number is `none`; `pols` is empty if `SetPolarizations` is not called. -/
structure Table (V F : Type) where
  name : String
  axes : List (String × Nat)
  values : List V
  weights : List V
  antennas : List String
  sources : List String
  pols : List String
  freqs : List (Option F)
  times : List F

section Times

variable {F : Type} [Field F] [LinearOrder F]

/-- The loop of `GetSolutionTimes` from time `t`, with `m` times to go: SolutionWriter.cc:56-63. -/
def timesFrom (start stop interval dt : F) : Nat → Nat → List F
  | 0, _ => []
  | m + 1, t =>
    if start + (t : F) * interval > stop - 1 / 2 * dt then []
    else (start + ((t : F) + 1 / 2) * interval) :: timesFrom start stop interval dt m (t + 1)

/-- `GetSolutionTimes`: SolutionWriter.cc:45-65. -/
def solutionTimes (nTimes : Nat) (start stop interval dt : F) : List F :=
  timesFrom start stop interval dt nTimes 0

/-- The frequencies of the blocks of a constraint: SolutionWriter.cc:376-389; the start of a block is
the end of the previous one.  The mean over an empty block is not a number. -/
def blockFreqs (nBlocks : Nat) (chanFreqs : List F) : List (Option F) :=
  (List.range nBlocks).map fun b =>
    let first := channelBegin chanFreqs.length nBlocks b
    let last := channelBegin chanFreqs.length nBlocks (b + 1)
    if last - first = 0 then none
    else some (((chanFreqs.drop first).take (last - first)).sum / ((last - first : Nat) : F))

end Times

/-! ## Upsampling -/

/-- The value of `solutions[time][block][offset]` that `Upsample` copies: SolutionResampler.cc:68-76,
with `MapResampledToOriginal` (:181-198), which divides by zero if a direction has more solutions than
there are substeps. -/
def original {C : Type} (nSol : List Nat) (solint nPol : Nat) (sols : List (List (List C)))
    (t b a d p : Nat) : Option C :=
  if nSubsteps nSol solint / nSol.getD d 0 = 0 then none
  else
    let m := mapResampled nSol solint nPol t a d p
    (sols[m.1]?).bind fun s => (s[b]?).bind fun v => v[m.2]?

/-- `SolutionResampler::Upsample` for solutions: SolutionResampler.cc:43-83; the loops over antenna,
direction and polarization fill the array in order of `offset_upsampled`. -/
def upsample {C : Type} (nSol : List Nat) (solint nAnt nPol : Nat) (sols : List (List (List C))) :
    Option (List (List (List C))) :=
  (sols[0]?).bind fun s0 =>
    (List.range (sols.length * nSubsteps nSol solint)).mapM fun t =>
      (List.range s0.length).mapM fun b =>
        (List.range (nAnt * nSol.length * nPol)).mapM fun o =>
          original nSol solint nPol sols t b (o / (nSol.length * nPol))
            (o / nPol % nSol.length) (o % nPol)

/-- The upsampled array of values (or weights) of one constraint result, for one substep:
SolutionResampler.cc:114-120, 158-175.  `n` is the number of values of the result. -/
def upsampleVals {V : Type} [Zero V] (nSol : List Nat) (solint sub dim0 n : Nat) (vals : List V) :
    Option (List V) :=
  if dim0 * nSol.sum = 0 then none
  else
    let res := n / (dim0 * nSol.sum)
    (List.range (n * nSol.length / nSol.sum)).mapM fun o =>
      if o < dim0 * nSol.length * res then
        vals[(o / (nSol.length * res) * nSol.sum +
          constraintSub nSol solint (o / res % nSol.length) sub) * res + o % res]?
      else some 0

/-- One upsampled constraint result: SolutionResampler.cc:109-124, 137-174. -/
def upsampleResult {V : Type} [Zero V] (nSol : List Nat) (solint sub : Nat) (r : Result V) :
    Option (Result V) :=
  (r.axes[0]?).bind fun dim0 => (r.axes[1]?).bind fun dim1 =>
    (upsampleVals nSol solint sub dim0.2 r.vals.length r.vals).bind fun vals =>
      (upsampleVals nSol solint sub dim0.2 r.vals.length r.weights).bind fun weights =>
        some ⟨r.name, r.axes.set 1 (dim1.1, nSol.length), vals, weights⟩

/-- `SolutionResampler::Upsample` for constraint results: SolutionResampler.cc:85-179.  The numbers of
constraints and of results are those of the first constraint of the first interval. -/
def upsampleConstraints {V : Type} [Zero V] (nSol : List Nat) (solint : Nat)
    (cons : List (List (List (Result V)))) : Option (List (List (List (Result V)))) :=
  let nCons := (cons.head?.map List.length).getD 0
  let nTypes := ((cons.head?.bind List.head?).map List.length).getD 0
  (List.range (cons.length * nSubsteps nSol solint)).mapM fun t =>
    (List.range nCons).mapM fun c =>
      (List.range nTypes).mapM fun y =>
        ((cons[t / nSubsteps nSol solint]?).bind fun ci => (ci[c]?).bind fun cc => cc[y]?).bind
          (upsampleResult nSol solint (t % nSubsteps nSol solint))

/-- `Settings::PrepareSubSolutionsPerDirection`: ddecal/Settings.cc:244-290, without the check of the
smoothness factors; `none` if the settings are refused. -/
def prepare (nDir solint : Nat) (nSol : List Nat) : Option (List Nat) :=
  if nSol.length > nDir then none
  else
    let all := nSol ++ List.replicate (nDir - nSol.length) 1
    if all.contains 0 then none
    else if all.any fun v => decide (solint % v ≠ 0) then none
    else if 1 < all.foldl max 0 ∧ (solint = 0 ∨ solint / all.foldl max 0 = 0) then none
    else some all

/-! ## Tables -/

/-- The arguments of `Write` that are the same for all tables: SolutionWriter.cc:81-93. -/
structure Info (F : Type) where
  mode : Mode
  antennas : List String
  sources : List String       -- `GetDirectionNames(directions)`, SolutionWriter.cc:19-31
  chanFreqs : List F
  blockFreqs : List F

/-- Names of polarizations, by their number: SolutionWriter.cc:186-196, 353-367. -/
def polNames : Nat → Option (List String)
  | 2 => some ["XX", "YY"]
  | 4 => some ["XX", "XY", "YX", "YY"]
  | _ => none

/-- `n_pol` of `WriteSolverResults`: SolutionWriter.cc:184-196. -/
def solverPols : Mode → Nat
  | .diagonal | .diagonalPhase | .diagonalAmplitude => 2
  | .fullJones | .leakage | .leakageAmplitude => 4
  | _ => 1

/-- The tables that `WriteSolverResults` makes, in order; `true` is a phase, `false` an amplitude:
SolutionWriter.cc:220-253. -/
def tableKinds : Mode → Option (List Bool)
  | .scalar | .diagonal | .fullJones | .leakage => some [true, false]
  | .scalarPhase | .diagonalPhase => some [true]
  | .scalarAmplitude | .diagonalAmplitude | .leakageAmplitude => some [false]
  | .tec | .tecAndDelay | .tecAndPhase | .tecPhaseAndDelay | .tecScreen
  | .rotation | .rotationAndDiagonal | .faradayRotation => none

/-- The modes for which the solver only solves for phases (`SetPhaseOnly(true)`):
ddecal/SolverFactory.cc:291-327. -/
def phaseOnly : Mode → Bool
  | .scalarPhase | .tec | .tecAndDelay | .tecAndPhase | .tecPhaseAndDelay | .diagonalPhase
  | .tecScreen => true
  | .scalar | .scalarAmplitude | .diagonal | .diagonalAmplitude | .fullJones
  | .rotationAndDiagonal | .rotation | .faradayRotation | .leakage | .leakageAmplitude => false

/-- The modes for which the `AmplitudeOnlyConstraint` is added: ddecal/SolverFactory.cc:207-210,
269-272. -/
def amplitudeOnly : Mode → Bool
  | .scalarAmplitude | .diagonalAmplitude | .leakageAmplitude => true
  | _ => false

/-- The modes for which a constraint with results is added: ddecal/SolverFactory.cc:211-265. -/
def hasResults : Mode → Bool
  | .tec | .tecAndPhase | .tecAndDelay | .tecPhaseAndDelay | .tecScreen | .rotationAndDiagonal
  | .rotation | .faradayRotation => true
  | _ => false

section Write

variable {C V F : Type}

/-- One table of `WriteSolverResults`: SolutionWriter.cc:255-267; `SetComplexValues` of the library
stores the phase or the amplitude of each value. -/
def solverTable (phase amplitude : C → V) (info : Info F) (times : List F) (contiguous : List C)
    (storePhase : Bool) : Table V F :=
  { name := if storePhase then "phase000" else "amplitude000"
    axes := [("time", times.length), ("freq", info.blockFreqs.length),
        ("ant", info.antennas.length), ("dir", info.sources.length)] ++
      (if 1 < solverPols info.mode then [("pol", solverPols info.mode)] else [])
    values := contiguous.map (if storePhase then phase else amplitude)
    weights := []
    antennas := info.antennas
    sources := info.sources
    pols := if 1 < solverPols info.mode then (polNames (solverPols info.mode)).getD [] else []
    freqs := info.blockFreqs.map some
    times := times }

/-- `WriteSolverResults`: SolutionWriter.cc:170-269.  `solutions[i]` is out of bounds if there are more
times than solutions, which does not happen; the assertion of line 209 is not modelled. -/
def writeSolver (phase amplitude : C → V) (info : Info F) (sols : List (List (List C)))
    (times : List F) : Except Err (List (Table V F)) :=
  match tableKinds info.mode with
  | none => .error .noOutput
  | some kinds =>
    .ok (kinds.map (solverTable phase amplitude info times
      ((sols.take times.length).flatten.flatten)))

variable [Field F] [LinearOrder F]

/-- One table of `WriteConstraintResults`: SolutionWriter.cc:286-392, for constraint `c` and result
`y`, of which `first` is the result at the first time. -/
def constraintTable (info : Info F) (cons : List (List (List (Result V)))) (times : List F)
    (c y : Nat) (first : Result V) : Except Err (Table V F) :=
  if ((cons.take times.length).any fun ci => decide (ci.length ≠ (cons.headD []).length)) then
    .error .count
  else
    match
      ((cons.take times.length).mapM fun (ci : List (List (Result V))) =>
        (ci[c]?).bind fun (cc : List (Result V)) => (cc[y]?).map Result.vals),
      (if first.weights.isEmpty then some [] else
        (cons.mapM fun (ci : List (List (Result V))) =>
          (ci[c]?).bind fun (cc : List (Result V)) => (cc[y]?).map Result.weights)) with
    | some vals, some weights =>
      let axes := ("time", cons.length) :: first.axes
      let pol := (axes.find? fun a => a.1 = "pol").map Prod.snd
      match (match pol with | none => some [] | some n => polNames n) with
      | none => .error .pols
      | some pols =>
        .ok { name := first.name ++ "000"
              axes := axes
              values := vals.flatten
              weights := weights.flatten
              antennas := info.antennas
              sources := info.sources
              pols := pols
              freqs := SolWriter.blockFreqs
                (((axes.find? fun a => a.1 = "freq").map Prod.snd).getD 1) info.chanFreqs
              times := times }
    | _, _ => .error .ub

/-- `WriteConstraintResults`: SolutionWriter.cc:271-395; loops over the constraints and results of
the first time. -/
def writeConstraints (info : Info F) (cons : List (List (List (Result V)))) (times : List F) :
    Except Err (List (Table V F)) :=
  ((cons.headD []).zipIdx.flatMap fun cc => cc.1.zipIdx.map fun r => (cc.2, r.2, r.1)).mapM
    fun p => constraintTable info cons times p.1 p.2.1 p.2.2

/-- Whether the results of constraints are written: SolutionWriter.cc:121-122, 159. -/
def noConstraints (cons : List (List (List (Result V)))) : Bool := (cons.headD []).isEmpty

/-- `WriteDirect`: SolutionWriter.cc:133-168. -/
def writeDirect (phase amplitude : C → V) (info : Info F) (sols : List (List (List C)))
    (cons : List (List (List (Result V)))) (start stop dt interval : F) :
    Except Err (List (Table V F)) :=
  let times := solutionTimes sols.length start stop interval dt
  if noConstraints cons then writeSolver phase amplitude info sols times
  else writeConstraints info cons times

/-- `Write`: SolutionWriter.cc:81-131.  The division by the number of substeps is one of integers. -/
def write [Zero V] (phase amplitude : C → V) (info : Info F) (nSol : List Nat) (solint : Nat)
    (sols : List (List (List C))) (cons : List (List (List (Result V)))) (start stop dt : F) :
    Except Err (List (Table V F)) :=
  if nSol.sum = nSol.length then
    writeDirect phase amplitude info sols cons start stop dt (dt * (solint : F))
  else if nSubsteps nSol solint = 0 then .error .ub
  else
    match upsample nSol solint info.antennas.length info.mode.nPol sols,
      (if noConstraints cons then some [] else upsampleConstraints nSol solint cons) with
    | some us, some uc =>
      writeDirect phase amplitude info us uc start stop dt
        (dt * ((solint / nSubsteps nSol solint : Nat) : F))
    | _, _ => .error .ub

end Write

end DP3.SolWriter
