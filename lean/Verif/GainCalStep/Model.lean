import Mathlib.Algebra.Order.Field.Basic
import Verif.CalParms.Model

/-!
# The step GainCal

Models what steps/GainCal.cc does around the solver (which is in `Verif.GainCal`): solution intervals, frequency
cells, the buffers that are passed on, and the values that are written in a ParmDB or H5Parm.

The solver is a function of its state and the buffers of an interval. Times and frequencies are in an ordered field.
The UVW flagger, the model data and the debug output are not modelled.
-/

namespace DP3.GainCalStep

open DP3.CalParms (Name Names DB)

variable {A B S F : Type}

/-! ## Solution intervals -/

/-- Settings: `solint` as it is given, the number of time slots and their interval, `timeslotsperparmupdate`, whether
the solutions are applied, and whether they are for an H5Parm. -/
structure Config (F : Type) where
  solint : Nat
  ntime : Nat
  interval : F
  startTime : F
  slots : Nat
  apply : Bool
  h5 : Bool

/-- `itsSolInt` after steps/GainCal.cc:201-203. -/
def Config.solInt (c : Config F) : Nat := if c.solint = 0 then c.ntime else c.solint

/-- `itsTimeSlotsPerParmUpdate`, steps/GainCal.cc:112-117 and 204-206. -/
def Config.perUpdate (c : Config F) : Nat := if c.h5 ∨ c.slots = 0 then c.ntime else c.slots

/-- The state: that of the solver, the data in it, `itsBuffers` (of a fixed size), `itsStepInSolInt`, `itsSols`,
`itsStepInParmUpdate`, `itsChunkStartTime`, what was passed on, and what was written: the start time and the
solutions. -/
structure State (A B S F : Type) where
  alg : A
  data : List B
  held : List (Option B)
  step : Nat
  sols : List S
  updates : Nat
  chunkStart : F
  out : List (B × Option S)
  writes : List (F × List S)

/-- The state before the first buffer: `itsBuffers` has the size of `solint` as it was given, steps/GainCal.cc:165-167;
the start time is from steps/GainCal.cc:289. -/
def start (c : Config F) (alg : A) : State A B S F :=
  ⟨alg, [], if c.apply then List.replicate c.solint none else [], 0, [], 0, c.startTime, [], []⟩

/-- The buffers `0 .. n-1` of `itsBuffers` with the solution that is applied, steps/GainCal.cc:471-475: `none` for one
that is not there. -/
def corrected (s : S) : Nat → List (Option B) → Option (List (B × Option S))
  | 0, _ => some []
  | n + 1, some b :: rest => (corrected s n rest).map fun l => (b, some s) :: l
  | _ + 1, _ => none

/-- `calibrate` and applying the solution, steps/GainCal.cc:465-478 and 1311-1323. -/
def solve (c : Config F) (calib : A → List B → A × S) (n : Nat) (s : State A B S F) : Option (State A B S F) :=
  let r := calib s.alg s.data
  let s' := { s with alg := r.1, sols := s.sols ++ [r.2], step := 0 }
  if c.apply then (corrected r.2 n s.held).map fun l => { s' with out := s.out ++ l } else some s'

/-- The buffer in the solver and in `itsBuffers`, steps/GainCal.cc:441-462. `none`: outside of `itsBuffers`. -/
def store (c : Config F) (s : State A B S F) (b : B) : Option (State A B S F) :=
  let data := if s.step = 0 then [b] else s.data ++ [b]
  if c.apply then
    if s.step < s.held.length then some { s with data := data, held := s.held.set s.step (some b), step := s.step + 1 }
    else none
  else some { s with data := data, step := s.step + 1 }

/-- Writing to the ParmDB, steps/GainCal.cc:483-490. -/
def flush [Field F] (c : Config F) (s : State A B S F) : State A B S F :=
  if c.h5 = false ∧ s.updates = c.perUpdate then
    { s with writes := s.writes ++ [(s.chunkStart, s.sols)],
             chunkStart := s.chunkStart + (c.solInt : F) * (c.perUpdate : F) * c.interval,
             sols := [], updates := 0 }
  else s

/-- Passing on a buffer without applying, steps/GainCal.cc:492-494. -/
def pass (c : Config F) (b : B) (s : State A B S F) : State A B S F :=
  if c.apply then s else { s with out := s.out ++ [(b, none)] }

/-- The end of an interval, steps/GainCal.cc:463-479. -/
def endInterval (c : Config F) (calib : A → List B → A × S) (s : State A B S F) : Option (State A B S F) :=
  if s.step = c.solInt then (solve c calib c.solInt s).map fun s' => { s' with updates := s'.updates + 1 } else some s

/-- steps/GainCal.cc:381-496 process. -/
def process [Field F] (c : Config F) (calib : A → List B → A × S) (s : State A B S F) (b : B) : Option (State A B S F) :=
  (store c s b).bind fun s1 => (endInterval c calib s1).map fun s2 => pass c b (flush c s2)

/-- All buffers. -/
def processAll [Field F] (c : Config F) (calib : A → List B → A × S) : State A B S F → List B → Option (State A B S F)
  | s, [] => some s
  | s, b :: bs => (process c calib s b).bind fun s' => processAll c calib s' bs

/-- steps/GainCal.cc:1307-1353 finish. -/
def finish (c : Config F) (calib : A → List B → A × S) (s : State A B S F) : Option (State A B S F) :=
  (if s.step ≠ 0 then solve c calib s.step s else some s).map fun s' =>
    if s'.sols ≠ [] then { s' with writes := s'.writes ++ [(s'.chunkStart, s'.sols)] } else s'

/-- A run. -/
def run [Field F] (c : Config F) (calib : A → List B → A × S) (alg : A) (bs : List B) : Option (State A B S F) :=
  (processAll c calib (start c alg) bs).bind (finish c calib)

/-! ## Time axes -/

/-- The time intervals of the `n` solutions that are written at once, steps/GainCal.cc:1160-1173. -/
def timeAxis [Field F] [LinearOrder F] (c : Config F) (chunkStart : F) (n : Nat) : List (F × F) :=
  let d := c.interval * (c.solInt : F)
  let endTime := min (chunkStart + (n : F) * c.interval * (c.solInt : F)) (c.startTime + (c.ntime : F) * c.interval)
  (List.range n).map fun (t : Nat) => (chunkStart + d * (t : F), min (chunkStart + d * ((t : F) + 1)) endTime)

/-- The times of the solutions in an H5Parm, steps/GainCal.cc:957-964. -/
def h5Times [Field F] (c : Config F) : List F :=
  (List.range ((c.ntime + c.solInt - 1) / c.solInt)).map fun (t : Nat) =>
    c.startTime + ((t : F) + 1 / 2) * c.interval * (c.solInt : F)

/-! ## Frequency cells -/

/-- `itsNChan`, steps/GainCal.cc:208-213, for `nchan` channels in the data. -/
def cellSize (setting nchan : Nat) : Nat :=
  let n := if setting = 0 then nchan else setting
  if n > nchan then nchan else n

/-- `itsNFreqCells`, steps/GainCal.cc:214-218. -/
def nCells (size nchan : Nat) : Nat := if size * (nchan / size) < nchan then nchan / size + 1 else nchan / size

/-- The numbers of channels of the solvers of cells `i ..`, steps/GainCal.cc:252-285: `chMax` is kept between cells. -/
def cellChannels (size nchan : Nat) : Nat → Nat → Nat → List Nat
  | 0, _, _ => []
  | n + 1, i, chMax =>
    let chMax' := if (i + 1) * size > nchan then chMax - ((i + 1) * size) % nchan else chMax
    chMax' :: cellChannels size nchan n (i + 1) chMax'

/-- The mean frequency of a cell, steps/GainCal.cc:227-236. -/
def cellFreq [Field F] (freqs : List F) (size i : Nat) : F :=
  let chmin := size * i
  let chmax := min freqs.length (chmin + size)
  ((freqs.drop chmin).take (chmax - chmin)).sum / ((chmax - chmin : Nat) : F)

/-- The bounds of a cell of the frequency axis in a ParmDB, steps/GainCal.cc:1153-1178 and RegularAxis. -/
def parmCell [Field F] (f0 width : F) (size i : Nat) : F × F :=
  (f0 - width * (1 / 2) + (i : F) * (width * (size : F)), f0 - width * (1 / 2) + ((i : F) + 1) * (width * (size : F)))

/-! ## ParmDB -/

/-- The modes that GainCal can solve for, steps/GainCal.cc:260-280. -/
inductive Mode where
  | diagonal | fullJones | scalarPhase | diagonalPhase | tec | tecAndPhase | diagonalAmplitude | scalarAmplitude
  deriving DecidableEq

/-- steps/GainCal.cc:613-617. -/
def Mode.scalar : Mode → Bool
  | .tecAndPhase | .tec | .scalarPhase | .scalarAmplitude => true
  | _ => false

/-- steps/GainCal.cc:619-622 diagonalMode. -/
def Mode.diag : Mode → Bool
  | .diagonal | .diagonalPhase | .diagonalAmplitude => true
  | _ => false

/-- steps/GainCal.cc:896-908. -/
def Mode.parmName : Mode → Name
  | .scalarPhase => "CommonScalarPhase:".toList
  | .scalarAmplitude => "CommonScalarAmplitude:".toList
  | .tec | .tecAndPhase => "TEC:".toList
  | _ => "Gain:".toList

/-- `str0101`, steps/GainCal.cc:1190. -/
def element : Nat → Name
  | 0 => "0:0:".toList
  | 1 => "0:1:".toList
  | 2 => "1:0:".toList
  | _ => "1:1:".toList

/-- The elements that are written, steps/GainCal.cc:1205-1210. -/
def Mode.pols (m : Mode) : List Nat :=
  (List.range 4).filter fun p => !((m.scalar && decide (p > 0)) || (m.diag && (decide (p = 1) || decide (p = 2))))

/-- `realimmax`, steps/GainCal.cc:1211-1218. -/
def Mode.nParts : Mode → Nat
  | .diagonalPhase | .scalarPhase | .diagonalAmplitude | .scalarAmplitude | .tec => 1
  | _ => 2

/-- The name without the antenna, steps/GainCal.cc:1221-1240. -/
def Mode.partName (m : Mode) (pol part : Nat) : Name :=
  let name := m.parmName
  let name := if m ≠ .scalarPhase ∧ m ≠ .scalarAmplitude then
      name ++ element pol ++
        (if m = .diagonalPhase then "Phase:".toList
          else if m = .diagonalAmplitude then "Ampl:".toList
          else if part = 0 then "Real:".toList else "Imag:".toList)
    else name
  if m = .tec ∨ m = .tecAndPhase then (if part = 0 then "TEC:".toList else "CommonScalarPhase:".toList) else name

/-- The names for an antenna with the element and part, steps/GainCal.cc:1198-1242. -/
def Mode.antennaNames (m : Mode) (ant : Name) : List (Name × Nat × Nat) :=
  m.pols.flatMap fun pol => (List.range m.nParts).map fun part => (m.partName pol part ++ ant, pol, part)

/-- A ParmDB: all names that were ever used (the NAME table), the values and the default values. -/
structure Store (K : Type) where
  names : List Name
  values : List (Name × List K)
  defaults : List (Name × List K)

/-- A default value, if there is none for the name `first`: steps/GainCal.cc:866-871 and the like. -/
def addDefaults {K : Type} (first second : Name) (x : K) (d : List (Name × List K)) : List (Name × List K) :=
  if (d.find? fun v => v.1 = first).isSome then d else d ++ [(first, [x]), (second, [x])]

/-- The default values of a mode, steps/GainCal.cc:861-893. -/
def Mode.defaults {K : Type} [Zero K] [One K] (m : Mode) (d : List (Name × List K)) : List (Name × List K) :=
  match m with
  | .diagonalPhase | .scalarPhase => addDefaults "Gain:0:0:Ampl".toList "Gain:1:1:Ampl".toList 1 d
  | .diagonalAmplitude | .scalarAmplitude => addDefaults "Gain:0:0:Phase".toList "Gain:1:1:Phase".toList 0 d
  | .diagonal | .fullJones => addDefaults "Gain:0:0:Real".toList "Gain:1:1:Real".toList 1 d
  | _ => d

/-- The values that are written for the antennas that were used: `value` gives those of an antenna, element and part. -/
def Mode.values {K : Type} (m : Mode) (ants : List Name) (value : Name → Nat → Nat → List K) : List (Name × List K) :=
  ants.flatMap fun a => (m.antennaNames a).map fun n => (n.1, value a n.2.1 n.2.2)

/-- A name that is put: a new row of the NAME table if it is not there. -/
def addName (l : List Name) (n : Name) : List Name := if n ∈ l then l else l ++ [n]

/-- initParmDB and writeSolutionsParmDB, steps/GainCal.cc:825-894 and 1133-1305, for one domain: the values for the names
that start with `parmName` are removed, but not the names (parmdb/ParmDBCasa.cc:647-662); then values with the same name
are replaced. -/
def Store.gaincal {K : Type} [Zero K] [One K] (s : Store K) (m : Mode) (ants : List Name)
    (value : Name → Nat → Nat → List K) : Store K :=
  let new := m.values ants value
  let kept := s.values.filter fun v => !(m.parmName.isPrefixOf v.1) && !((new.map Prod.fst).contains v.1)
  ⟨(new.map Prod.fst).foldl addName s.names, kept ++ new, m.defaults s.defaults⟩

/-- What applycal sees. -/
def Store.names' {K : Type} (s : Store K) : Names := ⟨s.names, s.defaults.map Prod.fst⟩

/-- The values as applycal gets them. -/
def Store.db {K : Type} (s : Store K) : DB K := ⟨s.values, s.defaults⟩

/-! ## H5Parm -/

/-- The types of the tables, steps/GainCal.cc:1082-1131. -/
inductive TabType where
  | phase | amplitude | tec
  deriving DecidableEq

/-- makeSolTab, steps/GainCal.cc:1082-1131. -/
def Mode.tables : Mode → List TabType
  | .scalarPhase | .diagonalPhase => [.phase]
  | .diagonal | .fullJones => [.phase, .amplitude]
  | .scalarAmplitude | .diagonalAmplitude => [.amplitude]
  | .tec => [.tec]
  | .tecAndPhase => [.tec, .phase]

/-- The quantities that the values of the tables are, steps/GainCal.cc:1041-1044 and 1067-1075: `SetComplexValues` takes
the amplitude if its third argument is true, and the phase otherwise. For TEC the first value of the fit is in both
tables. -/
def Mode.contents : Mode → List TabType
  | .tec => [.tec]
  | .tecAndPhase => [.tec, .tec]
  | m => (if m ≠ .diagonalAmplitude then TabType.phase else TabType.amplitude) ::
      (if m.tables.length > 1 then [TabType.amplitude] else [])

/-- The number of polarizations, steps/GainCal.cc:939-954. -/
def Mode.nPol (m : Mode) : Nat := if m.scalar then 1 else if m.diag then 2 else 4

/-- The values in the order in which they are written, steps/GainCal.cc:1050-1065; a value that is not finite is `none`. -/
def h5Values {V : Type} (nTimes nFreqs nAnts nPol : Nat) (sol : Nat → Nat → Nat → Nat → V) : List V :=
  (List.range nTimes).flatMap fun t => (List.range nFreqs).flatMap fun f => (List.range nAnts).flatMap fun a =>
    (List.range nPol).map fun p => sol t f a p

/-- The weights, steps/GainCal.cc:1048-1060: `some` for a finite value. -/
def h5Weights {V K : Type} [Zero K] [One K] (values : List (Option V)) : List K :=
  values.map fun v => if v.isSome then 1 else 0

end DP3.GainCalStep
