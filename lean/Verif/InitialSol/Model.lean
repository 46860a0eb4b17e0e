import Verif.Cx.Basic
import Mathlib.Algebra.BigOperators.Group.List.Basic

/-!
# Initial solutions of DDECal and the names of calibration modes

Model of `InitialSolutions::Read` (ddecal/InitialSolutions.cc) and of `StringToCalType` and `ToString`
(base/CalType.cc).

Simplifications: numbers are exact. The values of a solution table at the nearest direction, the
time, a frequency and an antenna come from schaapcommon (a submodule that is not in the repository)
and are a function. Tensors are functions with a shape; a read at an index beyond a dimension reads
the element at that place in memory, and is `none` if it is outside the tensor.
-/

namespace DP3.InitialSol

variable {K : Type} [CommRing K]

/-- What `Read` uses (ddecal/InitialSolutions.cc:113-125). `value` gives the value of a solution table,
direction, channel block, antenna and polarization (the result of `ReadJonesMatrix`, lines 73-111);
`full` the four values if the file has full Jones solutions. `subs` is
`settings.sub_solutions_per_direction`. -/
structure Cfg (K : Type) where
  nPol : Nat
  nAnt : Nat
  nFreq : Nat
  nSoltab : Nat
  subs : List Nat
  fullJones : Bool
  value : Nat → Nat → Nat → Nat → Nat → Cx K
  full : Nat → Nat → Nat → Nat → Cx K

/-- `settings.GetNSolutions()` (ddecal/Settings.cc:302-305). -/
def nSub (c : Cfg K) : Nat := c.subs.sum

/-- An element of a tensor `frequency x antenna x n` in row-major memory, where the last index may be
too large (ddecal/InitialSolutions.cc:175-177, 194-195). -/
def rowMajor (nFreq nAnt n : Nat) (f : Nat → Nat → Nat → Cx K) (ch ant p : Nat) : Option (Cx K) :=
  let l := (ch * nAnt + ant) * n + p
  if l < nFreq * nAnt * n then some (f (l / n / nAnt) (l / n % nAnt) (l % n)) else none

/-- `xt::prod(jones_parameters_per_soltab, {0})` (ddecal/InitialSolutions.cc:164). -/
def product (c : Cfg K) (dir ch ant p : Nat) : Cx K :=
  ((List.range c.nSoltab).map fun s => c.value s dir ch ant p).prod

/-- How `Read` can fail: an exception, or a read or write outside of memory. -/
inductive Err
  | refused | ub
  deriving DecidableEq, Repr

/-- `jones_parameters(channel_block, antenna_index, polarization_index)`
(ddecal/InitialSolutions.cc:131-165, 175-177, 194-195). For full Jones solutions the tensor has the
`nPol = 4` polarizations that `read` checks; otherwise line 164 gives it the shape of the product, with
two polarizations. -/
def jones (c : Cfg K) (dir ch ant p : Nat) : Option (Cx K) :=
  if c.fullJones then rowMajor c.nFreq c.nAnt 4 (c.full dir) ch ant p
  else rowMajor c.nFreq c.nAnt 2 (product c dir) ch ant p

/-- `solutions_data[channel_block][flattened_index] = jones_parameters(...)`
(ddecal/InitialSolutions.cc:169, 188-195). -/
def put (n : Nat) (m : Nat → Cx K) (i : Nat) (v : Option (Cx K)) : Except Err (Nat → Cx K) :=
  match v with
  | some x => if i < n then .ok (fun k => if k = i then x else m k) else .error .ub
  | none => .error .ub

/-- The loop over the polarizations (ddecal/InitialSolutions.cc:185-196). -/
def writeSub (c : Cfg K) (ch ant dir sub : Nat) (m : Nat → Cx K) : Except Err (Nat → Cx K) :=
  (List.range c.nPol).foldlM (fun m p => put (nSub c * c.nAnt * c.nPol) m
    (ant * nSub c * c.nPol + sub * c.nPol + p) (jones c dir ch ant p)) m

/-- The loop over the sub-solutions of a direction (ddecal/InitialSolutions.cc:180-197). -/
def writeDir (c : Cfg K) (ch ant dir assigned n : Nat) (m : Nat → Cx K) : Except Err (Nat → Cx K) :=
  (List.range n).foldlM (fun m k => writeSub c ch ant dir (assigned + k) m) m

/-- One direction, with `n_assigned_subsolutions` (ddecal/InitialSolutions.cc:173-199). -/
def dirStep (c : Cfg K) (ch ant : Nat) (s : Nat × (Nat → Cx K)) (dir : Nat) :
    Except Err (Nat × (Nat → Cx K)) :=
  match writeDir c ch ant dir s.1 (c.subs.getD dir 0) s.2 with
  | .ok m => .ok (s.1 + c.subs.getD dir 0, m)
  | .error e => .error e

/-- The directions of an antenna (ddecal/InitialSolutions.cc:170-200). -/
def writeAnt (c : Cfg K) (ch ant : Nat) (m : Nat → Cx K) : Except Err (Nat → Cx K) :=
  match (List.range c.subs.length).foldlM (dirStep c ch ant) (0, m) with
  | .ok s => .ok s.2
  | .error e => .error e

/-- `Read`, for a channel block (ddecal/InitialSolutions.cc:113-202). The assignment of a matrix with
four polarizations to a view of another shape throws (lines 134-138). -/
def read (c : Cfg K) (ch : Nat) (old : Nat → Cx K) : Except Err (Nat → Cx K) :=
  if c.fullJones ∧ c.nPol ≠ 4 ∧ c.subs ≠ [] then .error .refused
  else (List.range c.nAnt).foldlM (fun m ant => writeAnt c ch ant m) old

/-! ### Modes -/

/-- `CalType` (base/CalType.h:11-29). -/
inductive CalType
  | scalar | scalarAmplitude | scalarPhase | diagonal | diagonalAmplitude | diagonalPhase | fullJones
  | tec | tecAndDelay | tecAndPhase | tecPhaseAndDelay | tecScreen | rotation | rotationAndDiagonal
  | faradayRotation | leakage | leakageAmplitude
  deriving DecidableEq, Repr

/-- `StringToCalType` (base/CalType.cc:10-48). -/
def stringToCalType (s : String) : Option CalType :=
  if s == "diagonal" || s == "complexgain" then some .diagonal
  else if s == "diagonalphase" || s == "phaseonly" then some .diagonalPhase
  else if s == "diagonalamplitude" || s == "amplitudeonly" then some .diagonalAmplitude
  else if s == "scalar" || s == "scalarcomplexgain" || s == "scalarcomplex" then some .scalar
  else if s == "scalaramplitude" then some .scalarAmplitude
  else if s == "scalarphase" then some .scalarPhase
  else if s == "tec" then some .tec
  else if s == "tec+delay" then some .tecAndDelay
  else if s == "tec+phase" || s == "tecandphase" then some .tecAndPhase
  else if s == "tec+phase+delay" then some .tecPhaseAndDelay
  else if s == "tecscreen" then some .tecScreen
  else if s == "fulljones" then some .fullJones
  else if s == "rotation+diagonal" then some .rotationAndDiagonal
  else if s == "rotation" then some .rotation
  else if s == "faradayrotation" then some .faradayRotation
  else if s == "leakage" then some .leakage
  else if s == "leakageamplitude" then some .leakageAmplitude
  else none

/-- `ToString` (base/CalType.cc:50-90). -/
def toStr : CalType → String
  | .diagonal => "diagonal"
  | .scalar => "scalarcomplexgain"
  | .fullJones => "fulljones"
  | .diagonalPhase => "diagonalphase"
  | .scalarPhase => "scalarphase"
  | .diagonalAmplitude => "diagonalamplitude"
  | .scalarAmplitude => "scalaramplitude"
  | .tec => "tec"
  | .tecAndDelay => "tec+delay"
  | .tecAndPhase => "tec+phase"
  | .tecPhaseAndDelay => "tec+phase+delay"
  | .tecScreen => "tecscreen"
  | .rotation => "rotation"
  | .rotationAndDiagonal => "rotation+diagonal"
  | .faradayRotation => "faraday"
  | .leakage => "leakage"
  | .leakageAmplitude => "leakageamplitude"

end DP3.InitialSol
