import Mathlib.Data.List.Basic
import Mathlib.Data.Rat.Defs

/-!
# Parameters and solutions of applycal

Model of the settings of steps/ApplyCal.cc and steps/OneApplyCal.cc, of the parameters that are read from a ParmDB and
of the solutions that are taken from the buffer. Names are lists of characters. `JonesParameters`, which makes
matrices of the values, and the H5Parm file are in libraries that are not in the repository: their answers are
arguments of the functions.
-/

namespace DP3.CalParms

/-- An exception, or behaviour that is not defined. -/
inductive Err where
  | throws
  | ub
  deriving DecidableEq, Repr

/-- Names of parameters, settings, antennas and directions. -/
abbrev Name := List Char

/-! ## Settings -/

/-- A ParameterSet: the text of each setting. Conversions of the text are not in this model. -/
abbrev Parset := Name → Option Name

/-- steps/ApplyCal.cc:58-72: the prefix of a sub step; the name is empty when there are none. -/
def subPrefix (pre sub : Name) : Name := if sub = [] then pre else pre ++ sub ++ ".".toList

/-- steps/ApplyCal.cc:49-78: the prefixes of the steps. `names` is the value of `steps`, when it is a vector. For an
empty vector the first element of no elements is taken. -/
def stepPrefixes (pre : Name) (names : Option (List Name)) : Except Err (List Name) :=
  match names with
  | none => .ok [pre]
  | some [] => .error .ub
  | some l => .ok (l.map (subPrefix pre))

/-- `isDefined(prefix + key) ? get(prefix + key) : get(defaultPrefix + key, default)`, steps/OneApplyCal.cc:48-63. -/
def inherit (ps : Parset) (pre dpre key dflt : Name) : Name :=
  if (ps (pre ++ key)).isSome then (ps (pre ++ key)).getD [] else (ps (dpre ++ key)).getD dflt

/-- The settings of one step, steps/OneApplyCal.h:108-144. The interpolation and the behaviour for missing antennas are
for an H5Parm only. -/
structure Settings where
  parmdb : Name
  solset : Name
  slots : Name
  updateWeights : Name
  useModel : Name
  direction : Name
  invert : Name
  interpolation : Name
  missing : Name
  correction : Name
  soltab : Option Name
  deriving DecidableEq

/-- A text that has a part: `find(part) != npos`. -/
def hasPart (part : Name) : Name → Bool
  | [] => part.isEmpty
  | c :: cs => part.isPrefixOf (c :: cs) || hasPart part cs

/-- steps/OneApplyCal.cc:52 `itsUseH5Parm`. -/
def isH5 (parmdb : Name) : Bool := hasPart ".h5".toList parmdb

/-- steps/OneApplyCal.cc:47-201 the constructor, for the settings that come from the ParameterSet. `opens` tells that
the H5Parm can be opened (steps/OneApplyCal.cc:764-778). -/
def settings (ps : Parset) (pre dpre : Name) (substep : Bool) (predictDirection : Name) (opens : Name → Bool) :
    Except Err Settings :=
  let parmdb := inherit ps pre dpre "parmdb".toList []
  let solset := inherit ps pre dpre "solset".toList []
  let slots := inherit ps pre dpre "timeslotsperparmupdate".toList "200".toList
  let updateWeights := inherit ps pre dpre "updateweights".toList "false".toList
  let useModel := (ps (pre ++ "usemodeldata".toList)).getD "false".toList
  let direction := inherit ps pre dpre "direction".toList predictDirection
  let invert := if substep then "false".toList else inherit ps pre dpre "invert".toList "true".toList
  if slots = "0".toList then .error .throws
  else if useModel = "true".toList ∧ (parmdb = [] ∨ opens parmdb = false ∨ direction ≠ []) then .error .throws
  else if isH5 parmdb then
    let interpolation := inherit ps pre pre "interpolation".toList "nearest".toList
    let missing := inherit ps pre dpre "missingantennabehavior".toList "error".toList
    if interpolation ≠ "nearest".toList ∧ interpolation ≠ "linear".toList then .error .throws
    else
      match (ps (pre ++ "correction".toList)).or (ps (dpre ++ "correction".toList)) with
      | none => .error .throws
      | some correction =>
        .ok ⟨parmdb, solset, slots, updateWeights, useModel, direction, invert, interpolation, missing, correction,
          ps (pre ++ "soltab".toList)⟩
  else .ok ⟨parmdb, solset, slots, updateWeights, useModel, direction, invert, [], "error".toList,
    inherit ps pre dpre "correction".toList "gain".toList, none⟩

/-! ## The kind of correction -/

/-- The kinds of corrections that have parameters, steps/OneApplyCal.cc:276-346; all others are `other`. -/
inductive Kind where
  | diagonal | fullJones | tec | clock | rotationAngle | scalarPhase | rotationMeasure | scalarAmplitude
  | diagonalPhase | diagonalAmplitude | other
  deriving DecidableEq

/-- The names in a ParmDB: those with values and those with default values. -/
structure Names where
  values : List Name
  defaults : List Name

/-- `!getNames(p + "*").empty()`. -/
def has (l : List Name) (p : Name) : Bool := l.any fun n => p.isPrefixOf n

/-- steps/OneApplyCal.cc:238-246: a full Jones matrix if there are values for an off-diagonal element. -/
def detectFull (n : Names) (k : Kind) : Kind :=
  if (k = .diagonal ∨ k = .fullJones) ∧ (has n.values "Gain:0:1:".toList || has n.defaults "Gain:0:1:".toList) then
    .fullJones
  else k

/-- steps/OneApplyCal.cc:256-272: amplitudes and phases (true) or real and imaginary parts. -/
def detectAP (n : Names) : Except Err Bool :=
  if has n.values "Gain:0:0:Real".toList then .ok false
  else if has n.values "Gain:0:0:Ampl".toList || has n.values "Phase:0:0:Ampl".toList then .ok true
  else if has n.defaults "Gain:0:0:Real".toList then .ok false
  else if has n.defaults "Gain:0:0:Ampl".toList || has n.defaults "Gain:0:0:Phase".toList then .ok true
  else .error .throws

/-- An expression for names: `{Common,}` before the name or not. -/
structure Expr where
  common : Bool
  name : Name
  deriving DecidableEq

/-- steps/OneApplyCal.cc:276-307: the names of the parts of an element. -/
def parts (ap : Bool) (element : Name) : List Expr :=
  if ap then [⟨false, element ++ ":Ampl".toList⟩, ⟨false, element ++ ":Phase".toList⟩]
  else [⟨false, element ++ ":Real".toList⟩, ⟨false, element ++ ":Imag".toList⟩]

/-- steps/OneApplyCal.cc:731-742 nPol for a ParmDB. -/
def twoPol (n : Names) (p : Name) : Bool :=
  has n.values (p ++ ":0:".toList) || has n.defaults (p ++ ":0:".toList)

/-- steps/OneApplyCal.cc:276-346 the expressions, for a ParmDB. -/
def exprsOf (n : Names) (k : Kind) (ap : Bool) : Except Err (List Expr) :=
  match k with
  | .diagonal => .ok (parts ap "Gain:0:0".toList ++ parts ap "Gain:1:1".toList)
  | .fullJones => .ok (parts ap "Gain:0:0".toList ++ parts ap "Gain:0:1".toList ++ parts ap "Gain:1:0".toList ++
      parts ap "Gain:1:1".toList)
  | .tec => .ok (if twoPol n "TEC".toList then [⟨false, "TEC:0".toList⟩, ⟨false, "TEC:1".toList⟩]
      else [⟨false, "TEC".toList⟩])
  | .clock => .ok (if twoPol n "Clock".toList then [⟨false, "Clock:0".toList⟩, ⟨false, "Clock:1".toList⟩]
      else [⟨false, "Clock".toList⟩])
  | .rotationAngle => .ok [⟨true, "RotationAngle".toList⟩]
  | .scalarPhase => .ok [⟨true, "ScalarPhase".toList⟩]
  | .rotationMeasure => .ok [⟨false, "RotationMeasure".toList⟩]
  | .scalarAmplitude => .ok [⟨true, "ScalarAmplitude".toList⟩]
  | _ => .error .throws

/-- steps/OneApplyCal.cc:232-347 of updateInfo, for a ParmDB: the kind of correction and the expressions. -/
def selectParms (n : Names) (k : Kind) : Except Err (Kind × List Expr) :=
  let k := detectFull n k
  if k = .diagonal ∨ k = .fullJones then
    match detectAP n with
    | .error e => .error e
    | .ok ap => (exprsOf n k ap).map fun l => (k, l)
  else (exprsOf n k false).map fun l => (k, l)

/-- steps/OneApplyCal.cc:195-200: the check of the constructor, with the kind of correction that is known there. -/
def weightsCheck (k : Kind) (updateWeights invert : Bool) : Except Err Unit :=
  if k = .fullJones ∧ updateWeights = true ∧ invert = false then .error .throws else .ok ()

/-! ## The values of a ParmDB -/

variable {K : Type}

/-- A ParmDB: the values of each name for a time and frequency domain, in that order of names, and the default
values. -/
structure DB (K : Type) where
  values : List (Name × List K)
  defaults : List (Name × List K)

/-- The names that an expression stands for. -/
def Expr.names (e : Expr) : List Name := if e.common then ["Common".toList ++ e.name, e.name] else [e.name]

/-- steps/OneApplyCal.cc:634-637: the values for the pattern `expr{:phase_center,}*`. -/
def valuesMap (db : DB K) (e : Expr) : List (Name × List K) :=
  db.values.filter fun v => e.names.any fun n => n.isPrefixOf v.1

/-- The order of names in a map. -/
def nameLt : Name → Name → Bool
  | [], [] => false
  | [], _ :: _ => true
  | _ :: _, [] => false
  | a :: as, b :: bs => if a = b then nameLt as bs else decide (a.toNat < b.toNat)

/-- The first name of a map: `begin()->first`. -/
def firstName : List (Name × List K) → Option Name
  | [] => none
  | [v] => some v.1
  | v :: vs =>
    match firstName vs with
    | none => some v.1
    | some n => if nameLt n v.1 then some n else some v.1

/-- steps/OneApplyCal.cc:639-657: the name before the antenna, and what comes after it. Without values the expression
stays as it is. -/
def resolve (db : DB K) (e : Expr) : Expr × Name :=
  match firstName (valuesMap db e) with
  | none => (e, [])
  | some n =>
    (if e.common then ⟨false, n.takeWhile fun c => c ≠ ':'⟩ else e,
     if hasPart ":phase_center".toList n then ":phase_center".toList else [])

/-- The default values of the names that are given: `getDefValues`, a record with the names found. -/
def defValues (db : DB K) (names : List Name) : List (List K) :=
  names.filterMap fun n => (db.defaults.find? fun d => d.1 = n).map Prod.snd

/-- The single value of a default, or an exception: steps/OneApplyCal.cc:677-683 and 686-689. -/
def single (n : Nat) (v : List K) : Except Err (List K) :=
  match v with
  | [x] => .ok (List.replicate n x)
  | _ => .error .throws

/-- steps/OneApplyCal.cc:659-703: the values of an antenna for an expression and a domain with `size` times and
frequencies. -/
def antennaValues [Zero K] (db : DB K) (e : Expr) (ant : Name) (size : Nat) : Except Err (List K) :=
  let r := resolve db e
  let names := r.1.names.map fun n => n ++ ":".toList ++ ant ++ r.2
  let own := if r.1.common then none else (valuesMap db e).find? fun v => names.contains v.1
  match own with
  | some v => if v.2.length = size then .ok v.2 else .error .throws
  | none =>
    match defValues db names with
    | [v] => single size v
    | _ =>
      match defValues db r.1.names with
      | [v] => single size v
      | _ =>
        if r.1.common = false ∧ "Gain:".toList.isPrefixOf r.1.name = true then .ok (List.replicate size 0)
        else .error .throws

/-! ## Solutions in the buffer, and directions -/

/-- The check of the shape of a solution, from the part of steps/OneApplyCal.cc:421-470 after the choice of it. A solution
has for each channel the values of the antennas. -/
def checkShape {S : Type} (s : Name × List (List S)) (nChan nAnt : Nat) : Except Err (Name × List (List S)) :=
  match s.2.head? with
  | none => .error .ub
  | some v =>
    if nAnt = 0 then .error .ub
    else if s.2.length ≠ nChan ∨ (v.length / nAnt ≠ 2 ∧ v.length / nAnt ≠ 4) then .error .throws
    else .ok s

/-- steps/OneApplyCal.cc:421-470: the solutions of a buffer that are applied. -/
def bufferSolution {S : Type} (sols : List (Name × List (List S))) (direction : Name) (nChan nAnt : Nat) :
    Except Err (Name × List (List S)) :=
  if sols.length = 0 then .error .throws
  else
    match sols.find? fun s => s.1 = direction with
    | some s => checkShape s nChan nAnt
    | none =>
      if sols.length = 1 then
        match sols.head? with
        | some s => checkShape s nChan nAnt
        | none => .error .ub
      else .error .throws

/-- `GetDirIndex`: the index of a direction in the table, or an exception. -/
def dirIndex (dirs : List Name) (d : Name) : Except Err Nat :=
  match dirs.findIdx? (· = d) with
  | some i => .ok i
  | none => .error .throws

/-- steps/OneApplyCal.cc:169-181: the direction of an H5Parm. `dirs` are those of the table, if it has that axis. -/
def h5Direction (useModel : Bool) (direction : Name) (dirs : Option (List Name)) : Except Err Nat :=
  match dirs with
  | none => .ok 0
  | some l =>
    if useModel = false ∧ direction = [] then if l.length ≠ 1 then .error .throws else .ok 0
    else if direction ≠ [] ∧ 1 < l.length then dirIndex l direction
    else .ok 0

/-- steps/OneApplyCal.cc:751-762 getDirectionPatch. -/
def directionPatch (name : Name) : Except Err Name :=
  match name.dropWhile fun c => c ≠ '.' with
  | [] => .error .throws
  | _ :: patch => .ok ("[".toList ++ patch ++ "]".toList)

/-- steps/OneApplyCal.cc:499-505: the direction for the model data with a name. -/
def modelDirection (dirs : List Name) (name : Name) : Except Err Nat :=
  match directionPatch name with
  | .error e => .error e
  | .ok p => dirIndex dirs p

end DP3.CalParms
