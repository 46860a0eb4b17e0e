/-!
# The tables of a ParmDB

Models parmdb/ParmDBCasa.cc and the lookup of default values in parmdb/ParmDB.cc: the table of names, the table of values and the table of
default values. A ParmValueSet with one value is put at a time. The expression for the selection of a domain (parmdb/ParmDBCasa.cc:700-716)
and patterns of names are parameters (predicates). Locks, the errors of values and the default steps are not modelled.
-/

namespace DP3.ParmTables

/-- A name of a parameter, with parts separated by colons. -/
abbrev Name := List Char

/-- The tables, parmdb/ParmDBCasa.cc:92-147, and the map with default values, parmdb/ParmDB.h:153-154. `I` is the information that is kept
with a name, such as the type, `D` a domain and `V` the values. -/
structure St (I D V : Type) where
  /-- The table NAMES. -/
  names : List (Name × I)
  /-- The keyword UNIQUE_ID of the table NAMES. -/
  uid : Nat
  /-- The main table: NAMEID, the domain and the values. -/
  rows : List (Nat × D × V)
  /-- The table DEFAULTVALUES. -/
  defs : List (Name × V)
  /-- itsDefValues if itsDefFilled is set. -/
  cache : Option (List (Name × V))

/-- Exceptions of DP3, and accesses of rows that do not exist. -/
inductive Err
  | refused
  | badRow
  deriving DecidableEq, Repr

variable {I D V : Type}

/-- New tables, parmdb/ParmDBCasa.cc:125-139. -/
def fresh : St I D V := ⟨[], 0, [], [], none⟩

/-- `getNameId`, parmdb/ParmDBCasa.cc:178-191; `none` is -1. -/
def getNameId (s : St I D V) (name : Name) : Except Err (Option Nat) :=
  match (List.range s.names.length).filter fun (i : Nat) => decide ((s.names[i]?).map Prod.fst = some name) with
  | [] => .ok none
  | [i] => .ok (some i)
  | _ => .error .refused

/-- `getNames`, parmdb/ParmDBCasa.cc:686-698. -/
def getNames (s : St I D V) (pat : Name → Bool) : List Name := (s.names.map Prod.fst).filter pat

/-- `putName`, parmdb/ParmDBCasa.cc:530-554: when it throws, the row has been added and the keyword has been increased. -/
def putName [Inhabited I] (s : St I D V) (name : Name) (info : I) : St I D V × Except Err Nat :=
  if s.names.length = s.uid then
    ({ s with names := s.names ++ [(name, info)], uid := s.uid + 1 }, .ok s.uid)
  else ({ s with names := s.names ++ [([], default)], uid := s.uid + 1 }, .error .refused)

/-- `putNewValue`, parmdb/ParmDBCasa.cc:454-494: the id of the name and the number of the row are given back. -/
def putNewValue [Inhabited I] (s : St I D V) (name : Name) (nameId : Option Nat) (info : I) (dom : D) (val : V) :
    St I D V × Except Err (Nat × Nat) :=
  match nameId with
  | some id => ({ s with rows := s.rows ++ [(id, dom, val)] }, .ok (id, s.rows.length))
  | none =>
    match putName s name info with
    | (s1, .error e) => (s1, .error e)
    | (s1, .ok id) => ({ s1 with rows := s1.rows ++ [(id, dom, val)] }, .ok (id, s1.rows.length))

/-- `putOldValue`, parmdb/ParmDBCasa.cc:407-452: the domain is changed only if the shape of the values is another one. -/
def putOldValue {Sh : Type} [DecidableEq Sh] (shape : V → Sh) (s : St I D V) (row : Nat) (dom : D) (val : V) :
    St I D V × Except Err Unit :=
  match s.rows[row]? with
  | none => (s, .error .badRow)
  | some (id, old, oldVal) =>
    ({ s with rows := s.rows.set row (id, if shape oldVal = shape val then old else dom, val) }, .ok ())

/-- The last element of a list of definitions with a name: `define` replaces, parmdb/ParmMap.h:36-38. -/
def lookup (l : List (Name × V)) (name : Name) : Option V :=
  (l.reverse.find? fun p => decide (p.1 = name)).map Prod.snd

/-- The name without its last part, parmdb/ParmDB.cc:59-65. -/
def parent (name : Name) : Option Name :=
  match name.reverse.dropWhile (fun c => decide (c ≠ ':')) with
  | [] => none
  | _ :: t => some t.reverse

/-- The loop over the parts of a name, parmdb/ParmDB.cc:53-66; a name has fewer than `length + 1` parts, which bounds the loop. -/
def search (l : List (Name × V)) : Nat → Name → Option V
  | 0, _ => none
  | fuel + 1, name =>
    match lookup l name with
    | some v => some v
    | none =>
      match parent name with
      | none => none
      | some p => search l fuel p

/-- `getDefValue`, parmdb/ParmDB.cc:40-69 with `fillDefMap` of parmdb/ParmDBCasa.cc:248-256: `none` means that the given default is
returned. -/
def getDefValue (s : St I D V) (name : Name) : St I D V × Option V :=
  let l := s.cache.getD s.defs
  ({ s with cache := some l }, search l (name.length + 1) name)

/-- `getValues` for one parameter, parmdb/ParmDBCasa.cc:285-369: the information of the name, and the domains and values with their row
numbers; when there are none, the default value is used. -/
def getValues (s : St I D V) (id : Nat) (sel : D → Bool) :
    St I D V × Except Err (I × (List (D × V × Nat) ⊕ Option V)) :=
  match s.names[id]? with
  | none => (s, .error .badRow)
  | some (name, info) =>
    match s.rows.zipIdx.filter fun r => decide (r.1.1 = id) && sel r.1.2.1 with
    | [] =>
      let r := getDefValue s name
      (r.1, .ok (info, .inr r.2))
    | l => (s, .ok (info, .inl (l.map fun r => (r.1.2.1, r.1.2.2, r.2))))

/-- `deleteValues`, parmdb/ParmDBCasa.cc:647-662. -/
def deleteValues (s : St I D V) (pat : Name → Bool) (sel : D → Bool) : St I D V :=
  { s with rows := s.rows.filter fun r => !(((s.names[r.1]?).map Prod.fst).any pat && sel r.2.1) }

/-- `putDefValue`, parmdb/ParmDBCasa.cc:556-590. -/
def putDefValue (s : St I D V) (name : Name) (val : V) (check : Bool) : St I D V × Except Err Unit :=
  if !check then ({ s with defs := s.defs ++ [(name, val)], cache := none }, .ok ())
  else
    match (s.defs.filter fun p => decide (p.1 = name)).length with
    | 0 => ({ s with defs := s.defs ++ [(name, val)], cache := none }, .ok ())
    | 1 => ({ s with defs := s.defs.map fun p => if p.1 = name then (name, val) else p, cache := none }, .ok ())
    | _ => (s, .error .refused)

/-- `deleteDefValues`, parmdb/ParmDBCasa.cc:664-674. -/
def deleteDefValues (s : St I D V) (pat : Name → Bool) : St I D V :=
  { s with defs := s.defs.filter fun p => !pat p.1, cache := none }

/-- `clearTables`, parmdb/ParmDBCasa.cc:149-155: the keyword UNIQUE_ID and the map of default values are kept. -/
def clearTables (s : St I D V) : St I D V := { s with names := [], rows := [], defs := [] }

/-- Storing a new value for a name, as a new ParmSet does: `addParm` looks for the id (parmdb/ParmSet.cc:22), `write` puts the value
(parmdb/ParmSet.cc:93-97). -/
def store [Inhabited I] (s : St I D V) (name : Name) (info : I) (dom : D) (val : V) : St I D V × Except Err (Nat × Nat) :=
  match getNameId s name with
  | .error e => (s, .error e)
  | .ok id => putNewValue s name id info dom val

/-- Reading the values of a name, as a new ParmSet does, parmdb/ParmSet.cc:22, 66-84: names that are unknown get the default value. -/
def load (s : St I D V) (name : Name) (sel : D → Bool) : St I D V × Except Err (List (D × V × Nat) ⊕ Option V) :=
  match getNameId s name with
  | .error e => (s, .error e)
  | .ok none => let r := getDefValue s name; (r.1, .ok (.inr r.2))
  | .ok (some id) => let r := getValues s id sel; (r.1, r.2.map Prod.snd)

/-- The functions that change a ParmDB. -/
inductive Op (I D V : Type)
  | store (name : Name) (info : I) (dom : D) (val : V)
  | delete (pat : Name → Bool) (sel : D → Bool)
  | putDef (name : Name) (val : V)
  | deleteDef (pat : Name → Bool)
  | getDef (name : Name)
  | clear

/-- One call. -/
def step [Inhabited I] (s : St I D V) : Op I D V → St I D V × Except Err Unit
  | .store name info dom val => let r := store s name info dom val; (r.1, r.2.map fun _ => ())
  | .delete pat sel => (deleteValues s pat sel, .ok ())
  | .putDef name val => putDefValue s name val true
  | .deleteDef pat => (deleteDefValues s pat, .ok ())
  | .getDef name => ((getDefValue s name).1, .ok ())
  | .clear => (clearTables s, .ok ())

/-- A sequence of calls with their results. -/
def run [Inhabited I] (s : St I D V) : List (Op I D V) → St I D V × List (Except Err Unit)
  | [] => (s, [])
  | op :: ops =>
    let r := step s op
    let q := run r.1 ops
    (q.1, r.2 :: q.2)

end DP3.ParmTables
