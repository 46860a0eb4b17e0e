import Mathlib.Data.List.Basic

/-!
# The set of parameters

Model of `ParmSet` (parmdb/ParmSet.cc). A ParmDB is a number (its address). The name identifiers are given by a function of the
ParmDB and the name, with `none` for a parameter that has no values in the table.
-/

namespace DP3.ParmSet

/-- parmdb/ParmSet.h:85-118 ParmKey; the parameter id is the index in the list. -/
structure Key where
  db : Nat
  name : String
  nameId : Option Nat
  deriving DecidableEq

/-- parmdb/ParmSet.h:121-123: the parameters, and the ParmDBs in use. The map from names to ids is a search in the list. -/
structure PSet where
  parms : List Key
  dbs : List Nat
  deriving DecidableEq

/-- parmdb/ParmSet.cc:16-17: the id of a name. -/
def lookup (s : PSet) (name : String) : Option Nat := s.parms.findIdx? fun k => decide (k.name = name)

/-- parmdb/ParmSet.cc:14-38 addParm: the id and the new set. -/
def addParm (nameIds : Nat → String → Option Nat) (s : PSet) (db : Nat) (name : String) : Nat × PSet :=
  match lookup s name with
  | some i => (i, s)
  | none =>
    (s.parms.length,
      ⟨s.parms ++ [⟨db, name, nameIds db name⟩], if db ∈ s.dbs then s.dbs else s.dbs ++ [db]⟩)

/-- parmdb/ParmSet.cc:64-82: the indices of the new parameters of a ParmDB. -/
def ofDb (s : PSet) (start db : Nat) : List Nat :=
  (List.range s.parms.length).filter fun j => decide (start ≤ j) && decide ((s.parms[j]?.map Key.db) = some db)

/-- parmdb/ParmSet.cc:68,77-80: whether the values of a parameter are read from the table. -/
def stored (s : PSet) (j : Nat) : Bool := ((s.parms[j]?.bind Key.nameId)).isSome

/-- parmdb/ParmSet.cc:62-90: the loop over the ParmDBs: which parameters get values, from which ParmDB, with the number to do. -/
def fill (s : PSet) (start : Nat) : List Nat → Nat → List (Nat × Nat)
  | [], _ => []
  | db :: dbs, todo =>
    let js := ofDb s start db
    let n := (js.filter (stored s)).length
    js.map (fun j => (j, db)) ++ (if 0 < n ∧ todo - n = 0 then [] else fill s start dbs (todo - n))

/-- parmdb/ParmSet.cc:47-91 getValues, with `start` value sets present. -/
def getValues (s : PSet) (start : Nat) : List (Nat × Nat) := fill s start s.dbs (s.parms.length - start)

/-- A ParmSet after adding parameters, parmdb/ParmSet.cc:14-38. -/
def build (nameIds : Nat → String → Option Nat) (reqs : List (Nat × String)) : PSet :=
  reqs.foldl (fun s r => (addParm nameIds s r.1 r.2).2) ⟨[], []⟩

end DP3.ParmSet
