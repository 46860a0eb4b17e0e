/-!
# The registry of open ParmDBs

Models the constructors, assignment and destructor of ParmDB, parmdb/ParmDB.cc:97-165. A ParmDBRep is a number; numbers are not used again,
so that the use of a deleted one can be seen. A ParmDB object (handle) is represented by the number of its ParmDBRep in a list.
-/

namespace DP3.ParmTables.Registry

/-- theirDBNames, theirParmDBs, the ParmDBReps that are not deleted with their counts, and the ParmDB objects. -/
structure Reg where
  /-- theirDBNames, parmdb/ParmDB.cc:23 -/
  names : List (String × Nat)
  /-- theirParmDBs, parmdb/ParmDB.cc:24 -/
  dbs : List (Option Nat)
  /-- Reps that are not deleted: number, table name and itsCount, parmdb/ParmDB.h:150-151 -/
  reps : List (Nat × String × Nat)
  /-- The number of the next rep. -/
  next : Nat
  /-- The objects: for each the rep that it refers to. -/
  handles : List Nat

/-- Exceptions, and the use of a deleted rep or a null pointer. -/
inductive Err
  | refused
  | ub
  deriving DecidableEq, Repr

/-- The start of the program. -/
def empty : Reg := ⟨[], [], [], 0, []⟩

/-- The entry of a name, parmdb/ParmDB.cc:99. -/
def findName (g : Reg) (name : String) : Option Nat := (g.names.find? fun p => decide (p.1 = name)).map Prod.snd

/-- `link`, parmdb/ParmDB.h:34. -/
def link (g : Reg) (r : Nat) : Except Err Reg :=
  if g.reps.any fun p => decide (p.1 = r) then
    .ok { g with reps := g.reps.map fun p => if p.1 = r then (p.1, p.2.1, p.2.2 + 1) else p }
  else .error .ub

/-- The number of the first free entry, parmdb/ParmDB.cc:122-128; the size if there is none. -/
def freeEntry (dbs : List (Option Nat)) : Nat := dbs.findIdx fun x => decide (x = none)

/-- The constructor, parmdb/ParmDB.cc:97-131, for the type "casa". Another type throws before anything is changed. The rep of the new
object is given back. -/
def openDb (g : Reg) (name : String) : Except Err (Reg × Nat) :=
  match findName g name with
  | some i =>
    match g.dbs[i]? with
    | some (some r) => (link g r).map fun g => ({ g with handles := g.handles ++ [r] }, r)
    | _ => .error .ub
  | none =>
    let r := g.next
    let dbnr := if g.dbs.length = g.names.length then g.dbs.length else freeEntry g.dbs
    let dbs := if g.dbs.length = g.names.length then g.dbs ++ [some r] else g.dbs.set dbnr (some r)
    .ok (⟨g.names ++ [(name, dbnr)], dbs, g.reps ++ [(r, name, 1)], r + 1, g.handles ++ [r]⟩, r)

/-- Whether the constructor makes new, empty tables (parmdb/ParmDB.cc:99-107, parmdb/ParmDBCasa.cc:50-52); `readable` tells if there are tables
with the name already. -/
def makesTables (g : Reg) (name : String) (forceNew readable : Bool) : Bool :=
  match findName g name with
  | some _ => false
  | none => forceNew || !readable

/-- The copy constructor, parmdb/ParmDB.cc:133-135. -/
def copyDb (g : Reg) (r : Nat) : Except Err Reg := (link g r).map fun g => { g with handles := g.handles ++ [r] }

/-- `decrCount` and the destructor, parmdb/ParmDB.cc:146-158. -/
def closeDb (g : Reg) (r : Nat) : Except Err Reg :=
  match g.reps.find? fun p => decide (p.1 = r) with
  | none => .error .ub
  | some (_, name, count) =>
    if count = 1 then
      match findName g name with
      | none => .error .refused
      | some i =>
        .ok { g with
          names := g.names.filter fun p => decide (p.1 ≠ name)
          dbs := g.dbs.set i none
          reps := g.reps.filter fun p => decide (p.1 ≠ r)
          handles := g.handles.erase r }
    else
      .ok { g with
        reps := g.reps.map fun p => if p.1 = r then (p.1, p.2.1, p.2.2 - 1) else p
        handles := g.handles.erase r }

/-- `getParmDB`, parmdb/ParmDB.cc:160-165. -/
def getDb (g : Reg) (i : Nat) : Except Err (Reg × Nat) :=
  match g.dbs[i]? with
  | some (some r) => (copyDb g r).map fun g => (g, r)
  | _ => .error .refused

/-- What a program can do with ParmDB objects; assignment (parmdb/ParmDB.cc:137-144) is a close and a copy. -/
inductive Op
  | openDb (name : String)
  | copyDb (r : Nat)
  | closeDb (r : Nat)
  | getDb (i : Nat)

/-- One action; `none` if there is no such object, so that a program cannot do it. -/
def step (g : Reg) : Op → Option (Except Err Reg)
  | .openDb name => some ((openDb g name).map Prod.fst)
  | .copyDb r => if r ∈ g.handles then some (copyDb g r) else none
  | .closeDb r => if r ∈ g.handles then some (closeDb g r) else none
  | .getDb i => some ((getDb g i).map Prod.fst)

/-- The states that a program can get to; after an exception the program may go on with the same state. -/
inductive Reach : Reg → Prop
  | start : Reach empty
  | step (g g' : Reg) (op : Op) : Reach g → step g op = some (.ok g') → Reach g'

end DP3.ParmTables.Registry
