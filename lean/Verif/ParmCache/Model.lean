import Mathlib.Data.List.Basic

/-!
# The cache of parameter values

Model of the flush of `ParmCache` (parmdb/ParmCache.cc) with `ParmDBLocker` (parmdb/ParmDBLocker.cc) and the locks in
`ParmDBCasa` (parmdb/ParmDBCasa.cc). A lock of a table is not counted: unlocking releases it. One ParmDB.
-/

namespace DP3.ParmCache

/-- What happens to the tables. -/
inductive Event where
  | lock
  | unlock
  | write (i : Nat)
  deriving DecidableEq

/-- parmdb/ParmDBCasa.cc:388, parmdb/ParmSet.cc:93-97: a write takes the lock, which is free. -/
def putValues (i : Nat) : List Event := [.lock, .write i, .unlock]

/-- parmdb/ParmCache.cc:45-51: the loop over the value sets, from index `i`. -/
def writeDirty : Nat → List Bool → List Event
  | _, [] => []
  | i, d :: ds => (if d then putValues i else []) ++ writeDirty (i + 1) ds

/-- parmdb/ParmCache.cc:43-52 flush: the events, and whether each value set is dirty afterwards. The ParmDBLocker is a
temporary object, so it is destroyed at the end of its statement (parmdb/ParmDBLocker.cc:13-29). -/
def flush (dirty : List Bool) : List Event × List Bool :=
  ([.lock, .unlock] ++ writeDirty 0 dirty, dirty.map fun _ => false)

end DP3.ParmCache
