import Mathlib.Algebra.Group.Basic
import Mathlib.Algebra.Ring.Defs
import Mathlib.Data.Int.Basic
import Mathlib.Data.List.Basic

/-!
# Coordinates of stations from these of baselines

A model of base/Simulate.cc:26-227.

Simplified: `ant1` and `ant2` are one list of pairs; a boolean or number per antenna is a function; the three coordinates of a
baseline are an element of a group. The indices do not overflow an `int`. The loops have fuel: nothing if it runs out, which the
theorems exclude.
-/

namespace DP3.UvwSplit

/-- The local variables of `SetupUvwSplitting`, base/Simulate.cc:38-47. -/
structure State where
  uvwBl : List Int
  known : Nat → Bool
  nset : Nat
  members : List Nat

/-- A value of a vector set to another. -/
def set {α : Type} (f : Nat → α) (a : Nat) (x : α) : Nat → α := fun b => if b = a then x else f b

/-- The body of the loop over the baselines, base/Simulate.cc:61-79. -/
def baselineStep (baselines : List (Nat × Nat)) (refst : Nat) (s : State) (i : Nat) : State :=
  let a := baselines.getD i (0, 0)
  if s.known a.1 != s.known a.2 then
    if a.1 = refst then
      { uvwBl := s.uvwBl ++ [(i : Int)], members := s.members ++ [a.2], known := set s.known a.2 true, nset := s.nset + 1 }
    else if a.2 = refst then
      { uvwBl := s.uvwBl ++ [-((i : Int) + 1)], members := s.members ++ [a.1], known := set s.known a.1 true, nset := s.nset + 1 }
    else s
  else s

/-- The loop over the baselines, base/Simulate.cc:61-80. -/
def baselineLoop (baselines : List (Nat × Nat)) (refst : Nat) (s : State) : State :=
  (List.range baselines.length).foldl (baselineStep baselines refst) s

/-- The loop over the members of a group, base/Simulate.cc:58-81. -/
def memberLoop (baselines : List (Nat × Nat)) : Nat → Nat → State → Option State
  | 0, _, _ => none
  | fuel + 1, j, s =>
    match s.members[j]? with
    | none => some s
    | some refst => memberLoop baselines fuel (j + 1) (baselineLoop baselines refst s)

/-- The first unset station, base/Simulate.cc:48-55: the start of a group. If all are set, `members` contains a zero. -/
def startGroup (nant : Nat) (s : State) : State :=
  match (List.range nant).find? fun i => !s.known i with
  | some i => { s with members := [i], known := set s.known i true, nset := s.nset + 1 }
  | none => { s with members := [0] }

/-- The loop until all stations are set, base/Simulate.cc:42-82. -/
def groupLoop (nant : Nat) (baselines : List (Nat × Nat)) : Nat → State → Option State
  | 0, _ => none
  | fuel + 1, s =>
    if s.nset < nant then
      match memberLoop baselines (nant + 1) 0 (startGroup nant s) with
      | none => none
      | some s' => groupLoop nant baselines fuel s'
    else some s

/-- `SetupUvwSplitting` without positions, base/Simulate.cc:26-84. -/
def setupUvwSplitting (nant : Nat) (baselines : List (Nat × Nat)) : Option (List Int) :=
  (groupLoop nant baselines (nant + 1) ⟨[], fun _ => false, 0, []⟩).map (·.uvwBl)

/-- The body of the loop of `SplitUvw`, base/Simulate.cc:210-230. -/
def splitStep {V : Type} [AddCommGroup V] (baselines : List (Nat × Nat)) (uvwBl : Nat → V) (uvwAnt : Nat → V) (index : Int) : Nat → V :=
  if index < 0 then
    let i := (-index - 1).toNat
    let a := baselines.getD i (0, 0)
    set uvwAnt a.1 (uvwAnt a.2 - uvwBl i)
  else
    let i := index.toNat
    let a := baselines.getD i (0, 0)
    set uvwAnt a.2 (uvwAnt a.1 + uvwBl i)

/-- `SplitUvw`, base/Simulate.cc:205-231. -/
def splitUvw {V : Type} [AddCommGroup V] (indices : List Int) (baselines : List (Nat × Nat)) (uvwBl : Nat → V) : Nat → V :=
  indices.foldl (splitStep baselines uvwBl) (fun _ => 0)

/-- The local variables of `GetBaselineSelection`, base/Simulate.cc:116-121. -/
structure Sel where
  selection : List Nat
  group : Nat → Option Nat
  groups : List (List Nat)

/-- The body of the loop, base/Simulate.cc:124-161, without the exit: nothing for `continue`. -/
def selectStep (baselines : List (Nat × Nat)) (s : Sel) (bl : Nat) : Option Sel :=
  let a := baselines.getD bl (0, 0)
  match s.group a.1, s.group a.2 with
  | none, none =>
    some { selection := s.selection ++ [bl], group := set (set s.group a.1 (some s.groups.length)) a.2 (some s.groups.length)
           groups := s.groups ++ [[a.1, a.2]] }
  | none, some g2 =>
    some { selection := s.selection ++ [bl], group := set s.group a.1 (some g2), groups := s.groups.modify g2 (· ++ [a.1]) }
  | some g1, none =>
    some { selection := s.selection ++ [bl], group := set s.group a.2 (some g1), groups := s.groups.modify g1 (· ++ [a.2]) }
  | some g1, some g2 =>
    if g1 = g2 then none
    else
      let old := s.groups.getD g2 []
      some { selection := s.selection ++ [bl], group := old.foldl (fun f ant => set f ant (some g1)) s.group
             groups := (s.groups.modify g1 (· ++ old)).set g2 [] }

/-- The loop over the sorted baselines with its early exit, base/Simulate.cc:123-166. -/
def selectLoop (nant : Nat) (baselines : List (Nat × Nat)) : List Nat → Sel → Sel
  | [], s => s
  | bl :: rest, s =>
    match selectStep baselines s bl with
    | none => selectLoop nant baselines rest s
    | some s' => if s'.selection.length = nant - 1 then s' else selectLoop nant baselines rest s'

/-- `GetBaselineSelection`, base/Simulate.cc:111-168. For no antennas `n_antennas - 1` wraps around; there are no baselines then. -/
def getBaselineSelection (nant : Nat) (sorted : List Nat) (baselines : List (Nat × Nat)) : List Nat :=
  (selectLoop nant baselines sorted ⟨[], fun _ => none, []⟩).selection

/-- `SetupUvwSplitting` with positions, base/Simulate.cc:170-203, for a given result of the sort. -/
def setupSelected (nant : Nat) (sorted : List Nat) (baselines : List (Nat × Nat)) : Option (List Int) :=
  let selection := getBaselineSelection nant sorted baselines
  let selected := selection.map fun bl => baselines.getD bl (0, 0)
  (setupUvwSplitting nant selected).map fun blIdx =>
    blIdx.map fun bl => if bl ≥ 0 then ((selection.getD bl.toNat 0 : Nat) : Int) else -((selection.getD (-bl - 1).toNat 0 : Nat) : Int) - 1

/-- The square of the length of a baseline, base/Simulate.cc:91-98. -/
def lengthSq {R : Type} [Ring R] (position : Nat → Fin 3 → R) (baselines : List (Nat × Nat)) (i : Nat) : R :=
  let a := baselines.getD i (0, 0)
  let u := position a.2 0 - position a.1 0
  let v := position a.2 1 - position a.1 1
  let w := position a.2 2 - position a.1 2
  u * u + v * v + w * w

/-- What `std::sort` gives in `GetBaselinesSortedByLength`, base/Simulate.cc:86-109: all baselines, none before a longer one. The order of
equal lengths is not specified. -/
structure Sorted {R : Type} [LE R] (length : Nat → R) (n : Nat) (sorted : List Nat) : Prop where
  perm : sorted.Perm (List.range n)
  descending : sorted.Pairwise fun i j => length j ≤ length i

end DP3.UvwSplit
