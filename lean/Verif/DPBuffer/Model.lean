import Mathlib.Algebra.Group.Defs
import Mathlib.Data.String.Basic

/-!
# Buffers with named data

A model of base/DPBuffer.{h,cc}: the visibilities, the extra data buffers with a name, flags, weights and uvw, and the
functions that add, remove, copy and move them; and of steps/Combine.cc, which uses them. Several buffers exist at the
same time, because data are copied and moved between them, also from a buffer to itself.

Simplified: a tensor is a value of a type `V`; what a tensor holds after it was moved from is a parameter `moved`.
Times, row numbers and solutions are not in the buffers here; for the solutions see the last section.
-/

namespace DP3.DPBuffer

/-- The outcomes other than a result: an exception, or undefined behaviour (an `assert` that does not hold). -/
inductive Err where
  | throws
  | ub
  deriving DecidableEq

section Map
variable {V : Type}

/-- `std::map::find`. -/
def find (name : String) : List (String × V) → Option V
  | [] => none
  | p :: l => if p.1 = name then some p.2 else find name l

/-- `std::map::insert_or_assign`, or assignment to `operator[]`; the keys are in order. -/
def assign (name : String) (v : V) : List (String × V) → List (String × V)
  | [] => [(name, v)]
  | p :: l => if name < p.1 then (name, v) :: p :: l else if name = p.1 then (name, v) :: l else p :: assign name v l

/-- `std::map::erase`. -/
def erase (name : String) (l : List (String × V)) : List (String × V) := l.filter fun p => decide (p.1 ≠ name)

end Map

/-- The members of a buffer, DPBuffer.h:292-311. -/
structure Buffer (V : Type) where
  data : V
  extra : List (String × V)
  flags : V
  weights : V
  uvw : V

/-- All buffers. -/
abbrev World (V : Type) := Nat → Buffer V

/-- The `common::Fields` to copy. -/
structure Fields where
  data : Bool
  flags : Bool
  weights : Bool
  uvw : Bool

section Ops
variable {V : Type}

/-- One buffer is replaced. -/
def World.set (w : World V) (i : Nat) (b : Buffer V) : World V := fun j => if j = i then b else w j

/-- HasData, DPBuffer.h:149-151. -/
def hasData (b : Buffer V) (name : String) : Bool := decide (name = "") || (find name b.extra).isSome

/-- GetDataNames, DPBuffer.h:154-162. -/
def dataNames (b : Buffer V) : List String := "" :: b.extra.map (·.1)

/-- GetData, DPBuffer.h:170-195. -/
def getData (b : Buffer V) (name : String) : Except Err V :=
  if name = "" then .ok b.data
  else
    match find name b.extra with
    | none => .error .throws
    | some v => .ok v

/-- Assignment to the tensor that GetData returns, DPBuffer.h:183-195. -/
def putData (b : Buffer V) (name : String) (v : V) : Except Err (Buffer V) :=
  if name = "" then .ok { b with data := v }
  else
    match find name b.extra with
    | none => .error .throws
    | some _ => .ok { b with extra := assign name v b.extra }

/-- AddData, DPBuffer.cc:119-123; `v` is a tensor of the same shape as the data. -/
def addData (b : Buffer V) (name : String) (v : V) : Except Err (Buffer V) :=
  if name = "" then .error .ub
  else if (find name b.extra).isSome then .error .ub
  else .ok { b with extra := assign name v b.extra }

/-- RemoveData, DPBuffer.cc:125-131. -/
def removeData (b : Buffer V) (name : String) : Buffer V :=
  if name = "" then { b with extra := [] } else { b with extra := erase name b.extra }

/-- TakeData, DPBuffer.h:201-205: the buffer and the data. `empty` is a new tensor. -/
def takeData (empty : V) (b : Buffer V) : Buffer V × V := ({ b with data := empty }, b.data)

/-- CopyData, DPBuffer.cc:133-139, from buffer `src` to `dst`. -/
def copyData (w : World V) (dst src : Nat) (srcName dstName : String) : Except Err (World V) :=
  if hasData (w src) srcName = false then .error .ub
  else if dstName = "" then .error .ub
  else
    match getData (w src) srcName with
    | .error e => .error e
    | .ok v => .ok (w.set dst { w dst with extra := assign dstName v (w dst).extra })

/-- MoveData, DPBuffer.cc:141-156, from buffer `src` to `dst`. -/
def moveData (moved : V) (w : World V) (dst src : Nat) (srcName dstName : String) : Except Err (World V) :=
  if hasData (w src) srcName = false then .error .ub
  else if dstName = "" then .error .ub
  else if srcName = "" then
    let w1 := w.set dst { w dst with extra := assign dstName (w src).data (w dst).extra }
    .ok (w1.set src { w1 src with data := moved })
  else
    match find srcName (w src).extra with
    | none => .error .ub
    | some v =>
      let w1 := w.set dst { w dst with extra := assign dstName v (w dst).extra }
      .ok (w1.set src { w1 src with extra := erase srcName (w1 src).extra })

/-- Copy, DPBuffer.cc:101-117. -/
def copy (w : World V) (dst src : Nat) (fields : Fields) (extra : Bool) : World V :=
  if dst = src then w
  else
    w.set dst {
      data := if fields.data then (w src).data else (w dst).data
      extra := if extra then (w src).extra else (w dst).extra
      flags := if fields.flags then (w src).flags else (w dst).flags
      weights := if fields.weights then (w src).weights else (w dst).weights
      uvw := if fields.uvw then (w src).uvw else (w dst).uvw }

/-- Move assignment, DPBuffer.cc:76-99; a map that was moved from is empty. -/
def moveBuffer (moved : V) (w : World V) (dst src : Nat) : World V :=
  if dst = src then w else (w.set dst (w src)).set src ⟨moved, [], moved, moved, moved⟩

/-- Combine::process, Combine.cc:56-77: the named data are added or subtracted, and removed. -/
def combine [Add V] [Sub V] (subtract : Bool) (name : String) (b : Buffer V) : Except Err (Buffer V) :=
  match getData b name with
  | .error e => .error e
  | .ok other =>
    .ok (removeData { b with data := if subtract then b.data - other else b.data + other } name)

/-- The operations on the buffers. -/
inductive Op (V : Type) where
  | put (i : Nat) (name : String) (v : V)
  | add (i : Nat) (name : String) (v : V)
  | remove (i : Nat) (name : String)
  | take (i : Nat)
  | copyData (dst src : Nat) (srcName dstName : String)
  | moveData (dst src : Nat) (srcName dstName : String)
  | copy (dst src : Nat) (fields : Fields) (extra : Bool)
  | move (dst src : Nat)
  | combine (subtract : Bool) (i : Nat) (name : String)

/-- One buffer after an operation on it. -/
def World.update (w : World V) (i : Nat) : Except Err (Buffer V) → Except Err (World V)
  | .error e => .error e
  | .ok b => .ok (w.set i b)

/-- An operation. -/
def step [Add V] [Sub V] (moved : V) (w : World V) : Op V → Except Err (World V)
  | .put i name v => w.update i (putData (w i) name v)
  | .add i name v => w.update i (addData (w i) name v)
  | .remove i name => .ok (w.set i (removeData (w i) name))
  | .take i => .ok (w.set i (takeData moved (w i)).1)
  | .copyData dst src s d => DPBuffer.copyData w dst src s d
  | .moveData dst src s d => DPBuffer.moveData moved w dst src s d
  | .copy dst src f e => .ok (DPBuffer.copy w dst src f e)
  | .move dst src => .ok (moveBuffer moved w dst src)
  | .combine s i name => w.update i (DPBuffer.combine s name (w i))

/-- A list of operations. -/
def run [Add V] [Sub V] (moved : V) (w : World V) : List (Op V) → Except Err (World V)
  | [] => .ok w
  | op :: ops =>
    match step moved w op with
    | .error e => .error e
    | .ok w' => run moved w' ops

end Ops

section Solution
variable {V : Type}

/-- The solutions of a buffer by direction: by channel, antenna and polarization, with the dimensions. -/
structure Solution (V : Type) where
  nChannels : Nat
  nAntennas : Nat
  nPol : Nat
  values : Nat → Nat → Nat → V

/-- SetSolution for one direction, DPBuffer.cc:165-182. `solution` has for each channel an array of antennas,
directions and polarizations. -/
def directionSolution [Inhabited V] (solution : List (List V)) (nAntennas nPol nDirections dir : Nat) : Solution V where
  nChannels := solution.length
  nAntennas := nAntennas
  nPol := nPol
  values := fun ch ant pol => ((solution.getD ch []).getD ((ant * nDirections + dir) * nPol + pol) default)

/-- SetSolution, DPBuffer.cc:158-183: the map is changed for all directions. -/
def setSolution [Inhabited V] (m : List (String × Solution V)) (solution : List (List V)) (nAntennas nPol : Nat)
    (names : List String) : List (String × Solution V) :=
  names.zipIdx.foldl (fun m p => assign p.1 (directionSolution solution nAntennas nPol names.length p.2) m) m

/-- GetSolution, DPBuffer.cc:184-206. -/
def getSolution (m : List (String × Solution V)) (name : String) : Except Err (List (List V)) :=
  match find name m with
  | none => .error .throws
  | some s => .ok ((List.range s.nChannels).map fun ch =>
      (List.range (s.nAntennas * s.nPol)).map fun i => s.values ch (i / s.nPol) (i % s.nPol))

end Solution

end DP3.DPBuffer
