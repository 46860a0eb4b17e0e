import Verif.StringTools.Model
import Mathlib.Algebra.Order.Field.Basic
import Mathlib.Algebra.Order.Group.Abs

/-!
# Transfer of data and flags from an averaged measurement set

Model of `steps/Transfer.cc` and the same loops in `steps/FlagTransfer.cc`. A cube is a list of rows
(baselines) of channels; a channel holds a value `V`, its correlations. The filter substep gives the rows.
Reading the source is modelled by a list with the cubes of its time slots.
-/

namespace DP3.Transfer

open DP3.StringTools

variable {K V : Type} [Field K] [LinearOrder K]

/-- A baseline by channel array. -/
abbrev Cube (V : Type) := List (List V)

/-- An element of a cube. -/
def cell (c : Cube V) (r t : Nat) : Option V := c[r]?.bind fun row => row[t]?

/-- An assignment to an element (steps/Transfer.cc:153-154 for all correlations). Outside of the cube it is
undefined behaviour. -/
def setCell (c : Cube V) (r t : Nat) (v : V) : Except Err (Cube V) :=
  match c[r]? with
  | none => .error .ub
  | some row => if t < row.length then .ok (c.set r (row.set t v)) else .error .ub

/-- steps/Transfer.cc:76-82: the upper edges of the channels of the source. -/
def upperEdges (freqs widths : List K) : List K := List.zipWith (fun f w => f + 1 / 2 * w) freqs widths

/-- steps/FlagTransfer.cc:59 and 74-78: the same with the width of the first channel. -/
def upperEdgesFirst (freqs widths : List K) : List K :=
  match widths with
  | [] => []
  | w :: _ => freqs.map fun f => f + 1 / 2 * w

/-- steps/Transfer.cc:135-141: a whole row of the target, for each row of the source. -/
def copyRows (source : Cube V) : List Nat → Nat → Cube V → Except Err (Cube V)
  | [], _, target => .ok target
  | r :: rows, s, target =>
    match source[s]? with
    | none => .error .ub
    | some row =>
      if r < target.length then copyRows source rows (s + 1) (target.set r row) else .error .ub

/-- steps/Transfer.cc:150-155: one channel of the target, for each row of the source. -/
def copyChannel (source : Cube V) (block t : Nat) : List Nat → Nat → Cube V → Except Err (Cube V)
  | [], _, target => .ok target
  | r :: rows, s, target =>
    match cell source s block with
    | none => .error .ub
    | some v =>
      match setCell target r t v with
      | .error e => .error e
      | .ok target => copyChannel source block t rows (s + 1) target

/-- A read of `target_frequencies`. The read behind the last element, that steps/Transfer.cc:148 does before
its comparison with the number of channels, gives `beyond`: nothing, when it is taken as undefined behaviour,
or any value. -/
def readFreq (beyond : Option K) (freqs : List K) (t : Nat) : Option K :=
  if t = freqs.length then beyond else freqs[t]?

/-- steps/Transfer.cc:148-158: the channels of the target below an edge. -/
def blockLoop (beyond : Option K) (freqs : List K) (n : Nat) (edge : K) (source : Cube V) (rows : List Nat)
    (block : Nat) : Nat → Nat → Cube V → Except Err (Nat × Cube V)
  | 0, _, _ => .error .fuel
  | fuel + 1, t, target =>
    match readFreq beyond freqs t with
    | none => .error .ub
    | some f =>
      if f < edge ∧ t < n then
        match copyChannel source block t rows 0 target with
        | .error e => .error e
        | .ok target => blockLoop beyond freqs n edge source rows block fuel (t + 1) target
      else .ok (t, target)

/-- steps/Transfer.cc:142-160: all channels of the source. The fuel of the inner loop is one more than the
number of channels. -/
def channelLoop (beyond : Option K) (freqs : List K) (n : Nat) (source : Cube V) (rows : List Nat) :
    List K → Nat → Nat → Cube V → Except Err (Nat × Cube V)
  | [], _, t, target => .ok (t, target)
  | edge :: edges, block, t, target =>
    match blockLoop beyond freqs n edge source rows block (n + 1) t target with
    | .error e => .error e
    | .ok (t, target) => channelLoop beyond freqs n source rows edges (block + 1) t target

/-- steps/Transfer.cc:124-161 TransferSingleTimeSlot, and steps/FlagTransfer.cc:156-192. The numbers of
channels are given. -/
def transferSlot (beyond : Option K) (edges freqs : List K) (nSource nTarget : Nat) (source : Cube V)
    (rows : List Nat) (target : Cube V) : Except Err (Cube V) :=
  if nSource = nTarget ∧ source.length = target.length then .ok source
  else if nSource = nTarget then copyRows source rows 0 target
  else
    match channelLoop beyond freqs nTarget source rows edges 0 0 target with
    | .error e => .error e
    | .ok (_, target) => .ok target

/-- steps/Transfer.cc:202-215: the rows of the filtered baselines in the buffer; the source must have as
many rows. -/
def targetRows (nSource : Nat) (rowNumbers filtered : List Nat) : Except Err (List Nat) :=
  match rowNumbers with
  | [] => .error .ub
  | first :: _ =>
    let rows := filtered.map fun r => r - first
    if rows.length ≠ nSource then .error .throws else .ok rows

/-- The state that process keeps: the time slots of the source that were not read yet, the one that was read
last, and the counter. -/
structure State (S : Type) where
  unread : List S
  held : S
  counter : Nat

/-- steps/Transfer.cc:187-194 and 249: one call of process, and the time slot of the source that it uses. -/
def State.step {S : Type} (factor : Nat) (st : State S) : State S × S :=
  if st.counter = 0 then
    match st.unread with
    | s :: rest => (⟨rest, s, factor - 1⟩, s)
    | [] => (⟨[], st.held, factor - 1⟩, st.held)
  else (⟨st.unread, st.held, st.counter - 1⟩, st.held)

/-- The time slots of the source used by a number of calls. -/
def State.run {S : Type} (factor : Nat) : Nat → State S → List S
  | 0, _ => []
  | n + 1, st => (st.step factor).2 :: State.run factor n (st.step factor).1

/-- steps/Transfer.cc:288-309: the number of time slots of the target in one of the source, with `round` the
rounding of quotients. An exception if it is not an integer, or the start times differ. -/
def averagingFactor (round : K → Nat) (tolerance : K) (sourceInterval targetInterval sourceStart targetStart : K) :
    Except Err Nat :=
  let factor := sourceInterval / targetInterval
  if tolerance < |factor - round factor| then .error .throws
  else if tolerance < |targetStart - sourceStart| then .error .throws
  else .ok (round factor)

/-- steps/Transfer.cc:275-286: the names of the stations are compared one by one; a read behind the names of the target is undefined. -/
def compareNames : List String → List String → Except Err Unit
  | [], _ => .ok ()
  | _ :: _, [] => .error .ub
  | s :: source, t :: target => if s ≠ t then .error .throws else compareNames source target

/-- steps/Transfer.cc:268-287: the stations of the source are compared only if there are not as many as in the target. -/
def antennaCheck (source target : List String) : Except Err Unit :=
  if source.length ≠ target.length then compareNames source target else .ok ()

/-- steps/Transfer.cc:219-229, base/DPBuffer.cc:119-123: the array that receives the data, before the transfer. A new array with the name
`outputbuffername` gets the shape of the main data; its elements have no value (`none`). Without elements it is filled with zeros. -/
def outputArray (named : Bool) (nBaselines nChannels : Nat) (zero : V) (main : Cube V) : Cube (Option V) :=
  if (main.map List.length).sum = 0 then List.replicate nBaselines (List.replicate nChannels (some zero))
  else if named then main.map fun row => row.map fun _ => none
  else main.map fun row => row.map some

end DP3.Transfer
