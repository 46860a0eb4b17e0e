import Mathlib.Algebra.Order.Field.Basic
import Mathlib.Algebra.Order.Group.Abs

/-!
Model of `steps/Upsample.cc`.  Times are elements of an ordered field, so the
tolerance of 0.4 fine intervals is modelled as it is.  The contents of a buffer
(data, weights, ...) are an opaque payload; `flagged` tells whether all flags are
set.  The recomputation of UVW coordinates is not modelled.
-/

namespace DP3.Upsample

/-- An input time slot. -/
structure Slot (F P : Type) where
  time : F
  exposure : F
  flagged : Bool
  payload : P

/-- Settings: the fine interval `getInfoOut().timeInterval()` and `time_step_`. -/
structure Config (F : Type) where
  interval : F
  step : Nat

variable {F P : Type} [Field F] [LinearOrder F]

/-- The buffers made for an input slot, steps/Upsample.cc:91-106. -/
def expand (c : Config F) (s : Slot F P) : List (Slot F P) :=
  let time0 := s.time - 1 / 2 * c.interval * (c.step : F)
  (List.range c.step).map fun (i : Nat) =>
    { s with time := time0 + c.interval * ((i : F) + 1 / 2), exposure := s.exposure / (c.step : F) }

/-- `casacore::nearAbs(a, b, 0.4 * interval)`. -/
def near (c : Config F) (a b : F) : Prop := |b - a| ≤ 2 / 5 * c.interval

instance (c : Config F) (a b : F) : Decidable (near c a b) := by unfold near; infer_instance

/-- The loop at steps/Upsample.cc:128-134: the new `curIndex`.  The first argument
holds the buffers from `curIndex` on; running past the last buffer is an access
outside the vector, `none`. -/
def advance (c : Config F) (time : F) : List (Slot F P) → Nat → Option Nat
  | [], _ => none
  | b :: bs, k => if time > b.time ∧ ¬ near c time b.time then advance c time bs (k + 1) else some k

/-- The loop at steps/Upsample.cc:123-154 over the remaining previous buffers: the
buffers passed on and the new `first_to_flush_`. -/
def flush (c : Config F) (cur : List (Slot F P)) :
    List (Slot F P) → Nat → Nat → Option (List (Slot F P) × Nat)
  | [], _, first => some ([], first)
  | p :: ps, k, _ =>
    match advance c p.time (cur.drop k) k with
    | none => none
    | some k' =>
      match cur[k']? with
      | none => none
      | some b =>
        if near c p.time b.time then
          if b.flagged then (flush c cur ps k' (k' + 1)).map fun r => (p :: r.1, r.2)
          else some ([], 0)
        else (flush c cur ps k' 0).map fun r => (p :: r.1, r.2)

/-- Step state. -/
structure State (F P : Type) where
  prev : List (Slot F P)
  first : Nat

/-- `process`, steps/Upsample.cc:90-159: new state and buffers passed on. -/
def process (c : Config F) (st : State F P) (s : Slot F P) :
    Option (State F P × List (Slot F P)) :=
  let cur := expand c s
  if st.prev = [] then some (⟨cur, st.first⟩, [])
  else (flush c cur (st.prev.drop st.first) 0 st.first).map fun r => (⟨cur, r.2⟩, r.1)

/-- `finish`, steps/Upsample.cc:161-169: `none` when a buffer outside the vector is
accessed. -/
def finish (c : Config F) (st : State F P) : Option (List (Slot F P)) :=
  if c.step ≤ st.prev.length ∨ c.step ≤ st.first then some (st.prev.drop st.first) else none

/-- All buffers passed on for a stream. -/
def runFrom (c : Config F) : State F P → List (Slot F P) → Option (List (Slot F P))
  | st, [] => finish c st
  | st, s :: rest =>
    match process c st s with
    | none => none
    | some (st1, out) => (runFrom c st1 rest).map fun more => out ++ more

/-- All buffers passed on for a stream, from the initial state. -/
def run (c : Config F) (l : List (Slot F P)) : Option (List (Slot F P)) := runFrom c ⟨[], 0⟩ l

end DP3.Upsample
