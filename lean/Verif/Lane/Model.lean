/-!
Model of `common/buffered_lane.h`: a producer writes through a `lane_write_buffer`,
several consumers read through a `lane_read_buffer` each, all on one
`aocommon::Lane`.

`aocommon::Lane` is not part of the repository.  Its contract is modelled: a first-in
first-out queue of bounded capacity; `move_write` transfers its elements in pieces,
each when there is room; `read` collects pieces until the requested number of
elements was read, or `write_end` was called and the queue is empty.  Locks and
condition variables are not modelled: a piece is transferred atomically, and the
size of the pieces and the order in which producer and consumers act are arbitrary.
-/

namespace DP3.Lane

variable {α : Type}

/-- Where the producer is: elements still to be written by the program, `_buffer`,
and the elements of a `move_write` in progress that are not yet in the lane. -/
structure Writer (α : Type) where
  src : List α
  buf : List α
  moving : List α

/-- A consumer: `_buffer` from `_buffer_pos` up to `_buffer_fill_count`, the elements
collected by a `Lane::read` in progress, the elements `read` has delivered so far,
and whether `read` has returned false.  `size` is `_buffer.size()`. -/
structure Reader (α : Type) where
  size : Nat
  rest : List α
  filling : Option (List α)
  out : List α
  told : Bool

/-- Complete state: `ended` is set by `Lane::write_end`. -/
structure State (α : Type) where
  w : Writer α
  queue : List α
  ended : Bool
  readers : List (Reader α)

/-- The initial state for a program that writes `input`. -/
def init (input : List α) (sizes : List Nat) : State α :=
  ⟨⟨input, [], []⟩, [], false, sizes.map fun n => ⟨n, [], none, [], false⟩⟩

/-- One action of the producer.  While a `move_write` is in progress it transfers `k`
elements; otherwise it does the next `write` (common/buffered_lane.h:42-45) or
`write_end` (58-66).  `bufferSize` is `_buffer_size`. -/
def writerStep (cap bufferSize k : Nat) (s : State α) : Option (State α) :=
  match s.w.moving with
  | m :: ms =>
    if 1 ≤ k ∧ k ≤ (m :: ms).length ∧ s.queue.length + k ≤ cap then
      some { s with w := ⟨s.w.src, s.w.buf, (m :: ms).drop k⟩, queue := s.queue ++ (m :: ms).take k }
    else none
  | [] =>
    match s.w.src with
    | x :: xs =>
      if (s.w.buf ++ [x]).length = bufferSize then some { s with w := ⟨xs, [], s.w.buf ++ [x]⟩ }
      else some { s with w := ⟨xs, s.w.buf ++ [x], []⟩ }
    | [] =>
      match s.w.buf with
      | b :: bs => some { s with w := ⟨[], [], b :: bs⟩ }
      | [] => if s.ended then none else some { s with ended := true }

/-- `_lane->read` returns, common/buffered_lane.h:87-89. -/
def Reader.refill (r : Reader α) (got : List α) : Reader α :=
  ⟨r.size, got, none, r.out, got.isEmpty⟩

/-- One action of consumer number `i`: `lane_read_buffer::read`,
common/buffered_lane.h:85-94, called again and again until it returns false. -/
def readerStep (i k : Nat) (s : State α) : Option (State α) :=
  match s.readers[i]? with
  | none => none
  | some r =>
    if r.told then none
    else
      match r.filling with
      | some got =>
        if got.length = r.size ∨ (s.ended ∧ s.queue = []) then
          some { s with readers := s.readers.set i (r.refill got) }
        else if 1 ≤ k ∧ k ≤ s.queue.length ∧ got.length + k ≤ r.size then
          some { s with queue := s.queue.drop k, readers := s.readers.set i ⟨r.size, r.rest, some (got ++ s.queue.take k), r.out, false⟩ }
        else none
      | none =>
        match r.rest with
        | [] => some { s with readers := s.readers.set i ⟨r.size, [], some [], r.out, false⟩ }
        | x :: xs => some { s with readers := s.readers.set i ⟨r.size, xs, none, r.out ++ [x], false⟩ }

/-- An action. -/
inductive Act where
  | producer (k : Nat)
  | consumer (i k : Nat)

/-- Perform an action; `none` if it is blocked. -/
def step (cap bufferSize : Nat) (s : State α) : Act → Option (State α)
  | .producer k => writerStep cap bufferSize k s
  | .consumer i k => readerStep i k s

/-- Perform a list of actions. -/
def exec (cap bufferSize : Nat) (s : State α) (acts : List Act) : Option (State α) :=
  acts.foldlM (step cap bufferSize) s

end DP3.Lane
