import Verif.DemixTimes.Model

/-!
# What the demixer should do with the times

None of this is in the code. Times are averaged in groups; the last group may be smaller.
-/

namespace DP3.DemixTimes

variable {B A R F FS G : Type}

/-- The groups of `n` times that are complete. -/
def full (n : Nat) (l : List B) : List (List B) := (List.range (l.length / n)).map fun i => (l.drop (i * n)).take n

/-- The times after the last complete group. -/
def rest (n : Nat) (l : List B) : List B := l.drop (l.length / n * n)

/-- All groups. -/
def groups (n : Nat) (l : List B) : List (List B) := full n l ++ if rest n l = [] then [] else [rest n l]

/-- The data and the factors for the solver. -/
def solverInput (o : Ops B A R F FS G) (n : Nat) (l : List B) : List (A × F) := (groups n l).map fun g => o.fac g (o.avg g)

/-- The solutions: each starts from the first value, or from the solution before it. -/
def gains (o : Ops B A R F FS G) (propagate : Bool) : G → List (A × F) → List G
  | _, [] => []
  | g, x :: xs => o.solve x.1 x.2 g :: gains o propagate (if propagate then o.solve x.1 x.2 g else g) xs

/-- The output: a group of times at the resolution of the output, with the sources subtracted for the solution of the group at the resolution of
the solver that it is in; `multiplier` of these are in one. -/
def outputs (o : Ops B A R F FS G) (multiplier : Nat) (inputs : List (A × F)) (solutions : List G) (gs : List (List B)) : List R :=
  gs.zipIdx.map fun h =>
    match inputs[h.2 / multiplier]?, solutions[h.2 / multiplier]? with
    | some x, some g => o.sub g x.1 (o.facS h.1 (o.avgS h.1)) (o.avgS h.1)
    | _, _ => o.avgS h.1

/-- The output and the solutions of all times. -/
def expected (o : Ops B A R F FS G) (c : Cfg) (defaultGain unset : G) (times : List B) : List R × List G :=
  if c.hasModel then
    let inputs := solverInput o c.nTimeAvg times
    let solutions := gains o c.propagate defaultGain inputs
    (outputs o (c.nTimeAvg / c.nTimeAvgSubtr) inputs solutions (groups c.nTimeAvgSubtr times),
      solutions ++ List.replicate (c.nTimeDemix - solutions.length) unset)
  else ((groups c.nTimeAvgSubtr times).map o.avgS, List.replicate c.nTimeDemix unset)

/-- Threads take every slot once; if solutions are propagated, one thread takes all slots in order. -/
def GoodSchedule (c : Cfg) (schedule : Nat → List (Nat × Nat)) : Prop :=
  (∀ n, ((schedule n).map Prod.fst).Perm (List.range n)) ∧
    (c.propagate = true → ∀ n, ∃ thread, schedule n = (List.range n).map fun ts => (ts, thread))

end DP3.DemixTimes
