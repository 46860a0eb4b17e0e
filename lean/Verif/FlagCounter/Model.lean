/-!
# FlagCounter

Model of the counting in base/FlagCounter.h and .cc.  Counts are natural numbers (`int64_t` in the
code, overflow is not modelled).  An index outside a vector is undefined behaviour: `none`.
-/

namespace DP3.FlagCounter

/-- The counts: FlagCounter.h:100-102. -/
structure Counter where
  baseline : List Nat
  channel : List Nat
  correlation : List Nat
deriving DecidableEq, Repr

/-- `init`: FlagCounter.cc:75-80. -/
def init (nbl nchan ncorr : Nat) : Counter :=
  { baseline := List.replicate nbl 0, channel := List.replicate nchan 0,
    correlation := List.replicate ncorr 0 }

/-- A call of `incrBaseline`, `incrChannel` or `incrCorrelation`: FlagCounter.h:48-55. -/
inductive Incr
  | baseline (i : Nat)
  | channel (i : Nat)
  | correlation (i : Nat)
deriving DecidableEq, Repr

/-- `v[i]++`. -/
def bump (v : List Nat) (i : Nat) : Option (List Nat) :=
  if i < v.length then some (v.modify i (· + 1)) else none

/-- Do a call: FlagCounter.h:48-55. -/
def incr (c : Counter) : Incr → Option Counter
  | .baseline i => (bump c.baseline i).map fun v => { c with baseline := v }
  | .channel i => (bump c.channel i).map fun v => { c with channel := v }
  | .correlation i => (bump c.correlation i).map fun v => { c with correlation := v }

/-- `add`, with its assertions: FlagCounter.cc:83-97. -/
def add (a b : Counter) : Option Counter :=
  if a.baseline.length = b.baseline.length ∧ a.channel.length = b.channel.length ∧
      a.correlation.length = b.correlation.length then
    some { baseline := List.zipWith (· + ·) a.baseline b.baseline,
           channel := List.zipWith (· + ·) a.channel b.channel,
           correlation := List.zipWith (· + ·) a.correlation b.correlation }
  else none

/-- The loop in `showStation` (and `showBaseline`) for one baseline with antennas `ant1` and `ant2`
and count `n`, on the pair (countAnt, nUsedAnt): FlagCounter.cc:114-121. -/
def stationStep (acc : List Nat × List Nat) (x : (Nat × Nat) × Nat) : List Nat × List Nat :=
  let acc := (acc.1.modify x.1.1 (· + x.2), acc.2.modify x.1.1 (· + 1))
  if x.1.1 ≠ x.1.2 then (acc.1.modify x.1.2 (· + x.2), acc.2.modify x.1.2 (· + 1)) else acc

/-- `countAnt` and `nUsedAnt` in `showStation`; the antennas are smaller than `nant`:
FlagCounter.cc:108-121. -/
def stationCounts (nant : Nat) (ants : List (Nat × Nat)) (counts : List Nat) : List Nat × List Nat :=
  (ants.zip counts).foldl stationStep (List.replicate nant 0, List.replicate nant 0)

end DP3.FlagCounter
