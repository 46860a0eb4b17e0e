import Verif.DdeCal.Model

/-!
# What DDECal should do

Descriptions of the output of DDECal that do not follow the code: interval `i` consists of the
buffers `i * solint` up to `(i + 1) * solint`, and each output buffer is a function of its own input
buffer and of the solutions of its interval.
-/

namespace DP3.DdeCal

section
variable {K : Type} [Field K] [LinearOrder K]

/-- The buffers of interval `i`. -/
def interval {A : Type} (solint : Nat) (bufs : List A) (i : Nat) : List A :=
  (bufs.drop (i * solint)).take solint

/-- The model data of direction `d` (with name `name`) for input buffer `b`. -/
def modelOf (e : Env K) (b : Buf K) (name : String) (d : Nat) : Vis K :=
  if e.reused.getD d false then (b.extra name).getD 0 else e.predict d (uvwStep e b)

/-- The Jones matrix of a station and direction: `sols` is the vector of one channel block with, from
slow to fast, stations, directions and polarizations. -/
def jones (nPol nDir : Nat) (s : List (Cx K)) (station d : Nat) : M2 K :=
  let v := fun p => s.getD ((station * nDir + d) * nPol + p) 0
  if nPol = 4 then ⟨v 0, v 1, v 2, v 3⟩
  else if nPol = 2 then ⟨v 0, 0, 0, v 1⟩
  else ⟨s.getD (station * nDir + d) 0, 0, 0, s.getD (station * nDir + d) 0⟩

/-- The model data of a direction after applying the solutions of the stations; `index` gives the
position of an antenna in the solutions, and `block` the channel block of a channel. -/
def applied (e : Env K) (index : Nat → Nat) (block : Nat → Nat) (sols : Sols K) (d : Nat) (v : Vis K) :
    Vis K := fun bl ch =>
  jones e.nPol e.names.length (sols.getD (block ch) []) (index (e.ant1 bl)) d * v bl ch *
    (jones e.nPol e.names.length (sols.getD (block ch) []) (index (e.ant2 bl)) d).herm

/-- Sum over the directions. -/
def sumDirs (names : List String) (f : String → Nat → Vis K) : Vis K := fun bl ch =>
  (names.zipIdx.map fun p => f p.1 p.2 bl ch).sum

/-- The data of an output buffer. -/
def outData (e : Env K) (index block : Nat → Nat) (sols : Sols K) (b : Buf K) : Vis K :=
  if e.onlyPredict then
    if e.keepModel then b.data else sumDirs e.names (modelOf e b)
  else if e.subtract then fun bl ch =>
    b.data bl ch -
      sumDirs e.names (fun name d => applied e index block sols d (modelOf e b name d)) bl ch
  else b.data

/-- The model data in an output buffer. -/
def outExtra (e : Env K) (index block : Nat → Nat) (sols : Sols K) (b : Buf K) (n : String) :
    Option (Vis K) :=
  if n ∈ e.names then
    if e.keepModel then
      let m := modelOf e b n (e.names.idxOf n)
      some (if e.onlyPredict then m else applied e index block sols (e.names.idxOf n) m)
    else none
  else b.extra n

/-- The output buffer for input buffer `b`. -/
def outBuf (e : Env K) (index block : Nat → Nat) (sols : Sols K) (first : Bool) (b : Buf K) : Buf K :=
  { time := b.time, flags := b.flags, weights := b.weights
    data := outData e index block sols b
    extra := outExtra e index block sols b
    solution := if e.store && first then some sols else b.solution }

/-- The values from which the solve of interval `i` should start, given the solutions and numbers of
iterations of the previous intervals and the time for which initial solutions are requested. -/
def startOf (e : Env K) (initialTime : K) (sols : Nat → Sols K) (iters : Nat → Nat) (i : Nat) : Sols K :=
  if 0 < i ∧ e.propagate ∧ ¬ (e.convergedOnly ∧ e.maxIter < iters (i - 1)) then sols (i - 1)
  else
    match e.initial with
    | some read => read initialTime
    | none => unitSols e

end

end DP3.DdeCal
