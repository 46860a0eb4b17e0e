import Mathlib.Algebra.Order.Floor.Defs
import Mathlib.Algebra.Order.Field.Basic
import Mathlib.Data.List.Sort
import Mathlib.Data.Prod.Lex

/-!
# The piece-wise fit of phases

Models ddecal/constraints/PieceWisePhaseFitter.h, with exact arithmetic in an ordered field and a number `pi`. A result that
is not finite is `none`. A sample has a frequency, a value and a weight; without weights these are one.
-/

namespace DP3.PhaseSlope

variable {K : Type} [Field K] [LinearOrder K]

/-- A channel: frequency, phase and weight, PieceWisePhaseFitter.h:130-132. -/
structure Sample (K : Type) where
  nu : K
  phase : K
  weight : K

/-! ## Unwrapping -/

/-- The quarter of a value, PieceWisePhaseFitter.h:243-250 and 304-311. -/
def quarter (pi v : K) : Nat := if v > pi * (3 / 2) then 3 else if v > pi * 1 then 2 else if v > pi * (1 / 2) then 1 else 0

/-- `maxQ`, PieceWisePhaseFitter.h:252-255 and 313-316. -/
def maxQuarter (counts : Nat → Nat) : Nat := [1, 2, 3].foldl (fun m i => if counts i > counts m then i else m) 0

/-- `qCounts` without weights, PieceWisePhaseFitter.h:241-251. -/
def plainCounts (pi : K) (l : List K) : Nat → Nat :=
  l.foldl (fun c v => Function.update c (quarter pi v) (c (quarter pi v) + 1)) fun _ => 0

/-- `qCounts` with weights, PieceWisePhaseFitter.h:302-312: the counts are integers, so that every sum is truncated. -/
def weightedCounts [FloorSemiring K] (pi : K) (l : List (Sample K)) : Nat → Nat :=
  l.foldl (fun c s => Function.update c (quarter pi s.phase) ⌊(c (quarter pi s.phase) : K) + s.weight⌋₊) fun _ => 0

/-- The first `wrapTo`, PieceWisePhaseFitter.h:256, 317. -/
def centre (pi : K) (q : Nat) : K := (q * (1 / 2) + 1 / 4) * pi

/-- Wrapping a value to be near another one, PieceWisePhaseFitter.h:258-261, 266-270, 321-325 and 335-339. -/
def wrap (pi near v : K) : K := if v - near > pi then v - 2 * pi else if v - near < -pi then v + 2 * pi else v

/-- The value that `nth_element` puts in the middle, PieceWisePhaseFitter.h:263-264. -/
def middle (l : List K) : K := (l.insertionSort (· ≤ ·)).getD (l.length / 2) 0

/-- The loop of WeightedMedian, PieceWisePhaseFitter.h:196-203; `none` if it reads past the end of the values. `rest` are the
values from `index` on. -/
def medianLoop (sum : K) : K → List (K × K) → Option K
  | _, [] => none
  | prefixSum, v :: rest => if prefixSum > sum / 2 then
      match rest with
      | [] => none
      | next :: _ => medianLoop sum (prefixSum - next.2) rest
    else some v.1

/-- WeightedMedian, PieceWisePhaseFitter.h:189-204, of pairs of a value and a weight; `std::sort` compares pairs. -/
def weightedMedian (l : List (K × K)) : Option K :=
  match l.insertionSort (fun x y => x.1 < y.1 ∨ (x.1 = y.1 ∧ x.2 ≤ y.2)) with
  | [] => some 0
  | v :: rest =>
    let sum := ((v :: rest).map Prod.snd).sum
    medianLoop sum (sum - v.2) (v :: rest)

/-! ## Fitting a line -/

/-- The line from the sums, PieceWisePhaseFitter.h:276-281 and 350-355: the offset and the slope. -/
def line (n sumX sumXSq sumY sumXY : K) : Option (K × K) :=
  let meanY := sumY / n
  let meanX := sumX / n
  let ssXX := sumXSq - meanX * sumX
  let ssXY := sumXY - sumX * meanY
  if ssXX = 0 then none else
    let b := ssXY / ssXX
    some (meanY - b * meanX, b)

/-- fitSlope without weights, PieceWisePhaseFitter.h:236-282. -/
def plainSlope (pi : K) (l : List (Sample K)) : Option (K × K) :=
  let c := centre pi (maxQuarter (plainCounts pi (l.map Sample.phase)))
  let near := middle ((l.map Sample.phase).map (wrap pi c))
  let y := fun (s : Sample K) => wrap pi near s.phase
  line l.length (l.map fun s => s.nu).sum (l.map fun s => s.nu * s.nu).sum (l.map y).sum (l.map fun s => s.nu * y s).sum

/-- The samples of the second and third quarter of a window, of which the median is computed, PieceWisePhaseFitter.h:320-329. -/
def inner (l : List (Sample K)) : List (Sample K) := (l.take (l.length * 3 / 4)).drop (l.length / 4)

/-- The second `wrapTo`, PieceWisePhaseFitter.h:313-329. -/
def medianPhase [FloorSemiring K] (pi : K) (l : List (Sample K)) : Option K :=
  let c := centre pi (maxQuarter (weightedCounts pi l))
  weightedMedian ((inner l).map fun s => (wrap pi c s.phase, s.weight))

/-- The sums and the line of fitSlope with weights, PieceWisePhaseFitter.h:331-356. -/
def weightedLine (pi near : K) (l : List (Sample K)) : Option (K × K) :=
  let y := fun (s : Sample K) => wrap pi near s.phase
  let sumWeight := (l.map Sample.weight).sum
  if sumWeight = 0 then some (0, 0) else
    line sumWeight (l.map fun s => s.nu * s.weight).sum (l.map fun s => s.nu * s.nu * s.weight).sum
      (l.map fun s => y s * s.weight).sum (l.map fun s => s.nu * y s * s.weight).sum

/-- fitSlope with weights, PieceWisePhaseFitter.h:300-357. -/
def weightedSlope [FloorSemiring K] (pi : K) (l : List (Sample K)) : Option (K × K) :=
  (medianPhase pi l).bind fun near => weightedLine pi near l

/-! ## Windows -/

/-- `a + b * nu[ch]`, PieceWisePhaseFitter.h:105, 148; not finite if the line is not. -/
def evaluate (l : Option (K × K)) (nu : K) : Option K := l.map fun p => p.1 + p.2 * nu

/-- A window of `size` samples from `pos` on, PieceWisePhaseFitter.h:151-152, 363. -/
def window (data : List (Sample K)) (pos size : Nat) : List (Sample K) := (data.drop pos).take size

/-- Writing the line of a window to a channel, PieceWisePhaseFitter.h:148, 153, 159, 365. -/
def write (fit : List (Sample K) → Option (K × K)) (data : List (Sample K)) (size : Nat) (out : Nat → Option K)
    (pos ch : Nat) : Nat → Option K :=
  Function.update out ch (evaluate (fit (window data pos size)) ((data.map Sample.nu).getD ch 0))

/-- Copying the data, PieceWisePhaseFitter.h:98, 140; elements of the output after the data are not changed. -/
def copy (data : List (Sample K)) (out : Nat → Option K) : Nat → Option K := fun ch =>
  if h : ch < data.length then some data[ch].phase else out ch

/-- SlidingFit, PieceWisePhaseFitter.h:94-117 and 136-161: `fit` is the fitSlope with or without weights, `out` is the output
before. -/
def slidingFit (fit : List (Sample K) → Option (K × K)) (chunk : Nat) (data : List (Sample K)) (out : Nat → Option K) :
    Nat → Option K :=
  let n := data.length
  let size := min chunk n
  if size ≤ 1 then copy data out else
    let rightEdge := n - size + size / 2
    let out := (List.range (size / 2)).foldl (fun o ch => write fit data size o 0 ch) out
    let out := (List.range (n - size)).foldl (fun o ch => write fit data size o ch (ch + size / 2)) out
    (List.range' rightEdge (n - rightEdge)).foldl (fun o ch => write fit data size o (n - size) ch) out

/-- fitChunk, PieceWisePhaseFitter.h:359-376. -/
def fitChunk (fit : List (Sample K) → Option (K × K)) (data : List (Sample K)) (size pos : Nat) (out : Nat → Option K) :
    Nat → Option K :=
  (List.range size).foldl (fun o ch => write fit data size o pos (ch + pos)) out

/-- PieceWiseFit, PieceWisePhaseFitter.h:60-88; the loop over `ch` with step `chunkSize`. -/
def pieceWiseFit (fit : List (Sample K) → Option (K × K)) (chunk : Nat) (data : List (Sample K)) (out : Nat → Option K) :
    Nat → Option K :=
  let n := data.length
  let size := min n chunk
  if size ≤ 1 then copy data out else
    (List.range ((n + size - 1) / size)).foldl (fun o k =>
      let ch := k * size
      fitChunk fit data size (if ch > n - size then n - size else ch) o) out

/-- A sum of distances in BreakPoint, PieceWisePhaseFitter.h:212-216; not finite if one of the fitted values is not. -/
def distance (data : List (Sample K)) (fitted : Nat → Option K) (i size : Nat) : Option K :=
  (List.range size).foldl (fun (sum : Option K) j => sum.bind fun sum => (fitted (i + j)).bind fun f =>
    (data[i + j]?).map fun s => sum + |s.phase - f| * s.weight) (some 0)

/-- BreakPoint, PieceWisePhaseFitter.h:206-223; a comparison with a value that is not finite is false. -/
def breakPoint (chunk : Nat) (data : List (Sample K)) (fitted : Nat → Option K) : Nat :=
  let size := min data.length chunk
  ((List.range (data.length - size)).foldl (fun (best : K × Nat) i =>
    match distance data fitted i size with
    | none => best
    | some d => if d > best.1 then (d, i + chunk / 2) else best) (0, 0)).2

/-- SlidingFitWithBreak, PieceWisePhaseFitter.h:163-176: the output and the break point. -/
def slidingFitWithBreak (fit : List (Sample K) → Option (K × K)) (chunk : Nat) (data : List (Sample K))
    (out : Nat → Option K) : (Nat → Option K) × Nat :=
  if min chunk data.length ≤ 1 then (copy data out, 0) else
    let out := slidingFit fit chunk data out
    let bp := breakPoint chunk data out
    let out := slidingFit fit chunk (data.take bp) out
    (fun ch => if ch < bp then out ch else slidingFit fit chunk (data.drop bp) (fun i => out (i + bp)) (ch - bp), bp)

end DP3.PhaseSlope
