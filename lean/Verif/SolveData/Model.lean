import Mathlib.Algebra.Order.Floor.Defs
import Mathlib.Algebra.Field.Defs

/-!
# SolveData: the data given to the gain solvers

Model of ddecal/gain_solvers/SolveData.cc, of the upsampling in ddecal/SolutionResampler.cc and of
the three ways in which a channel of BDA data is assigned to a channel block
(ddecal/gain_solvers/SolveData.cc, ddecal/gain_solvers/BdaSolverBuffer.cc, steps/BdaDdeCal.cc).

Simplifications: the four correlations of a visibility are one value of type `V`, and the
conversion `ToSpecificMatrix` (SolveData.cc:18-31) is a function `conv`.  The parallel arrays of
`ChannelBlockData` (SolveData.h:116-132) are one list of cells, which are written as a whole; an
unwritten cell is `none`.  Accesses outside an array make the whole result `none`.  Asserts are not
modelled.
-/

namespace DP3.SolveData

/-- One visibility of `ChannelBlockData`: data, antenna pair, weights (if used), and per direction
the model data and the solution index: SolveData.h:116-132. -/
structure Cell (X W : Type) where
  vis : X
  ant1 : Nat
  ant2 : Nat
  weight : Option W
  model : List (X × Nat)
deriving DecidableEq, Repr

/-- A channel block while it is filled: its cells and `visibility_indices`. -/
structure Block (X W : Type) where
  cells : List (Option (Cell X W))
  next : Nat
deriving DecidableEq, Repr

variable {X W : Type}

/-- Writes of consecutive cells, each within the allocated size. -/
def writeRun (cells : List (Option (Cell X W))) (idx : Nat) :
    List (Cell X W) → Option (List (Option (Cell X W)))
  | [] => some cells
  | c :: cs =>
    if idx < cells.length then writeRun (cells.set idx (some c)) (idx + 1) cs else none

/-- The loop over the channel blocks for one baseline or row: SolveData.cc:138-180, 235-295. -/
def writeBlocks (blocks : List (Block X W)) (f : Nat → List (Cell X W)) :
    Option (List (Block X W)) :=
  blocks.zipIdx.mapM fun p =>
    (writeRun p.1.cells p.1.next (f p.2)).map fun c => { cells := c, next := p.1.next + (f p.2).length }

/-- The loop over the baselines or rows that are no autocorrelations. -/
def writeAll (blocks : List (Block X W)) (steps : List (Nat → List (Cell X W))) :
    Option (List (Block X W)) :=
  steps.foldlM writeBlocks blocks

/-- Blocks after the allocation. -/
def allocate (sizes : List Nat) : List (Block X W) :=
  sizes.map fun n => { cells := List.replicate n none, next := 0 }

/-- `LimitNSolutionsPerDirection`: SolveData.cc:62-72. -/
def limitNSolutions (nSol : List Nat) (nTimes : Nat) : List Nat := nSol.map fun n => min n nTimes

/-- `SolutionStartIndices`: SolveData.cc:45-56. -/
def startIndices : List Nat → Nat → List Nat
  | [], _ => []
  | n :: rest, counter => counter :: startIndices rest (counter + n)

/-- Begin of channel block `k`: `channel_begin[k]`, SolveData.cc:83, 112-113, 205-208, 237-240. -/
def channelBegin (nCh nBlocks k : Nat) : Nat := k * nCh / nBlocks

/-- Input of the constructor for regular data: SolveData.cc:77-92. -/
structure Regular (V W : Type) where
  nTimes : Nat
  nBl : Nat
  nCh : Nat
  nBlocks : Nat
  ants1 : List Nat
  ants2 : List Nat
  /-- Requested solutions per direction. -/
  nSol : List Nat
  hasWeights : Bool
  /-- Visibility by time, baseline and channel. -/
  vis : Nat → Nat → Nat → V
  weight : Nat → Nat → Nat → W
  /-- Model data by direction, time, baseline and channel. -/
  model : Nat → Nat → Nat → Nat → V

/-- Solution of a direction used for a time step: SolveData.cc:164-168. -/
def solutionIndex (nSol start nTimes t : Nat) : Nat := t * nSol / nTimes + start

variable {V : Type}

/-- Model data and solution index of all directions: SolveData.cc:161-177. -/
def directions (conv : V → X) (r : Regular V W) (t b c : Nat) : List (X × Nat) :=
  let nSol := limitNSolutions r.nSol r.nTimes
  (nSol.zip (startIndices nSol 0)).zipIdx.map fun p =>
    (conv (r.model p.2 t b c), solutionIndex p.1.1 p.1.2 r.nTimes t)

/-- The visibilities written for one time, baseline and channel block: SolveData.cc:142-177. -/
def regularStep (conv : V → X) (r : Regular V W) (t b a1 a2 k : Nat) : List (Cell X W) :=
  let first := channelBegin r.nCh r.nBlocks k
  (List.range (channelBegin r.nCh r.nBlocks (k + 1) - first)).map fun i =>
    { vis := conv (r.vis t b (first + i)), ant1 := a1, ant2 := a2
      weight := if r.hasWeights then some (r.weight t b (first + i)) else none
      model := directions conv r t b (first + i) }

/-- The antennas of a baseline. -/
def antPair (r : Regular V W) (b : Nat) : Option (Nat × Nat) :=
  match r.ants1[b]?, r.ants2[b]? with
  | some a1, some a2 => some (a1, a2)
  | _, _ => none

/-- Number of cross-correlations: SolveData.cc:94-100. -/
def countCross (pairs : List (Nat × Nat)) : Nat := (pairs.filter fun p => p.1 ≠ p.2).length

/-- The iterations over times and baselines: SolveData.cc:129-137. -/
def regularSteps (conv : V → X) (r : Regular V W) (pairs : List (Nat × Nat)) :
    List (Nat → List (Cell X W)) :=
  (List.range r.nTimes).flatMap fun t =>
    (pairs.zipIdx.filter fun p => p.1.1 ≠ p.1.2).map fun p =>
      regularStep conv r t p.2 p.1.1 p.1.2

/-- The constructor for regular data: SolveData.cc:77-188.  `buffers.front()` and
`channel_blocks_.front()` need a time step and a channel block. -/
def regular (conv : V → X) (r : Regular V W) : Option (List (Block X W)) :=
  if r.nTimes = 0 ∨ r.nBlocks = 0 then none
  else
    ((List.range r.nBl).mapM (antPair r)).bind fun pairs =>
      let size := fun k =>
        r.nTimes * countCross pairs *
          (channelBegin r.nCh r.nBlocks (k + 1) - channelBegin r.nCh r.nBlocks k)
      writeAll (allocate ((List.range r.nBlocks).map size)) (regularSteps conv r pairs)

/-! ## BDA data -/

/-- A row of the current interval of the BdaSolverBuffer: BdaSolverBuffer.h:26-37. -/
structure Row (F V : Type) where
  time : F
  bl : Nat
  nCh : Nat
  vis : Nat → V
  model : Nat → Nat → V

section Bda

variable {F : Type} [Field F] [LinearOrder F] [FloorRing F]

/-- Input of the constructor for BDA data: SolveData.cc:191-196. -/
structure Bda (F V : Type) where
  rows : List (Row F V)
  nBlocks : Nat
  ants1 : List Nat
  ants2 : List Nat
  nSol : List Nat
  /-- `CurrentIntervalStart` and `IntervalDuration` of the buffer. -/
  start : F
  duration : F

/-- Solution of a direction for a row: SolveData.cc:262-283. -/
def bdaSolutionIndex (start duration time : F) (nSol first : Nat) : Nat :=
  min (nSol - 1) ⌊(time - start) * nSol / duration⌋.toNat + first

/-- Model data and solution index of all directions: SolveData.cc:270-292. -/
def bdaDirections (conv : V → X) (d : Bda F V) (row : Row F V) (c : Nat) : List (X × Nat) :=
  let nSol := limitNSolutions d.nSol d.rows.length
  (nSol.zip (startIndices nSol 0)).zipIdx.map fun p =>
    (conv (row.model p.2 c), bdaSolutionIndex d.start d.duration row.time p.1.1 p.1.2)

/-- The visibilities written for one row and channel block, without weights:
SolveData.cc:237-294. -/
def bdaStep (conv : V → X) (d : Bda F V) (row : Row F V) (a1 a2 k : Nat) : List (Cell X W) :=
  let first := channelBegin row.nCh d.nBlocks k
  (List.range (channelBegin row.nCh d.nBlocks (k + 1) - first)).map fun i =>
    { vis := conv (row.vis (first + i)), ant1 := a1, ant2 := a2, weight := none
      model := bdaDirections conv d row (first + i) }

/-- The antennas of a row. -/
def rowPair (d : Bda F V) (row : Row F V) : Option (Nat × Nat) :=
  match d.ants1[row.bl]?, d.ants2[row.bl]? with
  | some a1, some a2 => some (a1, a2)
  | _, _ => none

/-- Rows that are no autocorrelations. -/
def crossRows (rows : List (Row F V × (Nat × Nat))) : List (Row F V × (Nat × Nat)) :=
  rows.filter fun p => p.2.1 ≠ p.2.2

/-- Number of visibilities of block `k`: SolveData.cc:197-212. -/
def bdaCount (d : Bda F V) (rows : List (Row F V × (Nat × Nat))) (k : Nat) : Nat :=
  ((crossRows rows).map fun p =>
    channelBegin p.1.nCh d.nBlocks (k + 1) - channelBegin p.1.nCh d.nBlocks k).sum

/-- The constructor for BDA data: SolveData.cc:190-300.  With weights, each visibility reads
`weights_.shape()[2]`, which is outside the shape of a two-dimensional tensor: SolveData.cc:255. -/
def bda (conv : V → X) (d : Bda F V) (withWeights : Bool) : Option (List (Block X W)) :=
  if d.nBlocks = 0 then none
  else
    (d.rows.mapM fun row => (rowPair d row).map fun p => (row, p)).bind fun rows =>
      if withWeights && (crossRows rows).any fun p => decide (0 < p.1.nCh) then none
      else
        writeAll (allocate ((List.range d.nBlocks).map (bdaCount d rows)))
          ((crossRows rows).map fun p => bdaStep conv d p.1 p.2.1 p.2.2)

end Bda

/-! ## Visibility counts and solution weights -/

/-- `CountAntennaVisibilities` for one channel block: SolveData.cc:303-311. -/
def countAntenna (nAnt : Nat) (cells : List (Cell X W)) : List Nat :=
  cells.foldl (fun counts c =>
      let counts := counts.modify c.ant1 (· + 1)
      counts.modify c.ant2 (· + 1))
    (List.replicate nAnt 0)

/-- `NSolutionVisibilities`: SolveData.cc:348-360. -/
def nSolutionVisibilities (cells : List (Cell X W)) (dir sol : Nat) : Nat :=
  cells.foldl (fun n c => if (c.model[dir]?).map Prod.snd = some sol then n + 1 else n) 0

/-! ## Upsampling -/

/-- `SolutionResampler`: SolutionResampler.cc:14-41; the number of substeps. -/
def nSubsteps (nSol : List Nat) (solint : Nat) : Nat :=
  let maxN := nSol.foldl max 0
  if nSol.any fun v => maxN % v ≠ 0 then solint else maxN

/-- `MapResampledToOriginal`: SolutionResampler.cc:181-198. -/
def mapResampled (nSol : List Nat) (solint nPol time ant dir pol : Nat) : Nat × Nat :=
  let nSub := nSubsteps nSol solint
  let nDir := nSol.getD dir 0
  (time / nSub,
   ant * nSol.sum * nPol + ((nSol.take dir).sum + (time % nSub) / (nSub / nDir)) * nPol + pol)

/-- Subsolution used in the upsampling of constraint results: SolutionResampler.cc:142-148. -/
def constraintSub (nSol : List Nat) (solint dir sub : Nat) : Nat :=
  (nSol.take dir).sum + sub * nSol.getD dir 0 / nSubsteps nSol solint

/-! ## Channel blocks of BDA data -/

section Blocks

variable {F : Type} [Field F] [LinearOrder F]

/-- `BdaDdeCal::DetermineChannelBlocks`: steps/BdaDdeCal.cc:316-350; the start frequency of a block,
relative to the start of the band.  The loop adds `block_size * chan_width`, which telescopes; the
sum is written out. -/
def blockStarts (nchan nBlocks : Nat) (width : F) : Nat → F
  | 0 => 0
  | k + 1 =>
    blockStarts nchan nBlocks width k +
      ((channelBegin nchan nBlocks (k + 1) - channelBegin nchan nBlocks k : Nat) : F) * width

/-- The `while` loop of `ApplySolutions`: BdaSolverBuffer.cc:219-225; `none` if the loop leaves the
list of start frequencies. -/
def advance (nBlocks : Nat) (starts : Nat → F) (freq : F) : Nat → Nat → Option Nat
  | 0, _ => none
  | fuel + 1, block =>
    if block + 1 ≤ nBlocks then
      if starts (block + 1) < freq then advance nBlocks starts freq fuel (block + 1) else some block
    else none

/-- The channel blocks of the channels of a row in `ApplySolutions`: BdaSolverBuffer.cc:217-225. -/
def applyBlocks (nBlocks : Nat) (starts : Nat → F) : Nat → List F → Option (List Nat)
  | _, [] => some []
  | block, freq :: rest =>
    (advance nBlocks starts freq (nBlocks + 1) block).bind fun b =>
      (applyBlocks nBlocks starts b rest).map fun r => b :: r

end Blocks

/-- `BdaDdeCal::GetChanBlockIndex`: steps/BdaDdeCal.cc:936-951, with exact arithmetic; `none` is the
exception. -/
def chanBlockIndex (channel nChannels nBlocks : Nat) : Option Nat :=
  if nChannels < nBlocks then none else some (channel * nBlocks / nChannels)

end DP3.SolveData
