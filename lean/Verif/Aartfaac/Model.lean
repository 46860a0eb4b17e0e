import Mathlib.Algebra.Field.Basic
import Verif.BaselineIndices.Model

/-!
# Files of the AARTFAAC correlator

Models aartfaac/File.h, the checks of aartfaac/PacketHeader.h and the part of steps/AartfaacReader.cc that turns a time step into
a buffer. A file is its list of bytes. Floating point numbers are elements of a field; a value that is not finite is `none`.
Overflow of sums is not modelled, nor is the calculation of UVW coordinates, which is a parameter. A second constructor of `File`
(File.h:53-67) never opens the file and is not used; it is not modelled.
-/

namespace DP3.Aartfaac
set_option linter.unusedSectionVars false

/-! ## The file -/

/-- The size of a header in bytes, aartfaac/PacketHeader.h:169-170. -/
def headerSize : Nat := 1536

/-- A file that is open: aartfaac/File.h:124-127. The position in the stream is `offset`. -/
structure File (α : Type) where
  bytes : List α
  blockSize : Nat
  offset : Nat
  blockPosition : Nat

section File
variable {α : Type}

/-- The constructor, aartfaac/File.h:33-51, after the check of the header that gives the size of a block. -/
def openFile (bytes : List α) (blockSize : Nat) : File α :=
  ⟨bytes, blockSize, 0 * (headerSize + blockSize), 0⟩

/-- `SkipTimesteps` of a number that is not negative, aartfaac/File.h:69-72. -/
def skip (f : File α) (count : Nat) : File α :=
  { f with offset := f.offset + count * (headerSize + f.blockSize), blockPosition := f.blockPosition + count }

/-- `SeekToTimestep`, aartfaac/File.h:74-77. -/
def seek (f : File α) (timestep : Nat) : File α :=
  { f with offset := timestep * (headerSize + f.blockSize), blockPosition := timestep }

/-- `std::ifstream::read` of `n` bytes at the position of the stream: `none` if there are fewer bytes. -/
def readBytes (f : File α) (n : Nat) : Option (List α × File α) :=
  let part := (f.bytes.drop f.offset).take n
  if part.length = n then some (part, { f with offset := f.offset + n }) else none

/-- `ReadTimestep`, aartfaac/File.h:79-87: header and data of a block; `none` is the exception "Error reading file". -/
def readTimestep (f : File α) : Option ((List α × List α) × File α) :=
  match readBytes f headerSize with
  | none => none
  | some (h, f1) =>
    match readBytes f1 f1.blockSize with
    | none => none
    | some (d, f2) => some ((h, d), { f2 with blockPosition := f2.blockPosition + 1 })

/-- `ReadMetadata`, aartfaac/File.h:89-96. -/
def readMetadata (f : File α) : Option (List α × File α) :=
  match readBytes f headerSize with
  | none => none
  | some (h, f1) => some (h, seek f1 f1.blockPosition)

/-- `NTimesteps`, aartfaac/File.h:100. A block size of zero is excluded by the properties: the division is then undefined. -/
def nTimesteps (f : File α) : Nat := f.bytes.length / f.blockSize

/-- `HasMore`, aartfaac/File.h:98. -/
def hasMore (f : File α) : Bool := decide (f.blockPosition < f.bytes.length / f.blockSize)

/-- Calls that can be made for an open file. -/
inductive Op
  | skip (count : Nat)
  | seek (timestep : Nat)
  | read
  | metadata

/-- A call: what is returned, if any, and the new state; `none` is the exception. -/
def step (f : File α) : Op → Option (List α × File α)
  | .skip n => some ([], skip f n)
  | .seek n => some ([], seek f n)
  | .read => (readTimestep f).map fun r => (r.1.1 ++ r.1.2, r.2)
  | .metadata => readMetadata f

/-- A list of calls: what they return and the new state. -/
def run (f : File α) : List Op → Option (List (List α) × File α)
  | [] => some ([], f)
  | op :: ops =>
    match step f op with
    | none => none
    | some (out, f1) => (run f1 ops).map fun r => (out :: r.1, r.2)

/-- How a run of the reader ends. -/
inductive End
  | finished
  | throws
  deriving DecidableEq, Repr

/-- The calls of `process` of the reader until it returns false, steps/AartfaacReader.cc:193-194, 225-226, 231: the blocks that
are sent to the next step, and how it ends. `nTimes` is the setting ntimes, `current` the number of steps done. The first argument
bounds the number of calls. -/
def readAll (nTimes : Nat) : Nat → Nat → File α → List (List α × List α) × End
  | 0, _, _ => ([], .finished)
  | fuel + 1, current, f =>
    if hasMore f ∧ (current < nTimes ∨ nTimes = 0) then
      match readTimestep f with
      | none => ([], .throws)
      | some (b, f1) =>
        let rest := readAll nTimes fuel (current + 1) f1
        (b :: rest.1, rest.2)
    else ([], .finished)

end File

/-! ## The header -/

/-- The fields of a header that are used, aartfaac/PacketHeader.h:48-59. -/
structure Header (K : Type) where
  magic : Nat
  receivers : Nat
  polarizations : Nat
  correlationMode : Nat
  startTime : K
  endTime : K
  channels : Nat
  firstFrequency : K
  bandwidth : K

/-- `kHeaderMagicTag`, aartfaac/PacketHeader.h:166. -/
def magicTag : Nat := 0x3B98F003

/-- `Magic()`, aartfaac/PacketHeader.h:78. -/
def Header.getMagic {K : Type} (h : Header K) : Nat := h.magic

/-- What `Check` can do. -/
inductive Checked
  | ok
  | magicError
  | correlationModeError
  deriving DecidableEq, Repr

/-- `Check`, aartfaac/PacketHeader.h:117-124. -/
def check {K : Type} (h : Header K) : Checked :=
  if h.magic ≠ h.getMagic then .magicError
  else if h.correlationMode ≠ 15 then .correlationModeError
  else .ok

/-- `NrBaselines`, aartfaac/PacketHeader.h:111. -/
def nBaselines {K : Type} (h : Header K) : Nat := h.receivers * (h.receivers + 1) / 2

/-- `VisPerTimestep`, aartfaac/PacketHeader.h:113-115. -/
def visPerTimestep {K : Type} (h : Header K) : Nat := nBaselines h * h.channels * h.polarizations

/-- The size of the data of a block, aartfaac/File.h:46: a visibility has eight bytes. -/
def blockSize {K : Type} (h : Header K) : Nat := 8 * visPerTimestep h

/-! ## The reader -/

section Reader
variable {K : Type} [Field K]

/-- `TimeToCasa`, aartfaac/File.h:24-26: 2440587.5 - 2400000.5 is 40587. -/
def timeToCasa (t : K) : K := t + 40587 * 86400

/-- The frequencies in the meta data for the next steps, steps/AartfaacReader.cc:85-91. -/
def infoFrequencies (h : Header K) : List K :=
  let start := h.firstFrequency + h.bandwidth * (1 / 2)
  (List.range h.channels).map fun (ch : Nat) => start + h.bandwidth * (1 / 2 + (ch : K))

/-- The frequencies in the table of the spectral window, steps/AartfaacReader.cc:163-165, 249-256. -/
def tableFrequencies (h : Header K) : List K :=
  (List.range h.channels).map fun (ch : Nat) => h.firstFrequency + h.bandwidth * (ch : K)

/-- The first and last time that the meta data get at the end of the run, steps/AartfaacReader.cc:158, 228-230; `last` is the header
of the last block that was read. -/
def infoTimes (first last : Header K) : K × K := (first.startTime, last.endTime)

/-- The time and exposure of a buffer, aartfaac/File.h:85-86 and steps/AartfaacReader.cc:196, 200-201. -/
def bufferTime (h : Header K) : K × K :=
  (timeToCasa h.startTime, timeToCasa h.endTime - timeToCasa h.startTime)

/-- The weight of all visibilities of a buffer, steps/AartfaacReader.cc:202; `first` is the header of the first block. -/
def bufferWeight (first h : Header K) : K := (bufferTime h).2 * first.bandwidth

/-- A complex number in a file, of which the parts can be not finite. -/
structure Vis (K : Type) where
  re : Option K
  im : Option K
  deriving DecidableEq

/-- A sum of floating point numbers is finite when all are (`xt::sum`, steps/AartfaacReader.cc:206-207). -/
def sumParts : List (Option K) → Option K
  | [] => some 0
  | a :: l => match a, sumParts l with
    | some x, some y => some (x + y)
    | _, _ => none

/-- The flag of all polarizations of one channel, steps/AartfaacReader.cc:206-208. -/
def channelFlag (vis : List (Vis K)) : Bool := (sumParts (vis.map Vis.re)).isNone

/-- Flagged data become zero, steps/AartfaacReader.cc:212-213. -/
def clearFlagged (vis : List (Vis K)) : List (Vis K) :=
  if channelFlag vis then vis.map fun _ => ⟨some 0, some 0⟩ else vis

/-- A combination `a * x + b * y` of parts that is finite when both are; `x` and `y` are sine and cosine (a product of zero and a
value that is not finite is not finite). -/
def combine (a b : Option K) (x y : K) : Option K :=
  match a, b with
  | some p, some q => some (p * x + q * y)
  | _, _ => none

/-- The rotation of one visibility, steps/AartfaacReader.cc:139-143; `c` and `s` are the cosine and sine of the angle. -/
def rotate (c s : K) (v : Vis K) : Vis K :=
  ⟨combine v.re v.im c (-s), combine v.re v.im s c⟩

/-- The angle of the delay correction in units of 2π, steps/AartfaacReader.cc:130-132; `light` is the speed of light. -/
def turns (light frequency w : K) : K := -(frequency * w / light)

/-- The polarizations of one channel of one baseline after `process`, steps/AartfaacReader.cc:206-213, 222, 128-146: the flag and
the data. -/
def channelOut (c s : K) (vis : List (Vis K)) : Bool × List (Vis K) :=
  (channelFlag vis, (clearFlagged vis).map (rotate c s))

/-- The fields that are read, steps/AartfaacReader.cc:173, 177, 182, 187. -/
structure Fields where
  data : Bool
  flags : Bool
  weights : Bool
  uvw : Bool

/-- The number of elements of the data, flags and UVW arrays of a new buffer, steps/AartfaacReader.cc:173-189. -/
def sizes (h : Header K) (r : Fields) : Nat × Nat × Nat :=
  (if r.data then visPerTimestep h else 0, if r.flags then visPerTimestep h else 0, if r.uvw then 3 * nBaselines h else 0)

/-- Whether `process` stays within the arrays: `ReadTimestep` writes all visibilities (steps/AartfaacReader.cc:194), the flags of all
are written (:204-210), and so are the UVW coordinates of all baselines (:218-221). -/
def inBounds (h : Header K) (r : Fields) : Bool :=
  decide (visPerTimestep h ≤ (sizes h r).1) && decide (visPerTimestep h ≤ (sizes h r).2.1) &&
    decide (3 * nBaselines h ≤ (sizes h r).2.2)

/-- The meta data of a step that the reader uses: base/DPInfo.h:197-198 and the frequencies. -/
structure Info (K : Type) where
  ant1 : List Nat
  ant2 : List Nat
  frequencies : List K

/-- A new `DPInfo`, base/DPInfo.cc:31-60: no baselines, and one list of frequencies without elements. -/
def emptyInfo : Info K := ⟨[], [], []⟩

/-- The meta data of the input and output of a step, steps/Step.h:107, 110, 163. -/
structure StepInfo (K : Type) where
  input : Info K
  output : Info K

/-- The meta data that `InitializeInfo` makes, steps/AartfaacReader.cc:82-91, 96-112. -/
def datasetInfo (h : Header K) : Info K :=
  let pairs := (List.range (nBaselines h)).map fun (i : Nat) => BaselineIndices.baseline i h.receivers .columnMajor
  ⟨pairs.map Prod.fst, pairs.map Prod.snd, infoFrequencies h⟩

/-- `updateInfo`, steps/AartfaacReader.cc:348-352, 125: only the meta data of the output are set. -/
def updateInfo (s : StepInfo K) (_info : Info K) (h : Header K) : StepInfo K := { s with output := datasetInfo h }

/-- What `process` looks up for baseline `i`, steps/AartfaacReader.cc:216-222, 130: the antennas and the frequencies of all channels;
`none` is a read past the end of a vector. -/
def lookupBaseline (s : StepInfo K) (h : Header K) (i : Nat) : Option (Nat × Nat × List K) :=
  match s.input.ant2[i]?, s.input.ant1[i]? with
  | some a2, some a1 => ((List.range h.channels).mapM fun (ch : Nat) => s.input.frequencies[ch]?).map fun f => (a2, a1, f)
  | _, _ => none

/-- The loop over baselines in `process`, steps/AartfaacReader.cc:216-223. -/
def lookupAll (s : StepInfo K) (h : Header K) : Option (List (Nat × Nat × List K)) :=
  (List.range (nBaselines h)).mapM fun (i : Nat) => lookupBaseline s h i

end Reader

end DP3.Aartfaac
