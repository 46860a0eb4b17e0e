import Mathlib.Algebra.Field.Basic

/-!
# Input from a socket

Models steps/SVPInput.cc: how messages are received, the meta data, the baselines, and the buffers that are made from the
messages. The socket is a list of chunks, each of which is what one call of `read` can return at most; the decoding of bytes is a
parameter. Overflow of the size of a message (an `int`) is not modelled, nor are the tables that are written and UVW coordinates.
-/

namespace DP3.SvpInput

/-! ## Messages -/

section Receive
variable {α : Type}

/-- The loop of `ReceiveBytes` and `ReceiveItem`, steps/SVPInput.cc:565-573, 586-594: `left` bytes have to be received. `read` returns
bytes of the first chunk, zero bytes at the end of the stream, and zero bytes when it is asked for zero bytes; then the result is -1,
which is `none`. -/
def receiveLoop : Nat → List (List α) → Option (List α) × List (List α)
  | 0, chunks => (none, chunks)
  | _ + 1, [] => (none, [])
  | left + 1, c :: chunks =>
    if left + 1 ≤ c.length then
      (some (c.take (left + 1)), if c.length = left + 1 then chunks else c.drop (left + 1) :: chunks)
    else if c.length = 0 then (none, chunks)
    else
      let r := receiveLoop (left + 1 - c.length) chunks
      (r.1.map fun m => c ++ m, r.2)

/-- The same for a stream of bytes (see `receive_chunks` for the relation): a message of `n` bytes and the rest. When there are too few
bytes, these are lost. -/
def receive (n : Nat) (s : List α) : Option (List α) × List α :=
  if n = 0 then (none, s) else if n ≤ s.length then (some (s.take n), s.drop n) else (none, [])

end Receive

/-! ## Meta data -/

/-- The telescopes, steps/SVPInput.h:31. -/
inductive Telescope
  | lofar | alma | aartfaac
  deriving DecidableEq, Repr

/-- How bytes are decoded. -/
structure Dec (α K : Type) where
  int : List α → Int
  size : List α → Nat
  double : List α → K
  doubles : List α → List K
  text : List α → String
  ints16 : List α → List Int
  ints32 : List α → List Int

/-- How a function ends that does not return. -/
inductive Fault
  | refused
  | ub
  deriving DecidableEq, Repr

/-- The meta data, steps/SVPInput.h:33-55. -/
structure Meta (K : Type) where
  telescope : Telescope
  channels : Nat
  antennas : Nat
  polarizations : Int
  scale : K
  startTime : K
  interval : K
  times : Nat
  sourceName : String
  ra : K
  dec : K
  frameName : String
  positions : List K
  diameters : List K
  frequencies : List K
  widths : List K

section Meta
variable {α K : Type}

/-- A length and a text of that length, steps/SVPInput.cc:280-291, 296-304 (and 242-263 for the telescope): the text, which is `none`
when the length is zero or was not received. A text that is not received completely keeps its zeros, and its value is not modelled
(empty here); a negative length cannot be used for `resize`. -/
def receiveText (d : Dec α K) (s : List α) : Except Fault (Option String × List α) :=
  let (n, s1) := receive 4 s
  let len := (n.map d.int).getD 0
  if len = 0 then .ok (none, s1)
  else if len < 0 then .error .refused
  else
    let (t, s2) := receive len.toNat s1
    .ok (some ((t.map d.text).getD ""), s2)

/-- The telescope of a name, steps/SVPInput.cc:250-262. -/
def telescopeOf : Option String → Except Fault Telescope
  | none => .ok .alma
  | some "LOFAR" => .ok .lofar
  | some "ALMA" => .ok .alma
  | some "AARTFAAC" => .ok .aartfaac
  | some _ => .error .refused

/-- `InitializeInfo` up to line 327, steps/SVPInput.cc:238-327. Values that are not received keep their old value, which is indeterminate
for the numbers of channels and antennas: these are used for the sizes of vectors (lines 307, 318). Only the last result is tested. -/
def receiveMeta (d : Dec α K) (zero one : K) (s : List α) : Except Fault (Meta K × List α) := do
  let (name, s1) ← receiveText d s
  let tel ← telescopeOf name
  let (chans, s2) := receive 8 s1
  let (ants, s3) := receive 8 s2
  let (pols, s4) := receive 4 s3
  let (scale, s5) := receive 8 s4
  let (start, s6) := receive 8 s5
  let (interval, s7) := receive 8 s6
  let (times, s8) := receive 8 s7
  let (source, s9) ← receiveText d s8
  let (ra, s10) := receive 8 s9
  let (dec, s11) := receive 8 s10
  let (frame, s12) ← receiveText d s11
  match chans, ants with
  | some c, some a =>
    let nch := d.size c
    let nant := d.size a
    let (pos, s13) := receive (3 * nant * 8) s12
    let (diam, s14) := receive (nant * 8) s13
    let (freqs, s15) := receive (nch * 8) s14
    let (widths, s16) := receive (nch * 8) s15
    match widths with
    | none => .error .refused
    | some w =>
      .ok (⟨tel, nch, nant, (pols.map d.int).getD 0, (scale.map d.double).getD one, (start.map d.double).getD zero,
        (interval.map d.double).getD zero, (times.map d.size).getD 0, source.getD "TEST", (ra.map d.double).getD zero,
        (dec.map d.double).getD zero, frame.getD "J2000", (pos.map d.doubles).getD [], (diam.map d.doubles).getD [],
        (freqs.map d.doubles).getD [], d.doubles w⟩, s16)
  | _, _ => .error .ub

/-- `InitializeInfo`, steps/SVPInput.cc:238-417: the position of the first antenna is used without a check (lines 401, 410). -/
def initializeInfo (d : Dec α K) (zero one : K) (s : List α) : Except Fault (Meta K × List α) := do
  let r ← receiveMeta d zero one s
  if r.1.antennas = 0 then .error .ub else .ok r

/-- The baselines, steps/SVPInput.cc:350-369: the pairs (ant1, ant2) in the order in which they are stored. -/
def baselines (t : Telescope) (antennas : Nat) : List (Nat × Nat) :=
  if t = .alma then
    (List.range antennas).flatMap fun (st2 : Nat) => (List.range st2).map fun (st1 : Nat) => (st1, st2)
  else
    (List.range antennas).flatMap fun (st1 : Nat) => (List.range (st1 + 1)).map fun (st2 : Nat) => (st1, st2)

/-- The size of the vectors of antennas, steps/SVPInput.cc:342-351. For zero antennas `nr_antennas_ - 1` wraps, but the product is
zero. -/
def nBaselines (t : Telescope) (antennas : Nat) : Nat :=
  if t = .alma then antennas * (antennas - 1) / 2 else antennas * (antennas + 1) / 2

end Meta

/-! ## Buffers -/

section Process
variable {α K : Type} [Field K]

/-- A buffer: the data as flat array over baselines, channels and correlations, and likewise flags and weights. -/
structure Buf (K : Type) where
  time : K
  exposure : K
  data : List (K × K)
  flags : List Bool
  weights : List K

/-- What `process` does: return false, throw, run into undefined behaviour, or send a buffer and return true. -/
inductive Outcome (α K : Type)
  | stop
  | throws
  | ub
  | ok (b : Buf K) (rest : List α)

/-- The correlations that are stored, steps/SVPInput.cc:118, 125, 128-142 (and 92-95 for the flags). -/
def correlations (ncr : Nat) : List Nat := if ncr = 4 then [0, 1, 2, 3] else [0, 1]

/-- The write of the correlations of one baseline and channel in the flat array, steps/SVPInput.cc:112-142, 155-184: `none` is a write
outside. -/
def writePixel {β : Type} (ncr : Nat) (f : Nat → β) (arr : List β) (pixel : Nat) : Option (List β) :=
  (correlations ncr).foldl
    (fun acc o => acc.bind fun l => if pixel * ncr + o < l.length then some (l.set (pixel * ncr + o) (f (pixel * ncr + o))) else none)
    (some arr)

/-- The loops over baselines and channels, steps/SVPInput.cc:110-111, 153-154. -/
def writeAll {β : Type} (ncr pixels : Nat) (f : Nat → β) (arr : List β) : Option (List β) :=
  (List.range pixels).foldl (fun acc (p : Nat) => acc.bind fun l => writePixel ncr f l p) (some arr)

/-- The conversion of a received visibility, steps/SVPInput.cc:100, 114-119. -/
def convert (scale : K) (ints : List Int) (i : Nat) : K × K :=
  let inv := 1 / scale
  ((ints.getD (2 * i) 0 : K) * inv, (ints.getD (2 * i + 1) 0 : K) * inv)

/-- The data, steps/SVPInput.cc:102-187. `arr` are the elements after `resize` (line 53). For other numbers of bits nothing is read
(an assertion on line 72 would stop). -/
def receiveData (d : Dec α K) (scale : K) (ncr pixels bits : Nat) (arr : List (K × K)) (s : List α) :
    Except Fault (List (K × K) × List α) :=
  let n := pixels * ncr
  let go (size : Nat) (dec : List α → List Int) : Except Fault (List (K × K) × List α) :=
    match receive (2 * n * size) s with
    | (none, _) => .error .refused
    | (some m, s1) =>
      match writeAll ncr pixels (convert scale (dec m)) arr with
      | none => .error .ub
      | some l => .ok (l, s1)
  if bits = 16 then go 2 d.ints16 else if bits = 32 then go 4 d.ints32 else .ok (arr, s)

/-- The flags, steps/SVPInput.cc:74-98: they are written to a copy of the flags of the buffer (line 85), which is lost. The check of the
number is an assertion (line 79); with fewer flags the loop reads behind the end (line 91). With one correlation `flags(bl, ch, 1)` is
the same element as `flags(bl, ch, 0)`, because the array has stride zero there. -/
def receiveFlags (d : Dec α K) (ncr pixels flagSize : Nat) (s : List α) : Except Fault (List Bool × List α) :=
  if flagSize = 0 then .ok ([], s)
  else
    match receive (flagSize * 4) s with
    | (none, _) => .error .refused
    | (some m, s1) =>
      if flagSize < pixels then .error .ub
      else
        .ok ((List.range (pixels * ncr)).map fun (i : Nat) =>
          decide (i % ncr ∈ correlations ncr) && decide ((d.ints32 m).getD (i / ncr) 0 ≠ 0), s1)

/-- `process` for ALMA, steps/SVPInput.cc:53-187, 207-227. -/
def processAlma (d : Dec α K) (scale : K) (ncr pixels : Nat) (arr : List (K × K)) (s : List α) : Outcome α K :=
  let (centroid, s1) := receive 8 s
  let (duration, s2) := receive 8 s1
  let (flagSize, s3) := receive 8 s2
  let (_dataSize, s4) := receive 8 s3
  let (bits, s5) := receive 4 s4
  match bits with
  | none => .stop
  | some b =>
    match receiveFlags d ncr pixels ((flagSize.map d.size).getD 0) s5 with
    | .error .refused => .throws
    | .error .ub => .ub
    | .ok (_copy, s6) =>
      match receiveData d scale ncr pixels (d.int b).toNat arr s6 with
      | .error .refused => .throws
      | .error .ub => .ub
      | .ok (data, s7) =>
        .ok ⟨(centroid.map d.double).getD 0, (duration.map d.double).getD 1, data, List.replicate (pixels * ncr) false,
          List.replicate (pixels * ncr) 1⟩ s7

/-- `process` for LOFAR, steps/SVPInput.cc:188-202, 207-227; `values` decodes the data. -/
def processLofar (values : List α → List (K × K)) (m : Meta K) (n counter : Nat) (s : List α) : Outcome α K :=
  match receive (2 * n * 4) s with
  | (none, _) => if m.times ≤ counter then .stop else .throws
  | (some b, s1) =>
    .ok ⟨m.startTime + (counter : K) * m.interval, m.interval, values b, List.replicate n false, List.replicate n 1⟩ s1

/-- `process` for any telescope, steps/SVPInput.cc:57, 188, 203-205. -/
def process (d : Dec α K) (values : List α → List (K × K)) (m : Meta K) (ncr pixels counter : Nat) (arr : List (K × K))
    (s : List α) : Outcome α K :=
  match m.telescope with
  | .alma => processAlma d m.scale ncr pixels arr s
  | .lofar => processLofar values m (pixels * ncr) counter s
  | .aartfaac => .throws

/-- How the run ends. -/
inductive End
  | finished
  | throws
  | undefined
  deriving DecidableEq, Repr

/-- The calls of `process` until it returns false (base/DP3.cc:387-395), with the counter of line 224 of steps/SVPInput.cc: the buffers
that are sent and how it ends. The first argument bounds the number of calls. -/
def run (step : Nat → List α → Outcome α K) : Nat → Nat → List α → List (Buf K) × End
  | 0, _, _ => ([], .finished)
  | fuel + 1, counter, s =>
    match step counter s with
    | .stop => ([], .finished)
    | .throws => ([], .throws)
    | .ub => ([], .undefined)
    | .ok b rest =>
      let r := run step fuel (counter + 1) rest
      (b :: r.1, r.2)

end Process

end DP3.SvpInput
