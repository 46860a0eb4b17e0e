import Mathlib.Data.Nat.Digits.Defs
import Mathlib.Algebra.Order.Field.Basic

/-!
# Writing and updating measurement sets

Models the main table as it is changed by `MSUpdater` (steps/MSUpdater.cc) and `MSWriter` (steps/MSWriter.cc), the
chunks and the thread of the latter, the choice between both (base/DP3.cc), the weights that `MsReader` reads, and
the keyword for the beam.

All correlations of a channel are one value, but for flags, which are a list for each channel. Casacore is modelled
as a list of rows; an exception of casacore is `none`.
-/

namespace DP3.MsOutput

variable {V W : Type}

/-! ## The main table -/

/-- A row of the main table: the data, weights and flags of each channel, and the flag of the row. -/
structure Row (V W : Type) where
  data : List V
  weights : List W
  flags : List (List Bool)
  flagRow : Bool
  deriving DecidableEq

/-- A buffer: its row numbers, and for each baseline the data, weights and flags of each channel. A field that is not
read is empty. -/
structure Buf (V W : Type) where
  rows : List Nat
  data : List (List V)
  weights : List (List W)
  flags : List (List (List Bool))
  deriving DecidableEq

/-- `ArrayColumn::putSlice` for a range of channels from `start`; outside of the cell there is an exception. -/
def putSlice {α : Type} (cell : List α) (start : Nat) (new : List α) : Option (List α) :=
  if start + new.length ≤ cell.length then some (cell.take start ++ new ++ cell.drop (start + new.length)) else none

/-- `ArrayColumn::put` for a column with a fixed shape. -/
def putCell {α : Type} (cell new : List α) : Option (List α) :=
  if new.length = cell.length then some new else none

/-- The loop over the rows of a subset with an iterator over the values, e.g. steps/MSUpdater.cc:374-383. -/
def putRows {α : Type} (upd : Row V W → α → Option (Row V W)) :
    List Nat → List α → List (Row V W) → Option (List (Row V W))
  | [], _, t => some t
  | _ :: _, [], _ => none
  | r :: rs, v :: vs, t =>
    match t[r]? with
    | none => none
    | some row =>
      match upd row v with
      | none => none
      | some row' => putRows upd rs vs (t.set r row')

/-- The settings of MSUpdater: the first channel, the number of channels and that of the measurement set that was read,
which fields are written, and for compression the functions that replace the values of flagged correlations. -/
structure Config (V W : Type) where
  start : Nat
  nChan : Nat
  origNChan : Nat
  wData : Bool
  wFlags : Bool
  wWeights : Bool
  mask : Option ((List Bool → V → V) × (List Bool → W → W))

/-- steps/MSUpdater.cc:375-381: the flags of a row; the flag of the row is cleared if one of them is clear. -/
def putRowFlags (c : Config V W) (row : Row V W) (f : List (List Bool)) : Option (Row V W) :=
  match putSlice row.flags c.start f with
  | none => none
  | some fs => some { row with flags := fs, flagRow := if f.any (fun l => l.any not) then false else row.flagRow }

/-- steps/MSUpdater.cc:413-428: the data of a row, whole if all channels are written. -/
def putRowData (c : Config V W) (row : Row V W) (d : List V) : Option (Row V W) :=
  match (if c.origNChan = c.nChan then putCell row.data d else putSlice row.data c.start d) with
  | none => none
  | some ds => some { row with data := ds }

/-- steps/MSUpdater.cc:397-400: the weights of a row. -/
def putRowWeights (c : Config V W) (row : Row V W) (w : List W) : Option (Row V W) :=
  match putSlice row.weights c.start w with
  | none => none
  | some ws => some { row with weights := ws }

/-- The values with those of flagged correlations replaced, for as far as there are flags:
steps/MSUpdater.cc:187-198 and 209-218. -/
def masked {α : Type} (g : List Bool → α → α) : List (List (List Bool)) → List (List α) → List (List α)
  | fs :: rest, vs :: vrest => List.zipWith g fs vs :: masked g rest vrest
  | _, vs => vs

/-- The data that are written, steps/MSUpdater.cc:182-201. -/
def dataOut (c : Config V W) (b : Buf V W) : List (List V) :=
  match c.mask with
  | some m => masked m.1 b.flags b.data
  | none => b.data

/-- The weights that are written, steps/MSUpdater.cc:204-221. -/
def weightsOut (c : Config V W) (b : Buf V W) : List (List W) :=
  match c.mask with
  | some m => masked m.2 b.flags b.weights
  | none => b.weights

/-- steps/MSUpdater.cc:170-230 process; a buffer without row numbers is skipped (steps/MSUpdater.cc:365, 389, 407). -/
def update (c : Config V W) (t : List (Row V W)) (b : Buf V W) : Option (List (Row V W)) :=
  (if c.wFlags then putRows (putRowFlags c) b.rows b.flags t else some t).bind fun t1 =>
    (if c.wData then putRows (putRowData c) b.rows (dataOut c b) t1 else some t1).bind fun t2 =>
      if c.wWeights then putRows (putRowWeights c) b.rows (weightsOut c b) t2 else some t2

/-- All buffers of a run. -/
def updates (c : Config V W) : List (Row V W) → List (Buf V W) → Option (List (Row V W))
  | t, [] => some t
  | t, b :: bs =>
    match update c t b with
    | none => none
    | some t' => updates c t' bs

/-- The flags of a row for a range of channels as they are read: steps/MsReader.cc:301-321. -/
def readFlags (row : Row V W) (start n : Nat) : List (List Bool) :=
  ((row.flags.drop start).take n).map fun l => l.map fun f => f || row.flagRow

/-! ## MSWriter -/

/-- One row of a new measurement set: steps/MSWriter.cc:728-746. A row is flagged if no flags in it are false. -/
def newRow (d : List V) (w : List W) (f : List (List Bool)) : Row V W := ⟨d, w, f, f.all fun l => l.all id⟩

/-- Rows from the values of each baseline. -/
def newRows : List (List V) → List (List W) → List (List (List Bool)) → List (Row V W)
  | d :: ds, w :: ws, f :: fs => newRow d w f :: newRows ds ws fs
  | _, _, _ => []

/-- steps/MSWriter.cc:713-726: with compression, the values of flagged correlations are replaced in the buffer. -/
def compress (m : Option ((List Bool → V → V) × (List Bool → W → W))) (b : Buf V W) : Buf V W :=
  match m with
  | none => b
  | some m => { b with data := masked m.1 b.flags b.data, weights := masked m.2 b.flags b.weights }

/-- steps/MSWriter.cc:182-208 ProcessBuffer and 706-753 WriteData, for buffers with data: the new table, and the buffer
that is passed on, with the numbers of the new rows. -/
def writeBuffer (m : Option ((List Bool → V → V) × (List Bool → W → W))) (t : List (Row V W)) (b : Buf V W) :
    List (Row V W) × Buf V W :=
  let b' := compress m b
  let rows := newRows b'.data b'.weights b'.flags
  (t ++ rows, { b' with rows := (List.range rows.length).map fun i => t.length + i })

/-- All buffers of a run, without a next step that changes them. -/
def writeAll (m : Option ((List Bool → V → V) × (List Bool → W → W))) (t : List (Row V W)) :
    List (Buf V W) → List (Row V W)
  | [] => t
  | b :: bs => writeAll m (writeBuffer m t b).1 bs

/-! ## Chunks -/

/-- The state of the chunks: the chunks that are finished and the one that is written, each a list of buffers, and
`chunk_start_time_`. `B` is the type of buffers. -/
structure Chunks (F B : Type) where
  done : List (List B)
  cur : List B
  start : F

variable {F B : Type}

/-- steps/MSWriter.cc:159-180 process. -/
def chunkStep [Field F] [LinearOrder F] (time : B → F) (duration : F) (s : Chunks F B) (b : B) : Chunks F B :=
  let start := if s.start = 0 then time b else s.start
  if duration ≠ 0 ∧ duration ≤ time b - start then ⟨s.done ++ [s.cur], [b], time b⟩
  else ⟨s.done, s.cur ++ [b], start⟩

/-- The measurement sets after `finish`, steps/MSWriter.cc:210-213. -/
def chunks [Field F] [LinearOrder F] (time : B → F) (duration : F) (bs : List B) : List (List B) :=
  let s := bs.foldl (chunkStep time duration) ⟨[], [], 0⟩
  s.done ++ [s.cur]

/-- `std::to_string`. -/
def toDec (n : Nat) : List Char := if n = 0 then ['0'] else ((Nat.digits 10 n).map Nat.digitChar).reverse

/-- The number with at least three digits, steps/MSWriter.cc:154-155. -/
def padded (n : Nat) : List Char :=
  if n < 10 then '0' :: '0' :: toDec n else if n < 100 then '0' :: toDec n else toDec n

/-- The position of the last dot or the end, steps/MSWriter.cc:149-153: the name before it. -/
def stem (name : List Char) : List Char :=
  if '.' ∈ name then ((name.reverse.dropWhile fun c => c ≠ '.').drop 1).reverse else name

/-- The rest of the name, from the last dot. -/
def extension (name : List Char) : List Char := name.drop (stem name).length

/-- steps/MSWriter.cc:147-157 InsertNumberInFilename. -/
def insertNumber (name : List Char) (n : Nat) : List Char := stem name ++ '-' :: padded n ++ extension name

/-! ## The thread -/

/-- What the main thread does: queue a buffer (steps/MSWriter.cc:831-835), or finish the measurement set and start a new
one (steps/MSWriter.cc:164-167). -/
inductive Op (B : Type) where
  | write (b : B)
  | next

/-- The state of both threads: what the main thread still has to do, the queue, the buffer that the writing thread has
taken, and the finished measurement sets and the current one. -/
structure Threads (B : Type) where
  todo : List (Op B)
  queue : List B
  busy : Option B
  done : List (List B)
  cur : List B

/-- The capacity of the queue, steps/MSWriter.h:234. -/
def capacity : Nat := 3

/-- A step of one of the threads: steps/MSWriter.cc:814-835. The main thread waits while the queue is full, and for the
end of the writing thread before it starts a new measurement set. -/
inductive Step : Threads B → Threads B → Prop
  | push (b todo queue busy done cur) (h : queue.length < capacity) :
      Step ⟨.write b :: todo, queue, busy, done, cur⟩ ⟨todo, queue ++ [b], busy, done, cur⟩
  | take (todo) (b : B) (queue done cur) :
      Step ⟨todo, b :: queue, none, done, cur⟩ ⟨todo, queue, some b, done, cur⟩
  | put (todo queue) (b : B) (done cur) :
      Step ⟨todo, queue, some b, done, cur⟩ ⟨todo, queue, none, done, cur ++ [b]⟩
  | next (todo) (done : List (List B)) (cur) :
      Step ⟨.next :: todo, [], none, done, cur⟩ ⟨todo, [], none, done ++ [cur], []⟩

/-- Any number of steps. -/
inductive Steps : Threads B → Threads B → Prop
  | refl (s) : Steps s s
  | step {s t u} : Steps s t → Step t u → Steps s u

/-- All is done. -/
def Threads.final (s : Threads B) : Prop := s.todo = [] ∧ s.queue = [] ∧ s.busy = none

/-! ## Choice of the output step -/

/-- What `MakeOutputStep` makes for a regular input: MSUpdater, with its `writeHistory`, or MSWriter. -/
inductive Output where
  | updater (name : List Char) (writeHistory : Bool)
  | writer (name : List Char)
  deriving DecidableEq

/-- base/DP3.cc:107-165 MakeOutputStep for regular input; `abs` is `casacore::Path::absoluteName`. `none`: an exception.
The second value is the new `currentMSName`. -/
def makeOutput (abs : List Char → List Char) (name current : List Char) : Option (Output × List Char) :=
  if name = [] ∨ name = ['.'] then
    if current = [] then none
    else some (.updater current (decide (current ≠ current)), abs current)
  else if current = abs name then some (.updater current (decide (current ≠ current)), abs current)
  else some (.writer name, abs name)

/-! ## Keywords for the beam -/

/-- The keywords of a data column: the mode and the direction of the beam. -/
structure BeamKeys (D : Type) where
  mode : Option Nat
  dir : Option D
  deriving DecidableEq

/-- steps/MSWriter.cc:640-660 UpdateBeam; mode 0 is no beam. -/
def updateBeam {D : Type} (k : BeamKeys D) (mode : Nat) (dir : D) : BeamKeys D :=
  if k.mode.isSome ∨ mode ≠ 0 then ⟨some mode, some dir⟩ else k

/-- steps/MsReader.cc:656-671: the mode and direction for a column; without keywords those of a new DPInfo. `none`: an
exception as there is no direction. -/
def readBeam {D : Type} (k : BeamKeys D) (dflt : D) : Option (Nat × D) :=
  match k.mode with
  | none => some (0, dflt)
  | some m =>
    if m ≠ 0 then
      match k.dir with
      | none => none
      | some d => some (m, d)
    else some (m, dflt)

/-! ## Weights that are read -/

/-- steps/MsReader.cc:943-962: the weights of one baseline for all channels, from one value for each correlation. -/
def globalWeights [Zero F] [One F] [DecidableEq F] (w : List F) (nChan : Nat) : List (List F) :=
  List.replicate nChan (w.map fun x => if x = 0 then 1 else x)

/-- steps/MsReader.cc:991-1005: the weights of the correlations of a channel, from the real parts of the data of both
auto-correlations and the product of channel width and interval. -/
def autoWeight [Field F] [DecidableEq F] (w : F) (a1 a2 : List F) (ws : List F) : List F :=
  match a1, a2, ws with
  | [x1, _, _, y1], [x2, _, _, y2], [w0, w1, w2, w3] =>
    if x1 ≠ 0 ∧ x2 ≠ 0 then
      if y1 ≠ 0 ∧ y2 ≠ 0 then
        [w0 * (w / (x1 * x2)), w1 * (w / (x1 * y2)), w2 * (w / (y1 * x2)), w3 * (w / (y1 * y2))]
      else [w0 * (w / (x1 * x2)), w1, w2, w3]
    else ws
  | [x1, y1], [x2, y2], [w0, w1] =>
    if x1 ≠ 0 ∧ x2 ≠ 0 then
      if y1 ≠ 0 ∧ y2 ≠ 0 then [w0 * (w / (x1 * x2)), w1 * (w / (y1 * y2))]
      else [w0 * (w / (x1 * x2)), w1]
    else ws
  | [x1], [x2], [w0] => if x1 ≠ 0 ∧ x2 ≠ 0 then [w0 * (w / (x1 * x2))] else ws
  | _, _, _ => ws

/-- steps/MsReader.cc:971-1009 AutoWeight for one channel: `autoInx a` is the baseline of the auto-correlation of antenna
`a`; `data` are the real parts for each baseline. `none`: undefined, as the data were not read. -/
def autoWeights [Field F] [DecidableEq F] (w : F) (autoInx : Nat → Option Nat) (data : List (List F)) :
    List (Nat × Nat) → List (List F) → Option (List (List F))
  | (p, q) :: bls, ws :: rest =>
    match autoInx p, autoInx q with
    | some i, some j =>
      match data[i]?, data[j]? with
      | some a1, some a2 => (autoWeights w autoInx data bls rest).map fun l => autoWeight w a1 a2 ws :: l
      | _, _ => none
    | _, _ => (autoWeights w autoInx data bls rest).map fun l => ws :: l
  | _, ws => some ws

/-- steps/MsReader.cc:718-724: whether weights are calculated; `none`: an exception. -/
def useAutoWeight (auto force raw : Bool) : Option Bool :=
  if force then some true else if raw = false ∧ auto = true then none else some auto

end DP3.MsOutput
