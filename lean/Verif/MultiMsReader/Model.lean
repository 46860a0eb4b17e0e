import Mathlib.Algebra.Field.Defs
import Mathlib.Order.Defs.LinearOrder

/-!
Model of `steps/MultiMsReader.cc`: the channel axis (`FillBands`, `HandleBands`,
`SortBands`) and the joining of one time slot (`process`, `GetWeights`).

Frequencies are elements of an ordered field; `casacore::near(a, b, 1e-5)` is a
parameter.  Cubes are functions of baseline, channel and correlation; elements that
were never written keep the value they had.  `ValidateBands` and the reading of a
single measurement set are not modelled here (see `MsReader`).
-/

namespace DP3.MultiMsReader

/-- A cube indexed by baseline, channel and correlation. -/
abbrev Cube (V : Type) := Nat → Nat → Nat → V

/-- A measurement set that exists: its channels, and the time slot it delivers.
`rows` tells whether that time slot has row numbers, that is, was not inserted. -/
structure Source (F V W : Type) where
  freqs : List F
  widths : List F
  data : Cube V
  flags : Cube Bool
  weights : Cube W
  rows : Bool

/-- The number of channels of a source. -/
def Source.nchan {F V W : Type} (s : Source F V W) : Nat := s.freqs.length

variable {F V W : Type}

/-- `first_`, steps/MultiMsReader.cc:78-80: the index of the first reader that exists. -/
def first (readers : List (Option (Source F V W))) : Nat :=
  readers.findIdx fun r => r.isSome

/-! ### The channel axis -/

/-- `HandleBands`, steps/MultiMsReader.cc:147-170: frequencies and widths. -/
def handleBands (readers : List (Source F V W)) : List F × List F :=
  (readers.flatMap fun r => r.freqs, readers.flatMap fun r => r.widths)

/-- `SortBands`, steps/MultiMsReader.cc:179-202: order on the first frequency. -/
def sortBands [LinearOrder F] [Inhabited F] (readers : List (Source F V W)) :
    List (Source F V W) :=
  readers.mergeSort fun a b => decide (a.freqs.head! ≤ b.freqs.head!)

/-- The channel frequencies of a missing measurement set,
steps/MultiMsReader.cc:247-252: frequencies and the frequency after them. -/
def missingFreqs [Add F] (chanw : F) : Nat → F → List F × F
  | 0, freq => ([], freq)
  | n + 1, freq =>
    let r := missingFreqs chanw n (freq + chanw)
    (freq :: r.1, r.2)

/-- The loop at steps/MultiMsReader.cc:226-254; `none`: an exception. -/
def fillLoop [Field F] [LinearOrder F] [Inhabited F] (near : F → F → Bool) (nfill : Nat) (chanw : F) :
    List (Option (Source F V W)) → F → Option (List F × List F)
  | [], _ => some ([], [])
  | some s :: rest, freq =>
    if s.nchan ≠ nfill then none
    else if s.freqs[0]! < freq ∧ ¬ near s.freqs[0]! freq then none
    else
      (fillLoop near nfill chanw rest (s.freqs[nfill - 1]! + s.widths[nfill - 1]!)).map fun r =>
        (s.freqs.take nfill ++ r.1, s.widths.take nfill ++ r.2)
  | none :: rest, freq =>
    (fillLoop near nfill chanw rest (missingFreqs chanw nfill freq).2).map fun r =>
      ((missingFreqs chanw nfill freq).1 ++ r.1, List.replicate nfill chanw ++ r.2)

/-- `FillBands`, steps/MultiMsReader.cc:204-257, where `src` is the first reader that
exists. -/
def fillBands [Field F] [LinearOrder F] [Inhabited F] (near : F → F → Bool)
    (readers : List (Option (Source F V W))) (src : Source F V W) : Option (List F × List F) :=
  let nfill := src.nchan
  let chanw := src.widths[0]!
  let freq := src.freqs[0]! - ((first readers * nfill : Nat) : F) * chanw
  fillLoop near nfill chanw readers freq

/-- The channel axis of `updateInfo`, steps/MultiMsReader.cc:373-390; `none`: an
exception. -/
def channelAxis [Field F] [LinearOrder F] [Inhabited F] (near : F → F → Bool)
    (readers : List (Option (Source F V W))) : Option (List F × List F) :=
  match readers.find? fun r => r.isSome with
  | some (some src) =>
    if readers.any fun r => r.isNone then fillBands near readers src
    else some (handleBands (readers.filterMap id))
  | _ => none

/-! ### A time slot -/

/-- Assignment to a range of channels,
`xt::view(cube, all, range(first, last), all) = source`. -/
def setRange {X : Type} (cube : Cube X) (first last : Nat) (src : Cube X) : Cube X :=
  fun b c q => if first ≤ c ∧ c < last then src b (c - first) q else cube b c q

/-- The buffer being filled. -/
structure Buffer (V W : Type) where
  data : Cube V
  flags : Cube Bool
  weights : Cube W

/-- The loop at steps/MultiMsReader.cc:294-344 over the readers from channel
`firstChannel`; `none`: the exception at line 305. -/
def joinLoop [Zero V] (nfill : Nat) :
    List (Option (Source F V W)) → Nat → Buffer V W → Option (Buffer V W)
  | [], _, buf => some buf
  | some s :: rest, firstChannel, buf =>
    if s.rows = false then none
    else
      let lastChannel := firstChannel + s.nchan
      joinLoop nfill rest lastChannel
        { buf with
          data := setRange buf.data firstChannel lastChannel s.data
          flags := setRange buf.flags firstChannel lastChannel s.flags }
  | none :: rest, firstChannel, buf =>
    let lastChannel := firstChannel + nfill
    joinLoop nfill rest lastChannel
      { buf with
        data := setRange buf.data firstChannel lastChannel (fun _ _ _ => 0)
        flags := setRange buf.flags firstChannel lastChannel (fun _ _ _ => true) }

/-- `GetWeights`, steps/MultiMsReader.cc:448-464.  The number of channels is taken
from the weights themselves, which have the channels of the source. -/
def weightsLoop [Zero W] (nfill : Nat) :
    List (Option (Source F V W)) → Nat → Buffer V W → Buffer V W
  | [], _, buf => buf
  | some s :: rest, firstChannel, buf =>
    let lastChannel := firstChannel + s.nchan
    weightsLoop nfill rest lastChannel
      { buf with weights := setRange buf.weights firstChannel lastChannel s.weights }
  | none :: rest, firstChannel, buf =>
    let lastChannel := firstChannel + nfill
    weightsLoop nfill rest lastChannel
      { buf with weights := setRange buf.weights firstChannel lastChannel (fun _ _ _ => 0) }

/-- `process`, steps/MultiMsReader.cc:259-355, when all fields are read. -/
def process [Zero V] [Zero W] (nfill : Nat) (readers : List (Option (Source F V W)))
    (buf : Buffer V W) : Option (Buffer V W) :=
  (joinLoop nfill readers 0 buf).map (weightsLoop nfill readers 0)

end DP3.MultiMsReader
