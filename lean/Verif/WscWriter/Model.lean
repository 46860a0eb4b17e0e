import Mathlib.Data.List.Basic

/-!
# Reordered files for WSClean (WSCleanWriter)

Model of `WSCleanWriter::GetBand`, `StartReorder` and `ReorderBuffer` (steps/WSCleanWriter.cc).

Simplifications: the writer of the files is in schaapcommon (a submodule that is not in the
repository). The model gives what the step passes to it: the channel ranges and bands of the parts,
and the rows. Frequencies and visibilities are any type.
-/

namespace DP3.WscWriter

/-- What is used of DPInfo (steps/WSCleanWriter.cc:65, 75-76, 151-152). `chanFreqs` holds the
frequencies of the channels that are selected; `startchan` is the first of them in the input
(base/DPInfo.cc:364-404). -/
structure Info (F : Type) where
  startchan : Nat
  nchan : Nat
  chanFreqs : List F
  ant1 : List Nat
  ant2 : List Nat

/-- `DPInfo::SelectChannels` (base/DPInfo.cc:364-404): the selected frequencies, and the start channel
is added to the start channel that was there; `none` for the exception. -/
def selectChannels {F : Type} (i : Info F) (start n : Nat) : Option (Info F) :=
  if start + n ≤ i.chanFreqs.length then
    some { i with chanFreqs := (i.chanFreqs.drop start).take n, startchan := i.startchan + start,
                  nchan := n }
  else none

/-- `GetBand`: the frequencies from `start` up to `stop`; `none` for a read outside the vector
`chanFreqs`, or of the first element of an empty vector (steps/WSCleanWriter.cc:61-67). -/
def getBand {F : Type} (i : Info F) (start stop : Nat) : Option (List F) :=
  if stop ≤ start then none else
  (List.range (stop - start)).mapM fun k => i.chanFreqs[start + k]?

/-- A part: its channel range and its band (steps/WSCleanWriter.cc:91-95). -/
structure Part (F : Type) where
  start : Nat
  stop : Nat
  band : List F

/-- The loop over the parts and the part after it (steps/WSCleanWriter.cc:87-103), from
`part_start_channel`. -/
def parts {F : Type} (i : Info F) (cpf stop start : Nat) : Option (List (Part F)) :=
  if h : start + cpf < stop ∧ 0 < cpf then do
    let band ← getBand i start (start + cpf)
    let rest ← parts i cpf stop (start + cpf)
    pure (⟨start, start + cpf, band⟩ :: rest)
  else if start < stop then do
    let band ← getBand i start stop
    pure [⟨start, stop, band⟩]
  else some []
termination_by stop - start

/-- `StartReorder`: all parts (steps/WSCleanWriter.cc:72-104). -/
def startReorder {F : Type} (i : Info F) (cpf : Nat) : Option (List (Part F)) :=
  if cpf = 0 then do
    let band ← getBand i i.startchan (i.startchan + i.nchan)
    pure [⟨i.startchan, i.startchan + i.nchan, band⟩]
  else parts i cpf (i.startchan + i.nchan) i.startchan

/-- A row that is written (steps/WSCleanWriter.cc:164-169): the baseline gives the coordinates, data,
flags and weights. -/
structure Row where
  bl : Nat
  ant1 : Nat
  ant2 : Nat
  deriving DecidableEq, Repr

/-- `ReorderBuffer` (steps/WSCleanWriter.cc:141-171); `none` for a read outside the antenna lists. -/
def reorderBuffer {F : Type} (i : Info F) (nBl : Nat) : Option (List Row) :=
  (List.range nBl).foldlM (fun rows bl => do
    let a ← i.ant1[bl]?
    let b ← i.ant2[bl]?
    if a = b then pure rows else pure (rows ++ [⟨bl, a, b⟩])) []

end DP3.WscWriter
