/-!
# Model of the Filter step

`dp3::steps::Filter` (steps/Filter.cc) removes channels and baselines from the data, and the rows
of removed stations from the subtables of the output measurement set.

Simplifications:

* data, flags, weights and UVW are flat lists in row-major order, as in memory; the complex, float
  and double values are of arbitrary types;
* the start channel and number of channels are given as numbers (parsing them is
  `MsReader::ParseChannelSelection`), and the baseline selection as the matrix that
  `BaselineSelection::apply` gives;
* reading outside of an array is the result `none`;
* additional data columns and the solution of a buffer, which are not copied by the code, are left
  out; timers are left out.
-/

namespace DP3.Filter

/-- The parts of a `DPBuffer` that the step handles: base/DPBuffer.h (`GetTime`, `GetExposure`,
`GetData`, `GetFlags`, `GetWeights`, `GetUvw`, `GetRowNumbers`). -/
structure Buf (T V W U : Type) where
  time : T
  exposure : T
  data : List V
  flags : List Bool
  weights : List W
  uvw : List U
  rows : List Nat
deriving DecidableEq, Repr

/-- The members of a Filter after `updateInfo`, with the input and output shapes of its `DPInfo`:
steps/Filter.h:153-160. -/
structure Conf where
  startChan : Nat
  doSelect : Bool
  /-- `itsSelBL` -/
  selBL : List Nat
  /-- shape of the input buffers -/
  nBlIn : Nat
  nChanIn : Nat
  nCorr : Nat
  /-- `getInfoOut().nbaselines()` and `getInfoOut().nchan()` -/
  nBlOut : Nat
  nChanOut : Nat
deriving DecidableEq, Repr

/-- The loop over the baselines in `Filter::updateInfo`: steps/Filter.cc:91-95; `i` is the loop
index. -/
def selectLoop (selbl : Nat → Nat → Bool) (i : Nat) : List Nat → List Nat → List Nat
  | a :: as, b :: bs =>
    if selbl a b then i :: selectLoop selbl (i + 1) as bs else selectLoop selbl (i + 1) as bs
  | _, _ => []

/-- `itsSelBL` after the baseline selection in `Filter::updateInfo`: steps/Filter.cc:86-95; empty if
there is no selection. -/
def selected (selbl : Option (Nat → Nat → Bool)) (ant1 ant2 : List Nat) : List Nat :=
  match selbl with
  | none => []
  | some m => selectLoop m 0 ant1 ant2

/-- `Filter::updateInfo`: steps/Filter.cc:76-105.  `selbl` is given if the baseline selection has
a selection (`hasSelection()`).  A channel range outside of the axis makes
`DPInfo::SelectChannels` throw. -/
def updateInfo (start nrChan nChanIn nCorr : Nat) (selbl : Option (Nat → Nat → Bool))
    (ant1 ant2 : List Nat) : Option Conf :=
  let selBL := selected selbl ant1 ant2
  let doSelect := decide (start > 0 ∨ nrChan < nChanIn) ||
    (selbl.isSome && decide (selBL.length < ant1.length))
  if start + nrChan > nChanIn then none
  else some
    { startChan := start, doSelect := doSelect, selBL := selBL
      nBlIn := ant1.length, nChanIn := nChanIn, nCorr := nCorr
      nBlOut := if selBL.isEmpty then ant1.length else selBL.length
      nChanOut := nrChan }

/-- `std::copy_n(from + offset, n, to)`: the copied elements, `none` if outside of the array. -/
def copyN {α : Type} (l : List α) (offset n : Nat) : Option (List α) :=
  if offset + n ≤ l.length then some ((l.drop offset).take n) else none

/-- `xt::view(array, all, range(start, start + n), all)` for an array of shape
`nbl * nchan * ncorr`: steps/Filter.cc:151-162. -/
def chanView {α : Type} (l : List α) (nbl nchan ncorr start n : Nat) : Option (List α) :=
  ((List.range nbl).mapM fun b => copyN l ((b * nchan + start) * ncorr) (n * ncorr)).map
    List.flatten

/-- The copying loop for one array: steps/Filter.cc:174-191.  `off` is the offset of the first
channel, `ndfr` and `ndto` are the sizes of a baseline in the input and output. -/
def copyBaselines {α : Type} (l : List α) (off ndfr ndto : Nat) (selBL : List Nat) :
    Option (List α) :=
  (selBL.mapM fun b => copyN l (off + b * ndfr) ndto).map List.flatten

/-- The row numbers of the selected baselines: steps/Filter.cc:169-172, 187-189, 199. -/
def copyRows (rows selBL : List Nat) : Option (List Nat) :=
  if rows.isEmpty then some [] else selBL.mapM fun b => rows[b]?

variable {T V W U : Type}

/-- `Filter::process`: steps/Filter.cc:123-204; the buffer given to the next step. -/
def process (c : Conf) (buf : Buf T V W U) : Option (Buf T V W U) :=
  if !c.doSelect then some buf
  else if c.selBL.isEmpty then do
    let data ← chanView buf.data c.nBlIn c.nChanIn c.nCorr c.startChan c.nChanOut
    let flags ← chanView buf.flags c.nBlIn c.nChanIn c.nCorr c.startChan c.nChanOut
    let weights ← chanView buf.weights c.nBlIn c.nChanIn c.nCorr c.startChan c.nChanOut
    some { time := buf.time, exposure := buf.exposure, data := data, flags := flags
           weights := weights, uvw := buf.uvw, rows := buf.rows }
  else do
    let off := c.nCorr * c.startChan
    let ndfr := c.nCorr * c.nChanIn
    let ndto := c.nCorr * c.nChanOut
    let rows ← copyRows buf.rows c.selBL
    let data ← copyBaselines buf.data off ndfr ndto c.selBL
    let flags ← copyBaselines buf.flags off ndfr ndto c.selBL
    let weights ← copyBaselines buf.weights off ndfr ndto c.selBL
    let uvw ← copyBaselines buf.uvw 0 3 3 c.selBL
    some { time := buf.time, exposure := buf.exposure, data := data, flags := flags
           weights := weights, uvw := uvw, rows := rows }

/-! ## Subtables -/

/-- Subtract `nr` from the elements `a` up to `b`: the loops at steps/Filter.cc:261-263 and
266-269. -/
def subRange (m : List Int) (a b nr : Nat) : List Int :=
  m.mapIdx fun j v => if a ≤ j ∧ j < b then v - nr else v

/-- The loops of `Filter::createIdMap`: steps/Filter.cc:256-269.  `nr` is `nrrem` before the
iteration; the last removed id is followed by the loop over the rest of the map. -/
def idLoop (m : List Int) (nr : Nat) : List Nat → List Int
  | [] => m
  | [r] => subRange (m.set r (-1)) (r + 1) m.length (nr + 1)
  | r :: r' :: rest => idLoop (subRange (m.set r (-1)) (r + 1) r' (nr + 1)) (nr + 1) (r' :: rest)

/-- `Filter::createIdMap`: steps/Filter.cc:250-271.  Without removed ids, or with an id outside of
the table, the code accesses an element outside of an array. -/
def createIdMap (nrId : Nat) (removed : List Nat) : Option (List Int) :=
  if removed = [] ∨ ¬ ∀ r ∈ removed, r < nrId then none
  else some (idLoop ((List.range nrId).map fun (j : Nat) => (j : Int)) 0 removed)

/-- A subtable: the number of the antenna (or antenna field) of each row, and the rest of the
row. -/
abbrev Sub (α : Type) := List (Nat × α)

/-- The row numbers of the rows for which the condition holds: `Table::rowNumbers` of a selection;
`i` is the number of the first row. -/
def rowNumbers {α : Type} (p : α → Bool) (i : Nat) : List α → List Nat
  | [] => []
  | x :: xs => if p x then i :: rowNumbers p (i + 1) xs else rowNumbers p (i + 1) xs

/-- `Table::removeRow`: the table without the rows of the given numbers; `i` is the number of the
first row. -/
def removeRows {α : Type} (removed : List Nat) (i : Nat) : List α → List α
  | [] => []
  | x :: xs => if i ∈ removed then removeRows removed (i + 1) xs
    else x :: removeRows removed (i + 1) xs

/-- `Filter::renumberSubTable`: steps/Filter.cc:273-298 for an existing subtable.  The new
subtable and the numbers of the removed rows; `none` if an id is outside of the map or the
assertion fails. -/
def renumber {α : Type} (tab : Sub α) (removed : List Nat) (idMap : List Int) :
    Option (Sub α × List Nat) :=
  let sel := rowNumbers (fun r => decide (r.1 ∈ removed)) 0 tab
  ((removeRows sel 0 tab).mapM fun (r : Nat × α) =>
    ((idMap[r.1]?).bind Int.toNat?).map fun n => (n, r.2)).map fun t => (t, sel)

/-- A measurement set: the antenna table, the subtables with an antenna number (FEED, POINTING,
SYSCAL), the antenna field table, and the element failure table with its antenna field numbers.
Missing subtables are empty here; `QUALITY_BASELINE_STATISTIC`, which is handled once per antenna
column, is not modelled. -/
structure Ms (A B C D : Type) where
  antenna : List A
  feed : Sub B
  field : Sub C
  failure : Sub D

/-- `Filter::addToMS`: steps/Filter.cc:211-248; `keep` tells whether the name of an antenna is
among the names of the `DPInfo`; FEED stands for the three tables that are treated alike. -/
def addToMS {A B C D : Type} (removeAnt : Bool) (keep : A → Bool) (ms : Ms A B C D) :
    Option (Ms A B C D) :=
  if !removeAnt then some ms
  else
    let removed := rowNumbers (fun a => !keep a) 0 ms.antenna
    if removed.isEmpty then some ms
    else do
      let antMap ← createIdMap ms.antenna.length removed
      let feed ← renumber ms.feed removed antMap
      let field ← renumber ms.field removed antMap
      if field.2.isEmpty then
        some { antenna := removeRows removed 0 ms.antenna, feed := feed.1, field := field.1
               failure := ms.failure }
      else do
        let fieldMap ← createIdMap ms.field.length field.2
        let failure ← renumber ms.failure field.2 fieldMap
        some { antenna := removeRows removed 0 ms.antenna, feed := feed.1, field := field.1
               failure := failure.1 }

end DP3.Filter
