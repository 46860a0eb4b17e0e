/-!
Model of `steps/MSBDAWriter.cc` and `steps/MSBDAReader.cc`: writing baseline
dependently averaged (BDA) rows to a measurement set and reading them back.

* Times, frequencies and widths are rational numbers (the code uses `double`).
* A row of a `BdaBuffer` carries its own visibilities, flags and weights; the
  pools behind these and the offsets into them are modelled in
  `Verif.BdaBuffer.Model`.
* All fields are read, as happens when a writer follows (`getRequiredFields`,
  steps/MSBDAWriter.h:28-30).
* Not modelled: the antenna, field and observation subtables, the storage
  managers, and the history.  A row of the main table that was added but not
  filled is `none`; reading it is an error.
-/

namespace DP3.BdaMs

/-- A thrown exception, or undefined behaviour. -/
inductive Err where
  | thrown | ub
  deriving DecidableEq, Repr

/-- The members of `DPInfo` that the reader and the writer use,
base/DPInfo.h:334-390. -/
structure Info where
  nCorr : Nat
  nChan : Nat
  ant1 : List Nat
  ant2 : List Nat
  timeAvgs : List Nat
  freqs : List (List Rat)
  widths : List (List Rat)
  resolutions : List (List Rat)
  effectiveBw : List (List Rat)
  refFreq : Rat
  totalBw : Rat
  spectralWindow : Nat
  firstTime : Rat
  lastTime : Rat
  timeInterval : Rat
  nTimes : Nat
  deriving DecidableEq, Repr

/-- `nbaselines`, base/DPInfo.h:177. -/
def Info.nBaselines (info : Info) : Nat := info.ant1.length

/-- A row of a `BdaBuffer` with its values, base/BdaBuffer.h:27-42. -/
structure Row (V W U : Type) where
  time : Rat
  interval : Rat
  exposure : Rat
  rowNr : Nat
  baseline : Nat
  nChannels : Nat
  nCorrelations : Nat
  uvw : U
  data : List V
  flags : List Bool
  weights : List W
  deriving DecidableEq, Repr

/-- A row of the main table, as filled at steps/MSBDAWriter.cc:122-146. -/
structure MainRow (V W U : Type) where
  time : Rat
  timeCentroid : Rat
  interval : Rat
  exposure : Rat
  ant1 : Nat
  ant2 : Nat
  nCorr : Nat
  nChan : Nat
  data : List V
  weights : List W
  flags : List Bool
  flagRow : Bool
  uvw : U
  descId : Nat
  deriving DecidableEq, Repr

/-- A row of the `SPECTRAL_WINDOW` table, as filled at
steps/MSBDAWriter.cc:446-456.  A frequency reference that was never assigned is
`none`. -/
structure SpwRow where
  freqs : List Rat
  widths : List Rat
  effectiveBw : List Rat
  measFreqRef : Option Int
  name : String
  numChan : Nat
  refFreq : Rat
  resolution : List Rat
  totalBw : Rat
  deriving DecidableEq, Repr

/-- A row of the `BDA_FACTORS` table, as filled at
steps/MSBDAWriter.cc:349-353. -/
structure FactorRow where
  ant1 : Nat
  ant2 : Nat
  factor : Nat
  spwId : Nat
  deriving DecidableEq, Repr

/-- The row of the `BDA_TIME_AXIS` table, as filled at
steps/MSBDAWriter.cc:364-381. -/
structure AxisRow where
  maxInterval : Rat
  minInterval : Rat
  unitInterval : Rat
  intervalFactors : Bool
  deriving DecidableEq, Repr

/-- The measurement set: the main table and the subtables that describe the
averaging.  `dataDesc` has the spectral window of each data description. -/
structure Ms (V W U : Type) where
  main : List (Option (MainRow V W U))
  spw : List SpwRow
  dataDesc : List Nat
  factors : List FactorRow
  axis : List AxisRow
  deriving DecidableEq, Repr

/-- A writer that has prepared its output: the members at
steps/MSBDAWriter.h:84-85 and the info. -/
structure Writer (V W U : Type) where
  info : Info
  descIds : List (Nat × Nat)
  ms : Ms V W U
  deriving DecidableEq, Repr

variable {V W U : Type}

/-! ### Writing the subtables -/

/-- `TableCopy::copySubTables` for one table, in `CreateMainTable`
steps/MSBDAWriter.cc:228-240: a subtable that is omitted stays as
`createDefaultSubtables` made it, without rows. -/
def copySubTable {R : Type} (original : List R) (omitted : Bool) : List R :=
  if omitted then [] else original

/-- The search for the frequency reference and the name of the band in the rows
that are removed, steps/MSBDAWriter.cc:388-410.  Both keep their first value,
which for `measFreqRef` is indeterminate, if the band is not among the rows. -/
def oldWindow (spw : List SpwRow) (band : Nat) : Option Int × String :=
  match spw[band]? with
  | some s => (s.measFreqRef, s.name)
  | none => (none, "")

/-- The loop body of `OverwriteSubTables`, steps/MSBDAWriter.cc:434-459: a new
window and data description for every number of channels not seen before. -/
def addWindow (info : Info) (old : Option Int × String)
    (state : List (Nat × Nat) × List SpwRow × List Nat) (i : Nat) :
    Except Err (List (Nat × Nat) × List SpwRow × List Nat) :=
  match info.freqs[i]? with
  | none => .error .ub
  | some freqs =>
    if (state.1.lookup freqs.length).isSome then .ok state
    else match info.widths[i]?, info.effectiveBw[i]?, info.resolutions[i]? with
      | some widths, some bw, some resolution =>
        .ok (state.1 ++ [(freqs.length, state.2.2.length)],
          state.2.1 ++ [⟨freqs, widths, bw, old.1, old.2, freqs.length, info.refFreq, resolution,
            info.totalBw⟩],
          state.2.2 ++ [state.2.2.length])
      | _, _, _ => .error .ub

/-- `OverwriteSubTables`, steps/MSBDAWriter.cc:384-460, from the tables that are
present in the output to the map of channel counts and the new tables. -/
def overwriteSubTables (info : Info) (spw : List SpwRow) (dataDesc : List Nat) :
    Except Err (List (Nat × Nat) × List SpwRow × List Nat) :=
  if spw.length ≠ dataDesc.length then .error .thrown
  else (List.range info.nBaselines).foldlM (addWindow info (oldWindow spw info.spectralWindow))
    ([], [], [])

/-- One row of `WriteTimeFactorRows`, steps/MSBDAWriter.cc:341-354. -/
def factorRow (info : Info) (descIds : List (Nat × Nat)) (i : Nat) : Except Err FactorRow :=
  match info.freqs[i]?, info.timeAvgs[i]?, info.ant1[i]?, info.ant2[i]? with
  | some freqs, some factor, some a1, some a2 =>
    .ok ⟨a1, a2, factor, (descIds.lookup freqs.length).getD 0⟩
  | _, _, _, _ => .error .ub

/-- The smallest factor found, starting from 65535,
steps/MSBDAWriter.cc:319, 346. -/
def minFactor (factors : List FactorRow) : Nat := factors.foldl (fun m f => min m f.factor) 65535

/-- The largest factor found, starting from 1, steps/MSBDAWriter.cc:320, 347. -/
def maxFactor (factors : List FactorRow) : Nat := factors.foldl (fun m f => max m f.factor) 1

/-- `WriteTimeAxisRow`, steps/MSBDAWriter.cc:357-382. -/
def axisRow (info : Info) (factors : List FactorRow) : AxisRow where
  maxInterval := maxFactor factors * info.timeInterval
  minInterval := minFactor factors * info.timeInterval
  unitInterval := info.timeInterval
  intervalFactors := true

/-- `updateInfo` with `CreateMS` and `WriteMetaData`,
steps/MSBDAWriter.cc:73-86, 179-185, 317-325.  `spw` and `dataDesc` are the
tables of the input; these two are among the omitted subtables
(steps/MSBDAWriter.cc:237-238). -/
def openWriter (info : Info) (spw : List SpwRow) (dataDesc : List Nat) :
    Except Err (Writer V W U) :=
  if info.timeAvgs.length ≠ info.nBaselines then .error .thrown
  else match overwriteSubTables info (copySubTable spw true) (copySubTable dataDesc true) with
    | .error e => .error e
    | .ok (descIds, newSpw, newDesc) =>
      match (List.range info.nBaselines).mapM (factorRow info descIds) with
      | .error e => .error e
      | .ok factors =>
        .ok ⟨info, descIds, ⟨[], newSpw, newDesc, factors, [axisRow info factors]⟩⟩

/-! ### Writing rows -/

/-- The cells of one row, steps/MSBDAWriter.cc:117-146.  The shape of the arrays
comes from the info, not from the row; reading more values than the row has is
undefined behaviour here. -/
def rowCells (info : Info) (descIds : List (Nat × Nat)) (r : Row V W U) :
    Except Err (MainRow V W U) :=
  match info.ant1[r.baseline]?, info.ant2[r.baseline]?, info.freqs[r.baseline]? with
  | some a1, some a2, some freqs =>
    let n := info.nCorr * freqs.length
    if r.data.length < n ∨ r.weights.length < n ∨ r.flags.length < n ∨
        r.flags.length < r.nChannels * r.nCorrelations then .error .ub
    else .ok
      { time := r.time, timeCentroid := r.time, interval := r.interval, exposure := r.exposure,
        ant1 := a1, ant2 := a2, nCorr := info.nCorr, nChan := freqs.length,
        data := r.data.take n, weights := r.weights.take n, flags := r.flags.take n,
        flagRow := (r.flags.take (r.nChannels * r.nCorrelations)).all id,
        uvw := r.uvw, descId := (descIds.lookup freqs.length).getD 0 }
  | _, _, _ => .error .ub

/-- The loop body of `process`, steps/MSBDAWriter.cc:116-149.  Writing to a row
that the table does not have throws an exception in casacore. -/
def putRow (w : Writer V W U) (r : Row V W U) : Except Err (Writer V W U) :=
  match rowCells w.info w.descIds r with
  | .error e => .error e
  | .ok cells =>
    if r.rowNr < w.ms.main.length then
      .ok { w with ms := { w.ms with main := w.ms.main.set r.rowNr (some cells) } }
    else .error .thrown

/-- `process` of the writer, steps/MSBDAWriter.cc:88-155, without the assertion
at line 89. -/
def writeBuffer (w : Writer V W U) (rows : List (Row V W U)) : Except Err (Writer V W U) :=
  rows.foldlM putRow
    { w with ms := { w.ms with main := w.ms.main ++ List.replicate rows.length none } }

/-- All calls of `process` of the writer. -/
def writeBuffers (w : Writer V W U) (buffers : List (List (Row V W U))) :
    Except Err (Writer V W U) :=
  buffers.foldlM writeBuffer w

/-! ### Reading -/

/-- A reader that has read the subtables: the members at
steps/MSBDAReader.cc:64-70 and the info. -/
structure Reader where
  info : Info
  descToChan : List (Nat × Nat)
  blToId : List ((Nat × Nat) × Nat)
  lastTime : Rat
  lastInterval : Rat
  nread : Nat
  deriving DecidableEq, Repr

/-- `std::max_element` with the comparison of sizes, base/DPInfo.cc:184-188: the
first of the longest lists. -/
def longest : List (List Rat) → List Rat
  | [] => []
  | l :: ls => ls.foldl (fun best x => if best.length < x.length then x else best) l

/-- `DPInfo::setTimes`, base/DPInfo.cc:62-81. -/
def setTimes (info : Info) (first last interval : Rat) : Except Err Info :=
  if last < first then .error .thrown
  else if interval ≤ 0 then .error .thrown
  else .ok { info with
    firstTime := first, lastTime := last, timeInterval := interval,
    nTimes := ((last - first) / interval + 3 / 2).floor.toNat }

/-- `DPInfo::setChannels` for BDA with only frequencies and widths,
base/DPInfo.cc:138-203. -/
def setChannels (info : Info) (freqs widths : List (List Rat)) : Except Err Info :=
  if freqs.length ≠ info.nBaselines ∨ widths.length ≠ info.nBaselines then .error .thrown
  else if (freqs.zip widths).any fun p => p.1.length != p.2.length then .error .thrown
  else match widths with
    | [] => .error .ub
    | front :: _ =>
      if widths.any fun w => w.sum != front.sum then .error .thrown
      else
        let most := longest freqs
        match most[(most.length - 1) / 2]?, most[most.length / 2]? with
        | some low, some high =>
          .ok { info with
            nChan := most.length, freqs := freqs, widths := widths, resolutions := widths,
            effectiveBw := widths, refFreq := (low + high) / 2, totalBw := front.sum,
            spectralWindow := 0 }
        | _, _ => .error .ub

/-- The spectral window of a row of `BDA_FACTORS`, steps/MSBDAReader.cc:211-214. -/
def windowOf (spw : List SpwRow) (f : FactorRow) : Except Err SpwRow :=
  match spw[f.spwId]? with
  | some s => .ok s
  | none => .error .thrown

/-- All rows of the main table, if none of them lacks its cells. -/
def definedRows (ms : Ms V W U) : Except Err (List (MainRow V W U)) :=
  ms.main.mapM fun r => match r with
    | some r => .ok r
    | none => .error .thrown

/-- The smallest value, `gmin` in the query at steps/MSBDAReader.cc:243-249. -/
def smallest : List Rat → Rat
  | [] => 0
  | x :: xs => xs.foldl min x

/-- The largest value, `gmax` in the query at steps/MSBDAReader.cc:243-249. -/
def largest : List Rat → Rat
  | [] => 0
  | x :: xs => xs.foldl max x

/-- `updateInfo` of the reader, steps/MSBDAReader.cc:182-322, and the
constructor.  The maps are lists in which the last assignment comes first. -/
def openReader (ms : Ms V W U) : Except Err Reader :=
  match definedRows ms with
  | .error e => .error e
  | .ok rows =>
    match rows, ms.axis, ms.factors.mapM (windowOf ms.spw) with
    | first :: _, axis :: _, .ok windows =>
      let freqs := windows.map SpwRow.freqs
      let widths := windows.map SpwRow.widths
      let empty : Info := ⟨first.nCorr, 0, ms.factors.map FactorRow.ant1,
        ms.factors.map FactorRow.ant2, ms.factors.map FactorRow.factor, [], [], [], [], 0, 0, 0,
        0, 0, 1, 1⟩
      match setTimes empty (smallest (rows.map MainRow.timeCentroid))
          (largest (rows.map MainRow.timeCentroid)) axis.unitInterval with
      | .error e => .error e
      | .ok info =>
        match setChannels info freqs widths with
        | .error e => .error e
        | .ok info =>
          .ok
            { info := info
              descToChan :=
                ((ms.factors.zip windows).map fun p => (p.1.spwId, p.2.freqs.length)).reverse
              blToId :=
                (ms.factors.zipIdx.map fun p => ((p.1.ant1, p.1.ant2), p.2)).reverse
              lastTime := 0
              lastInterval := 0
              nread := 0 }
    | _, _, _ => .error .thrown

/-- The check for a row that ends before the previous row,
steps/MSBDAReader.cc:142-143. -/
def tooEarly (rd : Reader) (time interval : Rat) : Bool :=
  decide (time + interval / 2 < rd.lastTime + rd.lastInterval / 2 - 1 / 1000)

/-- The arguments of `AddRow` for a row of the main table,
steps/MSBDAReader.cc:152-165.  `operator[]` on a map gives zero for a new key.
The flags are a null pointer, for which `AddRow` stores `false`
(base/BdaBuffer.cc:134-138). -/
def rowOf (rd : Reader) (m : MainRow V W U) : Except Err (Row V W U) :=
  let nChannels := (rd.descToChan.lookup m.descId).getD 0
  let n := nChannels * rd.info.nCorr
  if m.data.length < n ∨ m.weights.length < n then .error .ub
  else .ok
    { time := m.time, interval := m.interval, exposure := m.exposure, rowNr := rd.nread,
      baseline := (rd.blToId.lookup (m.ant1, m.ant2)).getD 0, nChannels := nChannels,
      nCorrelations := rd.info.nCorr, uvw := m.uvw, data := m.data.take n,
      flags := List.replicate n false, weights := m.weights.take n }

/-- A `BdaBuffer` being filled: its rows and remaining capacity. -/
structure Buf (V W U : Type) where
  rows : List (Row V W U)
  remaining : Nat

/-- `kTimeTolerance` and `TimeIsLessEqual` in the ordering check of `AddRow`,
base/BdaBuffer.cc:108-112, base/BdaBuffer.h:212-214, 227. -/
def misordered (rows : List (Row V W U)) (r : Row V W U) : Bool :=
  match rows.getLast? with
  | none => false
  | some l => decide (r.time + r.interval / 2 < l.time - l.interval / 2 + 2 / 1000000)

/-- `AddRow`, base/BdaBuffer.cc:102-156.  The caller ignores the result when
assertions are off, so a row that does not fit is lost. -/
def Buf.addRow (b : Buf V W U) (r : Row V W U) : Except Err (Buf V W U) :=
  if misordered b.rows r then .error .thrown
  else if b.remaining < r.nChannels * r.nCorrelations then .ok b
  else .ok ⟨b.rows ++ [r], b.remaining - r.nChannels * r.nCorrelations⟩

/-- The loop of `process`, steps/MSBDAReader.cc:137-172.  The first argument is
`nbaselines() - i`. -/
def readLoop (main : List (MainRow V W U)) : Nat → Reader → Buf V W U →
    Except Err (Reader × Buf V W U)
  | 0, rd, b => .ok (rd, b)
  | n + 1, rd, b =>
    match main[rd.nread]? with
    | none => .ok (rd, b)
    | some m =>
      if tooEarly rd m.time m.interval then
        readLoop main n { rd with nread := rd.nread + 1 } b
      else match rowOf rd m with
        | .error e => .error e
        | .ok r => match b.addRow r with
          | .error e => .error e
          | .ok b' =>
            readLoop main n
              { rd with lastTime := m.time, lastInterval := m.interval, nread := rd.nread + 1 } b'

/-- `process` of the reader, steps/MSBDAReader.cc:109-178: the new state and the
rows that the next step gets. -/
def readBuffer (main : List (MainRow V W U)) (rd : Reader) :
    Except Err (Reader × List (Row V W U)) :=
  if main.length ≤ rd.nread then .error .thrown
  else match readLoop main rd.info.nBaselines rd
      ⟨[], rd.info.nBaselines * rd.info.nChan * rd.info.nCorr⟩ with
    | .error e => .error e
    | .ok (rd', b) => .ok (rd', b.rows)

/-- Calling `process` until it returns false, base/DP3.cc:387-394.  `fuel` bounds
the number of calls. -/
def readBuffers (main : List (MainRow V W U)) : Nat → Reader →
    Except Err (List (List (Row V W U)))
  | 0, _ => .ok []
  | fuel + 1, rd =>
    match readBuffer main rd with
    | .error e => .error e
    | .ok (rd', rows) =>
      if rd'.nread < main.length then
        match readBuffers main fuel rd' with
        | .error e => .error e
        | .ok rest => .ok (rows :: rest)
      else .ok [rows]

/-- A run that reads a measurement set: the info and the buffers. -/
def readMs (ms : Ms V W U) : Except Err (Info × List (List (Row V W U))) :=
  match openReader ms, definedRows ms with
  | .ok rd, .ok main =>
    match readBuffers main main.length rd with
    | .ok buffers => .ok (rd.info, buffers)
    | .error e => .error e
  | .error e, _ => .error e
  | _, .error e => .error e

/-- A run that writes a measurement set. -/
def writeMs (info : Info) (spw : List SpwRow) (dataDesc : List Nat)
    (buffers : List (List (Row V W U))) : Except Err (Ms V W U) :=
  match openWriter info spw dataDesc with
  | .error e => .error e
  | .ok w => match writeBuffers w buffers with
    | .error e => .error e
    | .ok w' => .ok w'.ms

/-- A run with a reader and a writer only: copying a measurement set. -/
def copyMs (ms : Ms V W U) : Except Err (Ms V W U) :=
  match readMs ms with
  | .error e => .error e
  | .ok (info, buffers) => writeMs info ms.spw ms.dataDesc buffers

end DP3.BdaMs
