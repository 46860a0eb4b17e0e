import Verif.Cx.Basic
import Mathlib.Algebra.Field.Basic

/-!
# Predicting from images

Model of the steps `WGridderPredict` and `IDGPredict`, which keep a number of time slots and then predict them all with
a gridder. The gridders are external; they are modelled as functions that give the visibility of an image for the
coordinates of one row, and write it to the given place. Arithmetic is exact.
-/

namespace DP3.ImagePredict

variable {K : Type}

/-! ## Buffers -/

/-- A `DPBuffer` (base/DPBuffer.h:93-302): time, coordinates, data for each baseline, channel and correlation, named
data, and everything that these steps do not use. -/
structure Buf (K : Type) where
  rest : Nat
  time : K
  uvw : Nat → K × K × K
  data : Nat → Nat → Nat → Cx K
  named : String → Option (Nat → Nat → Nat → Cx K)

/-- What the next step sees: `process` and `finish`. -/
inductive Event (K : Type)
  | process (b : Buf K)
  | finish

/-- The calls of a stream, steps/WGridderPredict.cc:246-257 and steps/IDGPredict.cc:237-250: a buffer is kept, and if
there are enough all of them are flushed; `finish` flushes the others and finishes the next step. The result is what the
next step sees. `flush` does nothing without buffers (WGridderPredict.cc:260-262, IDGPredict.cc:253-255). -/
def stream (flush : List (Buf K) → Option (List (Buf K))) (bufferSize : Nat) :
    List (Buf K) → List (Buf K) → Option (List (Event K))
  | kept, [] => do
    let out ← if kept.isEmpty then some [] else flush kept
    pure (out.map Event.process ++ [Event.finish])
  | kept, b :: bs =>
    let kept' := kept ++ [b]
    if kept'.length ≥ bufferSize then do
      let out ← if kept'.isEmpty then some [] else flush kept'
      let rest ← stream flush bufferSize [] bs
      pure (out.map Event.process ++ rest)
    else stream flush bufferSize kept' bs

/-! ## WGridderPredict -/

section WGridder

variable [Field K] [LT K] [DecidableLT K]

/-- Members of `WGridderPredict` and of its `DPInfo`. `degrid` is the gridder: the visibility for a facet and a spectral
term, coordinates and a frequency. -/
structure Wg (K : Type) where
  nBl : Nat
  nCh : Nat
  nTerms : Nat
  freq : Nat → K
  refFreq : K
  labels : List String
  sumFacets : Bool
  degrid : Nat → Nat → K × K × K → K → Cx K

/-- The coordinates that the gridder gets, steps/WGridderPredict.cc:275-285. -/
def swapped (uvw : K × K × K) : K × K × K := (-uvw.2.1, -uvw.1, uvw.2.2)

/-- `decreasing_freq`, steps/WGridderPredict.cc:370-371. -/
def decreasing (c : Wg K) : Bool := decide (c.nCh > 1) && decide (c.freq 1 < c.freq 0)

/-- The place in the frequencies that a channel of the gridder has, steps/WGridderPredict.cc:378-381. -/
def freqIndex (c : Wg K) (ch : Nat) : Int := if decreasing c then (c.nCh : Int) - 1 + ch * (-1) else ch

/-- The place in the visibilities that a row and channel of the gridder have, steps/WGridderPredict.cc:391-398. -/
def visIndex (c : Wg K) (row ch : Nat) : Int :=
  if decreasing c then (c.nCh : Int) - 1 + row * (c.nCh : Int) + ch * (-1) else row * (c.nCh : Int) + ch

/-- The frequency that the gridder reads; not defined outside the vector. -/
def freqAt (c : Wg K) (ch : Nat) : Option K :=
  let i := freqIndex c ch
  if 0 ≤ i ∧ i < c.nCh then some (c.freq i.toNat) else none

/-- The call of `dirty2ms`, steps/WGridderPredict.cc:420-424: each row and channel is written. -/
def dirty2ms (c : Wg K) (dir term nRows : Nat) (uvw : Nat → K × K × K) (mem : Nat → Cx K) : Option (Nat → Cx K) :=
  ((List.range nRows).flatMap fun r => (List.range c.nCh).map fun ch => (r, ch)).foldlM
    (fun mem rc => do
      let f ← freqAt c rc.2
      let i := visIndex c rc.1 rc.2
      if 0 ≤ i ∧ i < nRows * c.nCh then
        pure fun k => if k = i.toNat then c.degrid dir term (uvw rc.1) f else mem k
      else none) mem

/-- The visibilities of all time slots, for each baseline, channel and correlation. -/
abbrev Dest (K : Type) := Nat → Nat → Nat → Nat → Cx K

/-- The loops that add the predicted visibilities, steps/WGridderPredict.cc:427-438. -/
def addVis (c : Wg K) (nTimes : Nat) (mem : Nat → Cx K) (poly : Nat → K) (dest : Dest K) : Dest K := fun t bl ch p =>
  if t < nTimes ∧ bl < c.nBl ∧ ch < c.nCh ∧ (p = 0 ∨ p = 3) then
    dest t bl ch p + mem (t * (c.nBl * c.nCh) + bl * c.nCh + ch) * Cx.ofReal (poly ch)
  else dest t bl ch p

/-- `WGridderPredict::Predict`, steps/WGridderPredict.cc:331-445: the loop over the terms, with the visibilities that
start as arbitrary memory, and the polynomial factors. -/
def predict (c : Wg K) (mem : Nat → Cx K) (dir : Nat) (bufs : List (Buf K)) (dest : Dest K) : Option (Dest K) :=
  let uvw : Nat → K × K × K := fun row => swapped (((bufs[row / c.nBl]?).map fun b => b.uvw (row % c.nBl)).getD (0, 0, 0))
  ((List.range c.nTerms).foldlM (fun (st : Dest K × (Nat → K) × (Nat → Cx K)) term => do
      let mem ← dirty2ms c dir term (bufs.length * c.nBl) uvw st.2.2
      pure (addVis c bufs.length mem st.2.1 st.1, fun ch => st.2.1 ch * (c.freq ch / c.refFreq - 1), mem))
    (dest, fun _ => 1, mem)).map Prod.fst

/-- `WGridderPredict::flush`, steps/WGridderPredict.cc:259-313. Named data that exist already are replaced, as the
assertion of `AddData` (base/DPBuffer.cc:119-123) is not compiled in a release. -/
def wgFlush (c : Wg K) (mem : Nat → Cx K) (bufs : List (Buf K)) : Option (List (Buf K)) :=
  if c.sumFacets then do
    let dest ← (List.range c.labels.length).foldlM (fun dest dir => predict c mem dir bufs dest) (fun _ _ _ _ => 0)
    pure (bufs.mapIdx fun t b => { b with data := dest t })
  else
    (c.labels.zipIdx).foldlM (fun bs ld => do
      let dest ← predict c mem ld.2 bufs (fun _ _ _ _ => 0)
      pure (bs.mapIdx fun t b => { b with named := fun n => if n = ld.1 then some (dest t) else b.named n })) bufs

/-- `WGridderPredict` on a stream. -/
def wgStream (c : Wg K) (mem : Nat → Cx K) (bufferSize : Nat) (bs : List (Buf K)) : Option (List (Event K)) :=
  stream (wgFlush c mem) bufferSize [] bs

end WGridder

/-! ## The place of a facet -/

section Facet

/-- `alignto4`, steps/WGridderPredict.cc:41. -/
def alignto4 (i : Nat) : Nat := ((i + 3) / 4) * 4

/-- The column of the model image that a column of the padded image shows: `Image::Untrim` of aocommon, which is not in
the repository, puts the image in the middle (steps/WGridderPredict.cc:186-196). -/
def untrim (width : Nat) (x : Int) : Int := x - ((alignto4 width - width) / 2 : Nat)

/-- `l_shift`, steps/WGridderPredict.cc:349-352; `offsetX` and `facetWidth` are those of the facet in the padded
image. -/
def lShift [Ring K] (width : Nat) (offsetX : Int) (facetWidth : Nat) (pixel : K) : K :=
  (((width / 2 : Nat) - (offsetX + (facetWidth / 2 : Nat)) : Int) : K) * pixel

/-- `m_shift`, steps/WGridderPredict.cc:353-356. -/
def mShift [Ring K] (height : Nat) (offsetY : Int) (facetHeight : Nat) (pixel : K) : K :=
  ((offsetY + (facetHeight / 2 : Nat) - (height / 2 : Nat) : Int) : K) * pixel

end Facet

/-! ## IDGPredict -/

section Idg

/-- Members of `IDGPredict` and of its `DPInfo`. `degrid` is the degridder: the visibility for a facet, a spectral
term, the time of the aterms, coordinates, a baseline, a channel and a correlation. -/
structure Idg (K : Type) where
  nBl : Nat
  nCh : Nat
  nTerms : Nat
  nDirs : Nat
  freq : Nat → K
  refFreq : K
  degrid : Nat → Nat → K → K × K × K → Nat → Nat → Nat → Cx K

variable [Field K]

/-- `time_centroid`, steps/IDGPredict.cc:532-533. -/
def centroid (bufs : List (Buf K)) : K :=
  ((bufs.head?.map Buf.time).getD 0 + (bufs.getLast?.map Buf.time).getD 0) / 2

/-- The elements that `compute_visibilities` writes for a time slot, from the given pointer: by baseline, channel and
correlation (steps/IDGPredict.cc:505-519). -/
def block (c : Idg K) (dir term : Nat) (bufs : List (Buf K)) (b : Buf K) (i : Nat) : Cx K :=
  c.degrid dir term (centroid bufs) (b.uvw (i / 4 / c.nCh)) (i / 4 / c.nCh) (i / 4 % c.nCh) (i % 4)

/-- `timestep_size`, steps/IDGPredict.cc:469-470: there are four correlations (steps/IDGPredict.cc:179-181). -/
def timestepSize (c : Idg K) : Nat := c.nBl * (c.nCh * 4)

/-- The first term, of which the pointers point to the result, steps/IDGPredict.cc:487-490: an element of a time slot. -/
def firstTerm (c : Idg K) (dir : Nat) (bufs : List (Buf K)) (t i : Nat) : Cx K :=
  ((bufs[t]?).map fun b => block c dir 0 bufs b i).getD 0

/-- The other terms, of which the pointers point to `term_data`, steps/IDGPredict.cc:491-497. -/
def termData (c : Idg K) (dir : Nat) (bufs : List (Buf K)) (i : Nat) : Cx K :=
  let termSize := bufs.length * timestepSize c
  let j := i % termSize
  ((bufs[j / timestepSize c]?).map fun b => block c dir (i / termSize + 1) bufs b (j % timestepSize c)).getD 0

/-- The loop body of CorrectVisibilities for one term, steps/IDGPredict.cc:600-607: four elements are added, and the
pointer of the term is moved. -/
def addTerm (ff : K) (td : Nat → Cx K) (rd : Nat) (st : K × (Nat → Cx K) × List Nat) (ptr : Nat) :
    K × (Nat → Cx K) × List Nat :=
  let pf := st.1 * ff
  (pf, (fun i => if rd ≤ i ∧ i < rd + 4 then st.2.1 i + td (ptr + (i - rd)) * Cx.ofReal pf else st.2.1 i),
    st.2.2 ++ [ptr + 4])

/-- The loop body for one channel, steps/IDGPredict.cc:599-608; not defined if it reads beyond the data of the terms or
writes beyond the result. -/
def sample (c : Idg K) (tdSize : Nat) (td : Nat → Cx K) (st : Nat × (Nat → Cx K) × List Nat) (ch : Nat) :
    Option (Nat × (Nat → Cx K) × List Nat) :=
  if st.1 + 4 ≤ timestepSize c ∧ ∀ p ∈ st.2.2, p + 4 ≤ tdSize then
    let r := st.2.2.foldl (addTerm (c.freq ch / c.refFreq - 1) td st.1) (1, st.2.1, [])
    some (st.1 + 4, r.2.1, r.2.2)
  else none

/-- The channels in the order of the two inner loops, steps/IDGPredict.cc:597-598. -/
def channelOrder (c : Idg K) : List Nat := (List.range c.nBl).flatMap fun _ => List.range c.nCh

/-- `CorrectVisibilities`, steps/IDGPredict.cc:564-612. The pointers of the terms are kept from one time slot to the
next, as the loop has a reference to them. -/
def correct (c : Idg K) (nTimes : Nat) (td : Nat → Cx K) (result : Nat → Nat → Cx K) : Option (Nat → Nat → Cx K) :=
  let termSize := nTimes * timestepSize c
  let ptrs := (List.range (c.nTerms - 1)).map fun k => k * termSize
  ((List.range nTimes).foldlM (fun (st : (Nat → Nat → Cx K) × List Nat) t => do
      let (_, r, ptrs) ← (channelOrder c).foldlM (sample c ((c.nTerms - 1) * termSize) td) (0, st.1 t, st.2)
      pure ((fun t' => if t' = t then r else st.1 t'), ptrs)) (result, ptrs)).map Prod.fst

/-- `IDGPredict::Predict`, steps/IDGPredict.cc:407-426. -/
def idgPredict (c : Idg K) (dir : Nat) (bufs : List (Buf K)) : Option (Nat → Nat → Cx K) :=
  correct c bufs.length (termData c dir bufs) (firstTerm c dir bufs)

/-- `IDGPredict::flush`, steps/IDGPredict.cc:252-277: the predictions of all facets are added and replace the data. -/
def idgFlush (c : Idg K) (bufs : List (Buf K)) : Option (List (Buf K)) := do
  let front ← idgPredict c 0 bufs
  let sum ← ((List.range (c.nDirs - 1)).map (· + 1)).foldlM (fun acc dir => do
    let p ← idgPredict c dir bufs
    pure fun t i => acc t i + p t i) front
  pure (bufs.mapIdx fun t b => { b with data := fun bl ch p => sum t ((bl * c.nCh + ch) * 4 + p) })

/-- `IDGPredict` on a stream. -/
def idgStream (c : Idg K) (bufferSize : Nat) (bs : List (Buf K)) : Option (List (Event K)) :=
  stream (idgFlush c) bufferSize [] bs

/-- `vector::resize` with a value for new elements. -/
def resize (l : List K) (n : Nat) : List K := l.take n ++ List.replicate (n - l.length) 0

/-- The loop body that makes the image for a term of a facet, steps/IDGPredict.cc:335-339; `pixels` are those of the
facet. The result is what `set_image` gets. -/
def fillImage (imageData pixels : List K) : List K :=
  let d := resize imageData (pixels.length * 4)
  pixels ++ d.drop pixels.length

/-- The images of all facets and terms, steps/IDGPredict.cc:306 and 312-346. The vector is not cleared between them. -/
def images : List K → List (List K) → List (List K)
  | _, [] => []
  | d, px :: rest => fillImage d px :: images (fillImage d px) rest

variable [LT K] [DecidableLT K] [LE K] [DecidableLE K]

/-- The loop body of InitializeUVWs, steps/IDGPredict.cc:441-446. -/
def growW (maxBaseline : K) (maxW : K) (uvw : K × K × K) : K :=
  if maxW < uvw.2.2 then
    if uvw.1 * uvw.1 + uvw.2.1 * uvw.2.1 + uvw.2.2 * uvw.2.2 ≤ maxBaseline * maxBaseline then uvw.2.2 else maxW
  else maxW

/-- `max_w_` after InitializeUVWs, steps/IDGPredict.cc:428-460. -/
def initW (maxBaseline maxW : K) (rows : List (K × K × K)) : K :=
  let w := rows.foldl (growW maxBaseline) maxW
  if maxW < w then w * (11 / 10) else w

end Idg

end DP3.ImagePredict
