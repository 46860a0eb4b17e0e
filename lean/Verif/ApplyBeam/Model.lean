import Verif.Cx.Basic
import Mathlib.Algebra.Order.Field.Basic

/-!
# Correcting for the beam

Model of `ApplyBeam` and of its free functions (steps/ApplyBeam.cc), of `SetBeam` (steps/SetBeam.cc) and of
`SelectStationIndices` (base/Telescope.cc). The response of the telescope, from the EveryBeam library and for the
time of the buffer, is a parameter. Numbers are exact, and a beam value that is not finite is `none`. Weights are
in the topic ApplyCal, of which `ApplyWeights` is used. Not modelled: reading directions from strings, the
conversion of directions to the ITRF frame (a part of the response here), the element model and the timers.
-/

namespace DP3.ApplyBeam

/-- The modes of the beam (`everybeam::BeamMode`, the cases of ApplyBeam.cc:114-167). -/
inductive Mode where
  | full
  | element
  | arrayFactor
  | none
  deriving DecidableEq, Repr

/-- The vector that `MDirection::getValue().getValue()` gives, with three elements (ApplyBeam.cc:460-461). -/
structure Dir (K : Type) where
  x : K
  y : K
  z : K
  deriving DecidableEq, Repr

/-- The telescope: `IsHomogeneous` and the names of its stations (Telescope.cc:21 and 36-38). -/
structure Telescope where
  homogeneous : Bool
  names : List String
  deriving DecidableEq, Repr

/-! ## Stations -/

/-- The loop over the stations of the telescope, from station `i`: the indices found, and the names that are left
(Telescope.cc:35-42). -/
def matchFrom : Nat → List String → List String → List Nat × List String
  | _, [], rest => ([], rest)
  | i, _ :: ts, [] => matchFrom (i + 1) ts []
  | i, t :: ts, n :: ns =>
    if t = n then (i :: (matchFrom (i + 1) ts ns).1, (matchFrom (i + 1) ts ns).2)
    else matchFrom (i + 1) ts (n :: ns)

/-- `SelectStationIndices`, Telescope.cc:17-49; nothing for the exception. -/
def selectStations (t : Telescope) (names : List String) : Option (List Nat) :=
  if t.homogeneous then some [0]
  else if (matchFrom 0 t.names names).2 = [] then some (matchFrom 0 t.names names).1 else none

/-- The indices of the skipped stations, ApplyBeam.cc:336-345. -/
def skipIndices (t : Telescope) : List String → Option (List Nat)
  | [] => some []
  | n :: ns => do
    let s ← selectStations t [n]
    let i ← s[0]?
    let rest ← skipIndices t ns
    return i :: rest

section Beam
variable {K : Type} [Field K] [LinearOrder K]

/-- The response of station, channel and direction, in a mode (`PointResponse::Response`, ApplyBeam.cc:124-126 and
145-147). -/
abbrev Response (K : Type) := Mode → Nat → Nat → Dir K → M2 K

/-- `1.0 / x`, ApplyBeam.cc:153 and 491; nothing if that is not finite. -/
def recip (x : Cx K) : Option (Cx K) := if x = 0 then none else some (Cx.div 1 x)

/-- The beam value of the station at position `st` of the list of stations, ApplyBeam.cc:114-167. -/
def stationBeam (r : Response K) (dir : Dir K) (invert : Bool) (mode : Mode) (stations skip : List Nat)
    (st ch : Nat) : Option (M2 K) :=
  match mode with
  | .none => some 1
  | .arrayFactor =>
    if st ∈ skip then some 1
    else do
      let s ← stations[st]?
      let v := r .arrayFactor s ch dir
      if invert then
        let a ← recip v.a
        let d ← recip v.d
        return ⟨a, 0, 0, d⟩
      else return v
  | m =>
    if st ∈ skip then some 1
    else do
      let s ← stations[st]?
      let v := r m s ch dir
      if invert then v.inv else return v

/-- `ComputeBeam`, ApplyBeam.cc:96-169: the values with `n_channels * st + ch` as index; nothing beyond the last
station, where nothing is filled in. -/
def computeBeam (r : Response K) (dir : Dir K) (invert : Bool) (mode : Mode) (stations skip : List Nat)
    (nChan i : Nat) : Option (M2 K) :=
  if i < stations.length * nChan then stationBeam r dir invert mode stations skip (i / nChan) (i % nChan) else none

/-- The data of all baselines and channels; `none` for values that are not finite. -/
abbrev Data (K : Type) := Nat → Nat → Option (M2 K)

/-- The baselines, ApplyBeam.cc:63-74. -/
structure Baselines where
  nBl : Nat
  ant1 : Nat → Nat
  ant2 : Nat → Nat
  nChan : Nat

/-- The index of the first channel of a station, ApplyBeam.cc:72-74. -/
def beamIndex (nStations nChan ant : Nat) : Nat := if nStations = 1 then 0 else nChan * ant

/-- `ApplyBeamToData`, ApplyBeam.cc:56-89, for the data. -/
def applyBeamToData (b : Baselines) (nStations : Nat) (beam : Nat → Option (M2 K)) (data : Data K) : Data K :=
  fun bl ch => do
    let m ← data bl ch
    let left ← beam (beamIndex nStations b.nChan (b.ant1 bl) + ch)
    let right ← beam (beamIndex nStations b.nChan (b.ant2 bl) + ch)
    return left * (m * right.herm)

/-- `ApplyBeamToDataAndAdd`, ApplyBeam.cc:171-206. -/
def applyBeamToDataAndAdd (b : Baselines) (nStations : Nat) (beam : Nat → Option (M2 K)) (data model : Data K) :
    Data K :=
  fun bl ch => do
    let m ← data bl ch
    let old ← model bl ch
    let left ← beam (beamIndex nStations b.nChan (b.ant1 bl) + ch)
    let right ← beam (beamIndex nStations b.nChan (b.ant2 bl) + ch)
    return old + left * (m * right.herm)

/-- The value of a station in `ComputeArrayFactor`, ApplyBeam.cc:480-493. -/
def stationArrayFactor (r : Response K) (dir : Dir K) (invert : Bool) (stations skip : List Nat) (st ch : Nat) :
    Option (Cx K) :=
  if st ∈ skip then some 1
  else do
    let s ← stations[st]?
    let v := (r .arrayFactor s ch dir).a
    if invert then recip v else return v

/-- `ComputeArrayFactor`, ApplyBeam.cc:469-497. -/
def computeArrayFactor (r : Response K) (dir : Dir K) (invert : Bool) (stations skip : List Nat) (nChan i : Nat) :
    Option (Cx K) :=
  if i < stations.length * nChan then stationArrayFactor r dir invert stations skip (i / nChan) (i % nChan) else none

/-- `ApplyArrayFactorAndAdd`, ApplyBeam.cc:499-527. -/
def applyArrayFactorAndAdd (b : Baselines) (nStations : Nat) (beam : Nat → Option (Cx K))
    (data model : Nat → Nat → Option (Cx K)) : Nat → Nat → Option (Cx K) :=
  fun bl ch => do
    let m ← data bl ch
    let old ← model bl ch
    let left ← beam (beamIndex nStations b.nChan (b.ant1 bl) + ch)
    let right ← beam (beamIndex nStations b.nChan (b.ant2 bl) + ch)
    return old + left * m * right.conj

/-! ## The step -/

/-- What does not change between steps: telescope, antennas of the data, baselines, response. -/
structure Env (K : Type) where
  tel : Telescope
  antennas : List String
  bls : Baselines
  resp : Response K

/-- Settings of a step, ApplyBeam.cc:208-238. Direction is that of lines 252-271. -/
structure Cfg (K : Type) where
  invert : Bool
  mode : Mode
  dir : Dir K
  skip : List String
  useModel : Bool

/-- The correction that is in the info of a step (`beamCorrectionMode`, `beamCorrectionDir`), and the buffer with
data and model data with their directions (`GetDirections`). -/
structure St (K : Type) where
  mode : Mode
  dir : Dir K
  data : Data K
  models : List (Dir K × Data K)

/-- The comparison of directions, ApplyBeam.cc:292-300. -/
def sameDir (d e : Dir K) : Bool := !(decide (1 / 1000000000 < |d.x - e.x|) || decide (1 / 1000000000 < |d.y - e.y|))

/-- The part of `updateInfo` on the correction of the data, ApplyBeam.cc:273-310: the new mode and direction. -/
def updateCorrection (c : Cfg K) (mode : Mode) (dir : Dir K) : Option (Mode × Dir K) :=
  if c.invert then some (c.mode, c.dir)
  else if !c.useModel then
    if mode = .none then none
    else if mode ≠ c.mode then none
    else if sameDir dir c.dir then some (.none, dir)
    else none
  else some (mode, dir)

/-- One beam on data: ComputeBeam and ApplyBeamToData, as at ApplyBeam.cc:446-450. -/
def oneBeam (e : Env K) (dir : Dir K) (invert : Bool) (mode : Mode) (stations skip : List Nat) (data : Data K) :
    Data K :=
  applyBeamToData e.bls stations.length (computeBeam e.resp dir invert mode stations skip e.bls.nChan) data

/-- `ProcessData`, ApplyBeam.cc:415-455, with the correction at the start of the step. -/
def processData (e : Env K) (c : Cfg K) (mode : Mode) (dir : Dir K) (stations skip : List Nat) (data : Data K) :
    Data K :=
  oneBeam e c.dir c.invert c.mode stations skip
    (if c.invert && decide (mode ≠ .none) then oneBeam e dir false mode stations skip data else data)

/-- `ProcessModelData`, ApplyBeam.cc:381-413. -/
def processModelData (e : Env K) (c : Cfg K) (stations skip : List Nat) (models : List (Dir K × Data K)) :
    List (Dir K × Data K) :=
  models.map fun m => (m.1, oneBeam e m.1 c.invert c.mode stations skip m.2)

/-- A step: `updateInfo` and `process`, ApplyBeam.cc:240-346 and ApplyBeam.h:106-112. Nothing for an exception. -/
def step (e : Env K) (c : Cfg K) (s : St K) : Option (St K) := do
  if c.useModel && s.models.isEmpty then none
  else
    let (mode, dir) ← updateCorrection c s.mode s.dir
    let stations ← selectStations e.tel e.antennas
    let skip ← skipIndices e.tel c.skip
    if c.useModel then return { s with mode := mode, dir := dir, models := processModelData e c stations skip s.models }
    else return { s with mode := mode, dir := dir, data := processData e c s.mode s.dir stations skip s.data }

/-- `SetBeam`, SetBeam.cc:28-65. -/
def setBeam (mode : Mode) (dir : Dir K) (s : St K) : St K := { s with mode := mode, dir := dir }

/-- A list of steps. -/
def run (e : Env K) : List (Cfg K) → St K → Option (St K)
  | [], s => some s
  | c :: cs, s => (step e c s).bind (run e cs)

end Beam

end DP3.ApplyBeam
