import Verif.Cx.Basic
import Verif.StringTools.Model

/-!
# Adding superstations

Model of steps/StationAdder.cc: the selection of stations, the new baselines, and the data of the new baselines.

Simplified: names are lists of characters and the match of a name with a pattern (`std::regex`) is a parameter;
positions are points of a vector space and not casacore measures (MPosition::Convert is left out); floats are
elements of a field, and a value that is not finite is `none`.
-/

namespace DP3.StationAdder

open DP3.StringTools

/-! ## Stations -/

/-- SetUsed in GetMatchingStations, StationAdder.cc:66-74. -/
def setUsed (matched : List Char → Bool) (value : Bool) (names : List (List Char)) (used : List Bool) : List Bool :=
  List.zipWith (fun n u => if matched n then value else u) names used

/-- A pattern with `!` or `^` in front, with more behind it, removes: StationAdder.cc:75-79. -/
def splitPattern (pattern : List Char) : Bool × List Char :=
  match pattern with
  | c :: d :: rest => if c = '!' ∨ c = '^' then (false, d :: rest) else (true, c :: d :: rest)
  | p => (true, p)

/-- The numbers of the elements that are set, StationAdder.cc:86-92. -/
def indices (used : List Bool) : List Nat := (List.range used.length).filter fun i => used.getD i false

/-- One pattern, StationAdder.cc:64-85. -/
def usePattern (isMatch : List Char → List Char → Bool) (names : List (List Char)) (used : List Bool)
    (pattern : List Char) : List Bool :=
  setUsed (isMatch (splitPattern pattern).2) (splitPattern pattern).1 names used

/-- GetMatchingStations, StationAdder.cc:60-94. -/
def getMatching (isMatch : List Char → List Char → Bool) (names patterns : List (List Char)) : List Nat :=
  indices (patterns.foldl (usePattern isMatch names) (names.map fun _ => false))

/-- What the loop over the superstations has made: `newStations`, `newNames` and `itsParts`. -/
structure Stations where
  usedIn : Nat → Option Nat
  names : List (List Char)
  parts : List (List Nat)

/-- The stations of a new superstation are marked, StationAdder.cc:131-139. -/
def markParts (number : Nat) : List Nat → (Nat → Option Nat) → Except Err (Nat → Option Nat)
  | [], usedIn => .ok usedIn
  | i :: parts, usedIn =>
    match usedIn i with
    | some _ => .error .throws
    | none => markParts number parts fun x => if x = i then some number else usedIn x

/-- One superstation of the record, StationAdder.cc:112-144. -/
def addStation (isMatch : List Char → List Char → Bool) (antennas : List (List Char)) (st : Stations)
    (station : List Char × List (List Char)) : Except Err Stations :=
  if station.1 ∈ antennas ∨ station.1 ∈ st.names then .error .throws
  else
    let parts := getMatching isMatch antennas station.2
    if parts = [] then .ok st
    else
      match markParts st.names.length parts st.usedIn with
      | .error e => .error e
      | .ok usedIn => .ok ⟨usedIn, st.names ++ [station.1], st.parts ++ [parts]⟩

/-- The loop over the record, StationAdder.cc:106-160. -/
def addStations (isMatch : List Char → List Char → Bool) (antennas : List (List Char)) :
    List (List Char × List (List Char)) → Stations → Except Err Stations
  | [], st => .ok st
  | s :: rest, st =>
    match addStation isMatch antennas st s with
    | .error e => .error e
    | .ok st' => addStations isMatch antennas rest st'

/-- The diameter of a superstation, StationAdder.cc:145-159: from the distances of the stations to the centre and
their diameters. -/
def diameter {K : Type} [Field K] [LinearOrder K] (stations : List (K × K)) : K :=
  2 * stations.foldl (fun m s => max m (s.1 + s.2 / 2)) 0

/-! ## Baselines -/

/-- The settings `autocorr` and `sumauto`. -/
structure AutoSettings where
  makeAuto : Bool
  sumAuto : Bool

/-- What to do with a baseline for the superstation with number `station` that consists of `parts`: the other
antenna, and whether to conjugate; StationAdder.cc:194-211. -/
def takeBaseline (c : AutoSettings) (parts : List Nat) (station : Nat) (bl : Nat × Nat) : Option (Nat × Bool) :=
  if bl.1 ∈ parts then
    if bl.2 ∈ parts then
      if c.makeAuto ∧ (c.sumAuto = true ↔ bl.1 = bl.2) then some (station, false) else none
    else some (bl.2, true)
  else if bl.2 ∈ parts then some (bl.1, false)
  else none

/-- What is added to `itsBufRows` for a baseline, StationAdder.cc:222. -/
def rowEntry (i : Nat) (conj : Bool) : Int := if conj then -((i : Int) + 1) else (i : Int) + 1

/-- The state in the loop over baselines: `newbl`, `itsBufRows` and `newAnt1`. -/
structure BlState where
  newbl : Nat → Option Nat
  bufRows : List (List Int)
  newAnt : List Nat

/-- One baseline in the loop, StationAdder.cc:193-224. -/
def addBaseline (c : AutoSettings) (parts : List Nat) (station : Nat) (st : BlState) (b : (Nat × Nat) × Nat) :
    BlState :=
  match takeBaseline c parts station b.1 with
  | none => st
  | some (ant, conj) =>
    match st.newbl ant with
    | some r => { st with bufRows := st.bufRows.modify r (· ++ [rowEntry b.2 conj]) }
    | none =>
      ⟨fun x => if x = ant then some st.bufRows.length else st.newbl x, st.bufRows ++ [[rowEntry b.2 conj]],
        st.newAnt ++ [ant]⟩

/-- The baselines and `itsBufRows`. -/
structure Baselines where
  bls : List (Nat × Nat)
  bufRows : List (List Int)

/-- The baselines of one superstation, StationAdder.cc:187-238. -/
def superstation (c : AutoSettings) (b : Baselines) (s : List Nat × Nat) : Baselines :=
  let st := b.bls.zipIdx.foldl (addBaseline c s.1 s.2) ⟨fun _ => none, b.bufRows, []⟩
  ⟨b.bls ++ st.newAnt.map fun a => (a, s.2), st.bufRows⟩

/-- All baselines, StationAdder.cc:161-238: superstation `j` gets number `nrold + j`. -/
def allBaselines (c : AutoSettings) (nrold : Nat) (parts : List (List Nat)) (bls : List (Nat × Nat)) : Baselines :=
  (parts.zipIdx nrold).foldl (superstation c) ⟨bls, []⟩

/-! ## Data -/

/-- A point: a channel and correlation of a baseline. -/
structure Pt (K : Type) where
  data : Option (Cx K)
  flag : Bool
  weight : K
  deriving DecidableEq

/-- Coordinates. -/
structure Uvw (K : Type) where
  u : K
  v : K
  w : K
  deriving DecidableEq

/-- A baseline of a buffer: points numbered from 0 up to nrcc, and coordinates. -/
structure Row (K : Type) where
  pts : Nat → Pt K
  uvw : Uvw K

/-- The settings `minpoints`, `average` and `useweights`. -/
structure Settings where
  minPoints : Nat
  average : Bool
  useWeights : Bool

section Data
variable {K : Type} [Field K] [DecidableEq K]

/-- Adding values of which some may not be finite. -/
def oadd (a b : Option (Cx K)) : Option (Cx K) :=
  match a, b with
  | some x, some y => some (x + y)
  | _, _ => none

/-- Of one new point: `dataPtr[k]`, `wghtPtr[k]`, `npoints[k]`, `dataFlg[k]` and `wghtFlg[k]`,
StationAdder.cc:307-319. -/
structure Acc (K : Type) where
  data : Option (Cx K)
  weight : K
  npoints : Nat
  dataFlg : Option (Cx K)
  weightFlg : K

/-- The values at the start, StationAdder.cc:313-319. -/
def Acc.zero : Acc K := ⟨some 0, 0, 0, some 0, 0⟩

/-- The weight with which a point is used: the four loops of StationAdder.cc:348-412. -/
def pointWeight (c : Settings) (p : Pt K) : K := if c.useWeights then p.weight else 1

/-- What a point adds to the data, StationAdder.cc:352, 356, 367, 371, 384, 388, 399 and 403. -/
def pointValue (c : Settings) (conj : Bool) (p : Pt K) : Option (Cx K) :=
  p.data.map fun v => (if conj then v.conj else v) * Cx.ofReal (pointWeight c p)

/-- One point of a baseline is added, StationAdder.cc:348-412. -/
def accPoint (c : Settings) (a : Acc K) (s : Bool × Pt K) : Acc K :=
  if s.2.flag then
    { a with dataFlg := oadd a.dataFlg (pointValue c s.1 s.2), weightFlg := a.weightFlg + pointWeight c s.2 }
  else
    { a with data := oadd a.data (pointValue c s.1 s.2), weight := a.weight + pointWeight c s.2,
             npoints := a.npoints + 1 }

/-- Division by a weight, StationAdder.cc:425; by zero it is not finite. -/
def odiv (d : Option (Cx K)) (w : K) : Option (Cx K) := if w = 0 then none else d.map fun v => v.divReal w

/-- The result for a point, StationAdder.cc:416-427. -/
def finishPoint (c : Settings) (a : Acc K) : Pt K :=
  if a.weight = 0 ∨ a.npoints < c.minPoints then
    let w := a.weight + a.weightFlg
    let d := oadd a.data a.dataFlg
    ⟨if c.average then odiv d w else d, true, w⟩
  else ⟨if c.average then odiv a.data a.weight else a.data, false, a.weight⟩

/-- A new point from the points of the baselines that are added. -/
def newPoint (c : Settings) (pts : List (Bool × Pt K)) : Pt K := finishPoint c (pts.foldl (accPoint c) Acc.zero)

/-- The sum of coordinates and `uvwWghtSum`; `conj` changes the sign. One point, StationAdder.cc:358-361, 373-376,
390-393 and 405-408. -/
def accUvw (c : Settings) (conj : Bool) (uvw : Uvw K) (a : Uvw K × K) (p : Pt K) : Uvw K × K :=
  if p.flag then a
  else
    let w := pointWeight c p
    let t := if conj then -w else w
    (⟨a.1.u + uvw.u * t, a.1.v + uvw.v * t, a.1.w + uvw.w * t⟩, a.2 + w)

/-- A baseline is added to the sum of coordinates, StationAdder.cc:329-413. -/
def accRowUvw (c : Settings) (nrcc : Nat) (a : Uvw K × K) (s : Bool × Row K) : Uvw K × K :=
  (List.range nrcc).foldl (fun a k => accUvw c s.1 s.2.uvw a (s.2.pts k)) a

/-- The coordinates of a new baseline, StationAdder.cc:429-442; `uvwCalc` is what the UVW calculator gives. -/
def newUvw (c : Settings) (nrcc : Nat) (uvwCalc : Uvw K) (rows : List (Bool × Row K)) : Uvw K :=
  let s := rows.foldl (accRowUvw c nrcc) (⟨0, 0, 0⟩, 0)
  if c.average ∧ s.2 ≠ 0 then ⟨s.1.u / s.2, s.1.v / s.2, s.1.w / s.2⟩ else uvwCalc

/-- The baseline that an entry of `itsBufRows` stands for, StationAdder.cc:330-338; nothing if there is none. -/
def lookup (rows : List (Row K)) (entry : Int) : Option (Bool × Row K) :=
  (rows[entry.natAbs - 1]?).map fun r => (decide (entry < 0), r)

/-- A new baseline, StationAdder.cc:312-442. -/
def newRow (c : Settings) (nrcc : Nat) (uvwCalc : Uvw K) (rows : List (Row K)) (entries : List Int) :
    Option (Row K) :=
  match entries.mapM (lookup rows) with
  | none => none
  | some used => some ⟨fun k => newPoint c (used.map fun s => (s.1, s.2.pts k)), newUvw c nrcc uvwCalc used⟩

/-- The loop over the new baselines in process, StationAdder.cc:311-448: the buffer grows. `uvwCalc` has the
coordinates by number of the baseline. -/
def process (c : Settings) (nrcc : Nat) (uvwCalc : Nat → Uvw K) : List (List Int) → List (Row K) → Option (List (Row K))
  | [], rows => some rows
  | entries :: rest, rows =>
    match newRow c nrcc (uvwCalc rows.length) rows entries with
    | none => none
    | some r => process c nrcc uvwCalc rest (rows ++ [r])

end Data

end DP3.StationAdder
