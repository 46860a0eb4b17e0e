import Mathlib.Data.String.Basic
import Mathlib.Algebra.BigOperators.Group.List.Basic
import Mathlib.Algebra.Order.Field.Rat

/-!
# Sky models

A model of sky_model/SkyModel.cc, of sky_model/SkyModelFunctions.cc, and of the last part of `process` and of `ReadSkyModel` in
sky_model/ReadSkyModel.cc.

Simplified: a direction and the properties of a source are elements of arbitrary types. `PatchSumInfo` is the list of what was added to it,
and `mean` is what its getters make of that list; see `Simulator.patchDirection` for these. The arguments prefix and suffix are empty and
check is false, as in `ReadSkyModel`. A `std::map` is a list sorted by key.
-/

namespace DP3.SkyModel

/-- The errors. -/
inductive Err
  | noName | patchNotDefined | patchDoesNotExist | noSources | component | emptyPattern | ub
  deriving DecidableEq, Repr

/-! ## Maps -/

/-- `map::find`. -/
def find {V : Type} (m : List (String × V)) (key : String) : Option V := m.lookup key

/-- `map[key] = value`. -/
def set {V : Type} (key : String) (value : V) : List (String × V) → List (String × V)
  | [] => [(key, value)]
  | (k, v) :: m => if key < k then (key, value) :: (k, v) :: m else if key = k then (key, value) :: m else (k, v) :: set key value m

/-- `map::insert`: an element that is there is kept. -/
def insert {V : Type} (key : String) (value : V) (m : List (String × V)) : List (String × V) :=
  match find m key with
  | some _ => m
  | none => set key value m

/-! ## The sky model -/

variable {D K S C : Type}

/-- `PatchInfo`, sky_model/PatchInfo.h:59-65. -/
structure PatchInfo (D K : Type) where
  name : String
  direction : D
  category : Int
  brightness : K
  deriving DecidableEq

/-- `Source`, sky_model/Source.h:84-106. -/
structure Source (D S : Type) where
  name : String
  patch : String
  direction : D
  info : S
  deriving DecidableEq

/-- `SkyModel`, sky_model/SkyModel.h:45-54. -/
structure Model (D K S : Type) where
  patches : List (PatchInfo D K)
  lut : List (String × Nat)
  sources : List (Source D S)
  deriving DecidableEq

/-- `SkyModel::addPatch`, sky_model/SkyModel.cc:68-78: the model and the number of the patch. -/
def addPatch (m : Model D K S) (name : String) (category : Int) (brightness : K) (direction : D) : Model D K S × Nat :=
  let id := m.patches.length
  ({ m with lut := set name id m.lut, patches := m.patches ++ [{ name, direction, category, brightness }] }, id)

/-- `SkyModel::addSource` with a patch that exists, sky_model/SkyModel.cc:53-62. -/
def addSource (m : Model D K S) (name patch : String) (direction : D) (info : S) : Model D K S :=
  { m with sources := m.sources ++ [{ name, patch, direction, info }] }

/-- `SkyModel::addSource` with a patch of its own, sky_model/SkyModel.cc:18-30. -/
def addSourcePatch (m : Model D K S) (name patch : String) (category : Int) (brightness : K) (direction : D) (info : S) : Model D K S :=
  addSource (addPatch m patch category brightness direction).1 name patch direction info

/-- `SkyModel::updatePatch`, sky_model/SkyModel.cc:80-88. -/
def updatePatch (m : Model D K S) (id : Nat) (brightness : K) (direction : D) : Model D K S :=
  { m with patches := m.patches.modify id fun p => { p with brightness, direction } }

/-- `SkyModel::GetPatch`, sky_model/SkyModel.cc:37-42 and 64-66. -/
def getPatch (m : Model D K S) (name : String) : Except Err (PatchInfo D K) :=
  match find m.lut name with
  | none => .error .patchDoesNotExist
  | some id =>
    match m.patches[id]? with
    | some p => .ok p
    | none => .error .ub

/-- `SkyModel::GetPatchNames`, sky_model/SkyModel.cc:90-101. -/
def getPatchNames (m : Model D K S) : List String := m.lut.map Prod.fst

/-- `SkyModel::FindPatches`, sky_model/SkyModel.cc:103-120. `isMatch` is the regular expression. -/
def findPatches (isMatch : String → String → Bool) (m : Model D K S) (pattern : String) : List String :=
  if pattern = "*" then getPatchNames m else (getPatchNames m).filter (isMatch pattern)

/-! ## Reading -/

/-- A line, sky_model/ReadSkyModel.cc:702-721, 776-778 and 808. -/
structure Line (D K S : Type) where
  name : String
  patch : String
  direction : D
  category : Int
  flux : K
  info : S

/-- The model and `patchSumInfo`, sky_model/ReadSkyModel.cc:918-924: the number of a patch and what was added to it. -/
structure State (D K S : Type) where
  model : Model D K S
  sums : List (String × Nat × List (D × K))

/-- The last part of `process`, sky_model/ReadSkyModel.cc:819-844. -/
def process (s : State D K S) (l : Line D K S) : Except Err (State D K S) :=
  if l.name = "" then
    if l.patch = "" then .error .noName
    else
      let r := addPatch s.model l.patch l.category l.flux l.direction
      .ok { model := r.1, sums := insert l.patch (r.2, []) s.sums }
  else if l.patch = "" then
    .ok { s with model := addSourcePatch s.model l.name l.name l.category l.flux l.direction l.info }
  else
    match find s.sums l.patch with
    | none => .error .patchNotDefined
    | some (id, added) =>
      .ok { model := addSource s.model l.name l.patch l.direction l.info
            sums := set l.patch (id, added ++ [(l.direction, l.flux)]) s.sums }

/-- The lines, sky_model/ReadSkyModel.cc:847-884. -/
def processAll : State D K S → List (Line D K S) → Except Err (State D K S)
  | s, [] => .ok s
  | s, l :: ls =>
    match process s l with
    | .error e => .error e
    | .ok s => processAll s ls

/-- The update of a patch, sky_model/ReadSkyModel.cc:932-938. -/
def updateStep [AddMonoid K] [DecidableEq K] (mean : List (D × K) → D) (m : Model D K S) (p : String × Nat × List (D × K)) : Model D K S :=
  let flux := (p.2.2.map Prod.snd).sum
  if flux ≠ 0 then updatePatch m p.2.1 flux (mean p.2.2) else m

/-- `ReadSkyModel`, sky_model/ReadSkyModel.cc:902-941. -/
def readSkyModel [AddMonoid K] [DecidableEq K] (mean : List (D × K) → D) (lines : List (Line D K S)) : Except Err (Model D K S) :=
  match processAll ⟨⟨[], [], []⟩, []⟩ lines with
  | .error e => .error e
  | .ok s => .ok (s.sums.foldl (updateStep mean) s.model)

/-! ## Patches -/

/-- `Patch`, sky_model/Patch.h:59-65. -/
structure Patch (D K C : Type) where
  name : String
  components : List C
  direction : D
  brightness : K
  deriving DecidableEq

/-- The loop over the names, sky_model/SkyModelFunctions.cc:98-103: the number of the first one that matches. -/
def matching (names : List String) (patch : String) : Option Nat := names.idxOf? patch

/-- The loop over the sources, sky_model/SkyModelFunctions.cc:96-104. `make` is `MakePointSource`, which throws for some. -/
def gather (make : Source D S → Option C) (names : List String) : List (Source D S) → List (List C) → Except Err (List (List C))
  | [], lists => .ok lists
  | s :: ss, lists =>
    match matching names s.patch with
    | none => gather make names ss lists
    | some i =>
      match make s with
      | none => .error .component
      | some c => gather make names ss (lists.modify i (· ++ [c]))

/-- The loop that makes the patches, sky_model/SkyModelFunctions.cc:106-122. -/
def build (m : Model D K S) : List (String × List C) → Except Err (List (Patch D K C))
  | [] => .ok []
  | (name, components) :: rest =>
    if components = [] then .error .noSources
    else
      match getPatch m name with
      | .error e => .error e
      | .ok info =>
        match build m rest with
        | .error e => .error e
        | .ok ps => .ok ({ name, components, direction := info.direction, brightness := info.brightness } :: ps)

/-- `MakePatches`, sky_model/SkyModelFunctions.cc:89-123. -/
def makePatches (make : Source D S → Option C) (m : Model D K S) (names : List String) : Except Err (List (Patch D K C)) :=
  match gather make names m.sources (List.replicate names.length []) with
  | .error e => .error e
  | .ok lists => build m (names.zip lists)

/-- `set<string>::insert`. -/
def setInsert (key : String) (s : List String) : List String := (insert key () (s.map fun k => (k, ()))).map Prod.fst

/-- `MakePatchList`, sky_model/SkyModelFunctions.cc:222-239. -/
def makePatchList (isMatch : String → String → Bool) (m : Model D K S) (patterns : List String) : List String :=
  if patterns = [] then getPatchNames m
  else
    patterns.foldl (fun (s : List String) pattern =>
      if pattern = "" then s
      else if pattern.toList.head? = some '@' then setInsert pattern s
      else (findPatches isMatch m pattern).foldl (fun (s : List String) k => setInsert k s) s) []

/-- `SkyModelSelection::SelectMatchingPatches`, sky_model/SkyModelSelection.cc:23-29. -/
def selectMatchingPatches (isMatch : String → String → Bool) (m : Model D K S) (filter : List String) : Except Err (List String) :=
  if "" ∈ filter then .error .emptyPattern else .ok (makePatchList isMatch m filter)

/-- `makeSourceList`, sky_model/SkyModelFunctions.cc:125-145. -/
def makeSourceList (patches : List (Patch D K C)) : List (C × Patch D K C) :=
  patches.flatMap fun p => p.components.map fun c => (c, p)

/-- The name of a new patch, sky_model/SkyModelFunctions.cc:162 and 212. -/
def numbered (name : String) (n : Nat) : String := name ++ "_" ++ toString n

/-- `makeOnePatchPerComponent`, sky_model/SkyModelFunctions.cc:147-170. The brightness of a new patch is 0, sky_model/Patch.h:63. -/
def makeOnePatchPerComponent [Zero K] (directionOf : C → D) (patches : List (Patch D K C)) : List (Patch D K C) :=
  patches.flatMap fun p =>
    p.components.zipIdx.map fun c => { name := numbered p.name c.2, components := [c.1], direction := directionOf c.1, brightness := 0 }

/-- `lookup_table`, sky_model/SkyModelFunctions.cc:177-188: the number of a patch and that of a component in it. -/
def lookupTable (patches : List (Patch D K C)) : List (Nat × Nat) :=
  patches.zipIdx.flatMap fun p => p.1.components.zipIdx.map fun c => (p.2, c.2)

/-- The component with a number, sky_model/SkyModelFunctions.cc:201-204. -/
def componentAt (patches : List (Patch D K C)) (n : Nat) : Option C :=
  match (lookupTable patches)[n]? with
  | none => none
  | some (i, j) =>
    match patches[i]? with
    | none => none
    | some p => p.components[j]?

/-- A new patch, sky_model/SkyModelFunctions.cc:196-217; `number` is the size of the list. `average` is the mean of the directions. -/
def clusterPatch [Zero K] (average : List C → D) (patches : List (Patch D K C)) (group : List Nat) (number : Nat) : Option (Patch D K C) :=
  match group.mapM (componentAt patches), group.head? with
  | some cs, some n =>
    match (lookupTable patches)[n]? with
    | none => none
    | some (i, _) =>
      match patches[i]? with
      | none => none
      | some p => some { name := numbered p.name number, components := cs, direction := average cs, brightness := 0 }
  | _, _ => none

/-- `clusterProximateSources` for the groups of `ProximityClustering`, sky_model/SkyModelFunctions.cc:172-220. `none` stands for an access
beyond the end of a vector. -/
def clusterProximateSources [Zero K] (average : List C → D) (groups : List (List Nat)) (patches : List (Patch D K C)) : Option (List (Patch D K C)) :=
  groups.zipIdx.mapM fun g => clusterPatch average patches g.1 g.2

/-- The direction of a new patch, sky_model/SkyModelFunctions.cc:198-207 and 213-214. -/
def averageRaDec (directions : List (ℚ × ℚ)) : ℚ × ℚ :=
  ((directions.map Prod.fst).sum / directions.length, (directions.map Prod.snd).sum / directions.length)

/-- The properties of a source that tell about its polarization, sky_model/Source.h:39-41 and 49. -/
structure Polarization (K : Type) where
  useRm : Bool
  q : K
  u : K
  v : K
  fraction : K

/-- The test of a source in `CheckPolarized`, sky_model/SkyModelFunctions.cc:271-279. -/
def isPolarized [Zero K] [DecidableEq K] (p : Polarization K) : Bool :=
  if p.useRm then p.v ≠ 0 || p.fraction ≠ 0 else p.v ≠ 0 || p.q ≠ 0 || p.u ≠ 0

/-- `CheckPolarized`, sky_model/SkyModelFunctions.cc:265-284, and `CheckAnyOrientationIsAbsolute`, 286-298: whether a source of the patches
passes a test. -/
def checkAny (test : S → Bool) (m : Model D K S) (names : List String) : Bool :=
  m.sources.any fun s => names.any fun n => n == s.patch && test s.info

end DP3.SkyModel
