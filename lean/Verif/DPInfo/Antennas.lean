/-!
# Model of the antenna bookkeeping of `DPInfo`

The class `dp3::base::DPInfo` (base/DPInfo.h, base/DPInfo.cc) keeps the antennas, the two
antenna numbers of every baseline, the numbers of the antennas in use, the map from old to new
antenna numbers, and two caches that are filled on demand.

Simplifications:

* the parallel vectors `antenna_names_`, `antenna_diameters_` and `antenna_positions_` are one
  list of records of an arbitrary type `A` (their sizes are checked to agree, DPInfo.cc:258);
* antenna numbers are `Nat` where the code uses `int`; a negative antenna number is an
  out-of-bounds access in the code and has no counterpart here;
* the length of a baseline is an arbitrary function `dist` of the two antenna records;
* an exception, and an out-of-bounds access, is the result `none`.
-/

namespace DP3.DPInfo

/-- The members of `DPInfo` for antennas and baselines: base/DPInfo.h:377-388, 334
(`antenna_names_`..., `antennas_used_`, `antenna_map_`, `antenna1_`, `antenna2_`,
`baseline_lengths_`, `auto_correlation_indices_`, `meta_changed_`). -/
structure Ants (A L : Type) where
  /-- names, diameters and positions -/
  ants : List A
  ant1 : List Nat
  ant2 : List Nat
  /-- `antenna_map_` -/
  map : List Int
  /-- `antennas_used_` -/
  used : List Nat
  /-- `baseline_lengths_`, a cache -/
  lengths : List L
  /-- `auto_correlation_indices_`, a cache -/
  autos : List Int
  metaChanged : Bool
deriving DecidableEq, Repr

variable {A L : Type}

/-- The antenna members of a newly constructed `DPInfo`: base/DPInfo.cc:32-60. -/
def empty : Ants A L :=
  { ants := [], ant1 := [], ant2 := [], map := [], used := [], lengths := [], autos := [],
    metaChanged := false }

/-- The marking loop of `DPInfo::setAntUsed`: base/DPInfo.cc:277-283. -/
def mark : List (Nat × Nat) → List Int → Option (List Int)
  | [], m => some m
  | (a, b) :: rest, m =>
    if a ≥ m.length ∨ b ≥ m.length then none else mark rest ((m.set a 0).set b 0)

/-- The numbering loop of `DPInfo::setAntUsed`: base/DPInfo.cc:285-290.  `i` is the loop index,
the list holds the map from `i` on, `used` is `antennas_used_` so far; the result is the rest of
the map and the final `antennas_used_`. -/
def number (i : Nat) : List Int → List Nat → List Int × List Nat
  | [], used => ([], used)
  | m :: ms, used =>
    if m = 0 then
      let r := number (i + 1) ms (used ++ [i])
      ((used.length : Int) :: r.1, r.2)
    else
      let r := number (i + 1) ms used
      (m :: r.1, r.2)

/-- `DPInfo::setAntUsed`: base/DPInfo.cc:273-291. -/
def setAntUsed (s : Ants A L) : Option (Ants A L) :=
  (mark (s.ant1.zip s.ant2) (List.replicate s.ants.length (-1))).map fun m =>
    let r := number 0 m []
    { s with map := r.1, used := r.2 }

/-- `DPInfo::setAntennas`: base/DPInfo.cc:253-271.  The caches are left as they are. -/
def setAntennas (s : Ants A L) (ants : List A) (ant1 ant2 : List Nat) : Option (Ants A L) :=
  if ant1.length ≠ ant2.length then none
  else setAntUsed { s with ants := ants, ant1 := ant1, ant2 := ant2 }

/-- `DPInfo::SelectBaselines`: base/DPInfo.cc:406-420. -/
def selectBaselines (s : Ants A L) (sel : List Nat) : Option (Ants A L) := do
  let a1 ← sel.mapM (fun b => s.ant1[b]?)
  let a2 ← sel.mapM (fun b => s.ant2[b]?)
  setAntUsed { s with ant1 := a1, ant2 := a2, lengths := [], autos := [] }

/-- `DPInfo::RemoveUnusedAntennas`: base/DPInfo.cc:422-452.  The renumbered antennas are read
from `antenna_map_`; a negative entry would be an out-of-bounds access later on. -/
def removeUnused (s : Ants A L) : Option (Ants A L) :=
  if s.used.length < s.map.length then do
    let ants ← s.used.mapM (fun u => s.ants[u]?)
    let a1 ← s.ant1.mapM (fun a => (s.map[a]?).bind Int.toNat?)
    let a2 ← s.ant2.mapM (fun a => (s.map[a]?).bind Int.toNat?)
    let t ← setAntUsed { s with ants := ants, ant1 := a1, ant2 := a2, metaChanged := true }
    some { t with lengths := [], autos := [] }
  else some s

/-- The filling of the cache in `DPInfo::getBaselineLengths`: base/DPInfo.cc:466-482. -/
def computeLengths (dist : A → A → L) (s : Ants A L) : Option (List L) :=
  (s.ant1.zip s.ant2).mapM fun p => do
    let a ← s.ants[p.1]?
    let b ← s.ants[p.2]?
    some (dist a b)

/-- `DPInfo::getBaselineLengths`: base/DPInfo.cc:463-485.  The new state and the result. -/
def getLengths (dist : A → A → L) (s : Ants A L) : Option (Ants A L × List L) :=
  if s.lengths.isEmpty then
    (computeLengths dist s).map fun l => ({ s with lengths := l }, l)
  else some (s, s.lengths)

/-- The largest antenna number, `std::max_element` twice: base/DPInfo.cc:489-491. -/
def maxAnt (s : Ants A L) : Nat := max (s.ant1.foldl max 0) (s.ant2.foldl max 0)

/-- The loop of `DPInfo::getAutoCorrIndex`: base/DPInfo.cc:496-500; `i` is the loop index. -/
def fillAutos (i : Nat) : List (Nat × Nat) → List Int → List Int
  | [], r => r
  | (a, b) :: rest, r => fillAutos (i + 1) rest (if a = b then r.set a i else r)

/-- The filling of the cache in `DPInfo::getAutoCorrIndex`: base/DPInfo.cc:489-500.  Without
baselines `std::max_element` gives the end iterator, which is dereferenced: `none`. -/
def computeAutos (s : Ants A L) : Option (List Int) :=
  if s.ant1.isEmpty ∨ s.ant2.isEmpty then none
  else some (fillAutos 0 (s.ant1.zip s.ant2) (List.replicate (1 + maxAnt s) (-1)))

/-- `DPInfo::getAutoCorrIndex`: base/DPInfo.cc:487-503.  The new state and the result. -/
def getAutos (s : Ants A L) : Option (Ants A L × List Int) :=
  if s.autos.isEmpty then (computeAutos s).map fun l => ({ s with autos := l }, l)
  else some (s, s.autos)

/-- The calls that can be made on the antenna part of a `DPInfo`: base/DPInfo.h:105, 118, 130,
274-277. -/
inductive Op (A : Type)
  | setAntennas (ants : List A) (ant1 ant2 : List Nat)
  | select (sel : List Nat)
  | remove
  | lengths
  | autos

/-- The effect of one call. -/
def step (dist : A → A → L) (s : Ants A L) : Op A → Option (Ants A L)
  | .setAntennas ants a1 a2 => setAntennas s ants a1 a2
  | .select sel => selectBaselines s sel
  | .remove => removeUnused s
  | .lengths => (getLengths dist s).map Prod.fst
  | .autos => (getAutos s).map Prod.fst

/-- The effect of a sequence of calls. -/
def run (dist : A → A → L) : List (Op A) → Ants A L → Option (Ants A L)
  | [], s => some s
  | o :: os, s => (step dist s o).bind (run dist os)

end DP3.DPInfo
