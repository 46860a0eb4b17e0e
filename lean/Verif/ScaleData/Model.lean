import Verif.Cx.Basic
import Mathlib.Algebra.Order.Field.Basic
import Mathlib.Algebra.BigOperators.Group.List.Basic

/-!
# Scaling of the data (ScaleData)

Model of `ScaleData::updateInfo`, `fillSizeScaleFactors` and the `process` functions
(steps/ScaleData.cc).

Simplifications: numbers are exact; a factor is `none` if it is not finite. The match of a station
name with a glob pattern (casacore) and the square root are functions. The table LOFAR_ANTENNA_FIELD
is a list of rows with the antenna and the number of elements that are not flagged; that it exists
is assumed. The coefficients have been parsed.
-/

namespace DP3.ScaleData

set_option linter.unusedSectionVars false

variable {K : Type} [Field K] [LinearOrder K] [IsStrictOrderedRing K]

/-- An exception, or undefined behaviour (steps/ScaleData.cc:55, 100, 120). -/
inductive Err
  | throws
  | ub
  deriving DecidableEq, Repr

/-- Settings (steps/ScaleData.cc:44-62). `scaleSize` is `none` if it is not given; `coeffs` are the
parsed vectors, and `lba`/`hba` the default coefficients of lines 77-86. -/
structure Cfg (K : Type) where
  stations : List String
  coeffs : List (List K)
  scaleSize : Option Bool
  lba : List K
  hba : List K
  matches_ : String → String → Bool
  sqrt : K → K

/-- The information that is used (steps/ScaleData.cc:71, 89, 115, 145-152, 223-242): `fields` is the
table LOFAR_ANTENNA_FIELD with the antenna and the number of unflagged elements, `nAntTable` the
number of rows of the table ANTENNA. -/
structure Info (K : Type) where
  isLba : Bool
  names : List String
  ant1 : List Nat
  ant2 : List Nat
  freqs : List K
  fields : List (Nat × Nat)
  nAntTable : Nat

/-- `nNominal` (steps/ScaleData.cc:74-82). -/
def nominal (i : Info K) : K := if i.isLba then 48 else 24

/-- The patterns with the default (steps/ScaleData.cc:72). -/
def patterns (c : Cfg K) : List String := c.stations ++ ["*"]

/-- The coefficients with the default (steps/ScaleData.cc:75-87). -/
def coeffs (c : Cfg K) (i : Info K) : List (List K) := c.coeffs ++ [if i.isLba then c.lba else c.hba]

/-- The polynomial: from the last coefficient to the first (steps/ScaleData.cc:105-110). -/
def evalPoly (coeff : List K) (f : K) : K :=
  coeff.dropLast.foldr (fun a fact => fact * (f / 1000000) + a) (coeff.getLast?.getD 0)

/-- Multiplies factors that need not be finite (steps/ScaleData.cc:137, 154). -/
def mulF (a b : Option K) : Option K := do let x ← a; let y ← b; pure (x * y)

/-- The counting of `fillSizeScaleFactors` (steps/ScaleData.cc:232-243). -/
def countUsed (i : Info K) : Except Err (List K) :=
  i.fields.foldlM (fun l r =>
    if r.1 < l.length then .ok (l.modify r.1 (· + 1 / 2 * r.2)) else .error .ub)
    (List.replicate i.nAntTable 0)

/-- `fillSizeScaleFactors` (steps/ScaleData.cc:221-248). -/
def sizeFactors (i : Info K) : Except Err (List (Option K)) := do
  let used ← countUsed i
  pure (used.map fun u => if u = 0 then none else some (nominal i / u))

/-- `extraFactors` (steps/ScaleData.cc:116-123). -/
def extraFactors (c : Cfg K) (i : Info K) : Except Err (List (Option K)) :=
  if c.scaleSize = some true ∨ c.scaleSize = none then do
    let e ← sizeFactors i
    if e.length ≠ i.names.length then .error .throws else .ok e
  else .ok (List.replicate i.names.length (some 1))

/-- The scale factors of a pattern for each frequency (steps/ScaleData.cc:93-112). -/
def scales (i : Info K) (coeff : List K) : List (Option K) :=
  i.freqs.map fun f => some (evalPoly coeff f)

/-- Whether the size of a station that matches pattern `j` is used (steps/ScaleData.cc:134-135). -/
def useSize (c : Cfg K) (j : Nat) : Bool :=
  c.scaleSize == some true || (c.scaleSize == none && j == (patterns c).length - 1)

/-- The loop body for antenna `a`: `fs` is `itsStationFactors` (steps/ScaleData.cc:128-143). -/
def addStation (c : Cfg K) (i : Info K) (extra : List (Option K)) (fs : List (List (Option K)))
    (a : Nat) : Except Err (List (List (Option K))) :=
  match i.names[a]? with
  | none => .error .ub
  | some name =>
    match (patterns c).findIdx? (fun p => c.matches_ p name) with
    | none => .ok fs
    | some j =>
      match (coeffs c i)[j]? with
      | none => .error .ub
      | some coeff =>
        let fs' := fs ++ [scales i coeff]
        if useSize c j then
          match extra[a]? with
          | none => .error .ub
          | some e =>
            if a < fs'.length then .ok (fs'.modify a (fun l => l.map fun x => mulF x e))
            else .error .ub
        else .ok fs'

/-- `itsStationFactors` (steps/ScaleData.cc:88-143). -/
def stationFactors (c : Cfg K) (i : Info K) : Except Err (List (List (Option K))) := do
  if c.stations.length ≠ c.coeffs.length then throw .throws
  if (coeffs c i).any List.isEmpty then throw .throws
  let extra ← extraFactors c i
  (List.range i.names.length).foldlM (addStation c i extra) []

/-- The factor of a baseline and channel (steps/ScaleData.cc:150-158). -/
def baselineFactor (c : Cfg K) (i : Info K) (fs : List (List (Option K))) (bl ch : Nat) :
    Except Err (Option K) :=
  match (i.ant1[bl]?.bind (fs[·]?)).bind (·[ch]?), (i.ant2[bl]?.bind (fs[·]?)).bind (·[ch]?) with
  | some f1, some f2 => .ok ((mulF f1 f2).map c.sqrt)
  | _, _ => .error .ub

/-- `process` for regular data: the visibility of a baseline, channel and correlation
(steps/ScaleData.cc:188-194; the correlations have the same factor, lines 155-157). -/
def scaled (c : Cfg K) (i : Info K) (data : Nat → Nat → Nat → Cx K) (bl ch p : Nat) :
    Except Err (Option (Cx K)) := do
  let fs ← stationFactors c i
  let f ← baselineFactor c i fs bl ch
  pure (f.map fun x => Cx.ofReal x * data bl ch p)

/-! ### BDA data -/

/-- A row of a BDA buffer: where its data are in the memory of the buffer (base/BdaBuffer.h:27-42). -/
structure Row where
  bl : Nat
  off : Nat
  nCh : Nat
  nCorr : Nat

/-- The multiplication of a row: the view has the shape of the factors, not the shape of the row
(steps/ScaleData.cc:200-208). `F` are the factors of a baseline and channel, `nf` and `nc` their
shape; `none` for an access outside the memory. -/
def scaleRow (F : Nat → Nat → K) (nf nc : Nat) (mem : List (Cx K)) (r : Row) : Option (List (Cx K)) :=
  (List.range (nf * nc)).foldlM (fun m x =>
    if r.off + x < m.length then some (m.modify (r.off + x) (Cx.ofReal (F r.bl (x / nc)) * ·))
    else none) mem

/-- `process` for BDA data (steps/ScaleData.cc:196-214). -/
def scaleRows (F : Nat → Nat → K) (nf nc : Nat) (mem : List (Cx K)) (rows : List Row) :
    Option (List (Cx K)) :=
  rows.foldlM (scaleRow F nf nc) mem

end DP3.ScaleData
