import Mathlib.Order.Defs.LinearOrder

/-!
Model of `BaselineSelection` (`base/BaselineSelection.cc`).

Antennas are numbers; whether an antenna's name matches a pattern is an input.  The
baselines chosen by casacore's MSSelection are an input.  A matrix is a function of two
antenna numbers.
-/

namespace DP3.BaselineSelection

variable {P F : Type} [LinearOrder F]

/-- A selection matrix. -/
abbrev Sel := Nat → Nat → Bool

/-- Assign one element. -/
def Sel.set (m : Sel) (p : Nat × Nat) (v : Bool) : Sel :=
  fun a b => if a = p.1 ∧ b = p.2 then v else m a b

/-- Assign the elements in order. -/
def Sel.setAll (m : Sel) (l : List (Nat × Nat)) (v : Bool) : Sel := l.foldl (fun m p => m.set p v) m

/-- The baseline string: empty or `[]`, a vector (of antennas or pairs, each a list of
patterns), or an MSSelection string, for which the selected baselines are given,
base/BaselineSelection.cc:120 and 142-173. -/
inductive Baselines (P : Type)
  | none
  | vector (elements : List (List P))
  | msSelection (selected : List (Nat × Nat))

/-- The corrtype string in lower case. -/
inductive CorrType
  | empty
  | auto
  | cross
  | other
  deriving DecidableEq

/-- The selection as constructed, base/BaselineSelection.cc:77-100.  `ranges` are the values
of `itsRangeBL` in pairs. -/
structure Selection (P F : Type) where
  baselines : Baselines P
  corrType : CorrType
  ranges : List (F × F)

/-- The constructor's ranges: `blrange`, and with `minmax` those from `blmin` and `blmax`,
base/BaselineSelection.cc:83-99; `big` is 1e30, `none`: an exception for an odd number. -/
def makeRanges (zero big : F) (blrange : List F) (minmax : Bool) (minbl maxbl : F) :
    Option (List (F × F)) :=
  let all := blrange ++
    (if minmax then
      (if minbl > zero then [zero, minbl] else []) ++ (if maxbl > zero then [maxbl, big] else [])
    else [])
  if all.length % 2 ≠ 0 then none
  else some ((List.range (all.length / 2)).map fun (j : Nat) =>
    (all.getD (2 * j) zero, all.getD (2 * j + 1) zero))

/-- The elements set for one pattern, base/BaselineSelection.cc:263-281. -/
def antennaElements (matchesName : P → Nat → Bool) (n : Nat) (p : P) : List (Nat × Nat) :=
  (List.range n).flatMap fun i2 =>
    if matchesName p i2 then (List.range n).flatMap fun j => [(i2, j), (j, i2)] else []

/-- The elements set for a pair of patterns, base/BaselineSelection.cc:287-303. -/
def pairElements (matchesName : P → Nat → Bool) (n : Nat) (p q : P) : List (Nat × Nat) :=
  (List.range n).flatMap fun i2 =>
    if matchesName q i2 then
      (List.range n).flatMap fun i1 => if matchesName p i1 then [(i1, i2), (i2, i1)] else []
    else []

/-- The loop in `handleBLVector`, base/BaselineSelection.cc:261-309; `none`: exception. -/
def vectorLoop (matchesName : P → Nat → Bool) (n : Nat) : List (List P) → Sel → Option Sel
  | [], m => some m
  | [p] :: rest, m => vectorLoop matchesName n rest (m.setAll (antennaElements matchesName n p) true)
  | [p, q] :: rest, m =>
    vectorLoop matchesName n rest (m.setAll (pairElements matchesName n p q) true)
  | _ :: _, _ => none

/-- `handleBLVector`, base/BaselineSelection.cc:246-311. -/
def handleBLVector (matchesName : P → Nat → Bool) (n : Nat) (elements : List (List P)) : Option Sel :=
  vectorLoop matchesName n elements fun _ _ => false

/-- The matrix in `HandleMsSelection`, base/BaselineSelection.cc:236-243. -/
def msMatrix (selected : List (Nat × Nat)) : Sel :=
  Sel.setAll (fun _ _ => false) (selected.flatMap fun p => [(p.1, p.2), (p.2, p.1)]) true

/-- `handleBL`, base/BaselineSelection.cc:142-173. -/
def handleBL (matchesName : P → Nat → Bool) (n : Nat) (b : Baselines P) (m : Sel) : Option Sel :=
  match b with
  | .none => some m
  | .vector elements => (handleBLVector matchesName n elements).map fun s => fun i j => m i j && s i j
  | .msSelection selected => some fun i j => m i j && msMatrix selected i j

/-- `handleCorrType`, base/BaselineSelection.cc:313-327. -/
def handleCorrType (t : CorrType) (m : Sel) : Option Sel :=
  match t with
  | .empty => some m
  | .auto => some fun i j => if i = j then m i i else false
  | .cross => some fun i j => if i = j then false else m i j
  | .other => none

/-- The test at base/BaselineSelection.cc:337-343. -/
def matchLength (ranges : List (F × F)) (len : F) : Bool :=
  ranges.any fun r => decide (len ≥ r.1) && decide (len ≤ r.2)

/-- `handleLength`, base/BaselineSelection.cc:329-351; baselines with their lengths. -/
def handleLength (ranges : List (F × F)) (bls : List ((Nat × Nat) × F)) (m : Sel) : Sel :=
  bls.foldl (fun m b =>
    if matchLength ranges b.2 then m
    else (m.set b.1 false).set (b.1.2, b.1.1) false) m

/-- `apply`, base/BaselineSelection.cc:115-130. -/
def apply (matchesName : P → Nat → Bool) (n : Nat) (bls : List ((Nat × Nat) × F))
    (s : Selection P F) : Option Sel :=
  (handleBL matchesName n s.baselines fun _ _ => true).bind fun m =>
    (handleCorrType s.corrType m).map fun m =>
      if s.ranges.isEmpty then m else handleLength s.ranges bls m

/-- `applyVec`, base/BaselineSelection.cc:132-140. -/
def applyVec (matchesName : P → Nat → Bool) (n : Nat) (bls : List ((Nat × Nat) × F))
    (s : Selection P F) : Option (List Bool) :=
  (apply matchesName n bls s).map fun m => bls.map fun b => m b.1.1 b.1.2

end DP3.BaselineSelection
