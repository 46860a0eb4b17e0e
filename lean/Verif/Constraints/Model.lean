import Mathlib.Algebra.Field.Defs

/-!
# Constraints that average or reference solutions

Model of ddecal/constraints/AntennaConstraint.h, AntennaIntervalConstraint.cc and
`Constraint::ApplyReferenceAntenna` (Constraint.cc).

Simplifications: a solution is `Option F` for a field `F`; `none` is a value that is not finite.  A
solution array is a function of channel block, antenna, sub-solution (or direction) and polarisation,
with its dimensions given separately.  Sums of finite values do not overflow.
-/

namespace DP3.Constraints

/-- Solutions: channel block, antenna, sub-solution, polarisation. -/
abbrev Sol (F : Type) := Nat → Nat → Nat → Nat → Option F

variable {F : Type} [Field F] [DecidableEq F]

/-- The sum and the number of values, where a value that is not finite counts as zero and does not
count: AntennaConstraint.h:45-64, AntennaIntervalConstraint.cc:66-82. -/
def sumFinite (values : List (Option F)) : F × Nat :=
  values.foldl (fun acc v =>
    (acc.1 + v.getD 0, acc.2 + (if v.isSome then 1 else 0))) (0, 0)

/-- Dividing the sum by the number; zero divided by zero is not finite: AntennaConstraint.h:67,
AntennaIntervalConstraint.cc:83. -/
def divide (x : F × Nat) : Option F := if x.2 = 0 then none else some (x.1 / (x.2 : F))

/-! ## AntennaConstraint -/

/-- The body of the loop over the antenna sets: AntennaConstraint.h:45-73. -/
def applySet (nDir nPol ch : Nat) (s : Sol F) (set : List Nat) : Sol F :=
  let mean := fun d p => divide (sumFinite (set.map fun a => s ch a d p))
  set.foldl (fun (s : Sol F) a => fun c a' d p =>
    if c = ch ∧ a' = a ∧ d < nDir ∧ p < nPol then mean d p else s c a' d p) s

/-- `AntennaConstraint::Apply`: AntennaConstraint.h:39-76. -/
def antennaApply (nCh nDir nPol : Nat) (sets : List (List Nat)) (s : Sol F) : Sol F :=
  (List.range nCh).foldl (fun s ch => sets.foldl (applySet nDir nPol ch) s) s

/-! ## AntennaIntervalConstraint -/

/-- `Initialize`: AntennaIntervalConstraint.cc:12-45; `none` is an exception. -/
def intervalInitialize (factors : List Nat) (nAntennas : Nat) (perDirection : List Nat) : Option Unit :=
  if factors.length ≠ nAntennas then none
  else
    let maxSolutions := perDirection.foldl max 0
    if factors.any (· == 0) then none
    else if factors.any fun f => decide (maxSolutions < f) then none
    else some ()

/-- One iteration of the `while` loop: averages `size` sub-solutions from `index` on:
AntennaIntervalConstraint.cc:66-89. -/
def averageGroup (nCh nPol antenna index size : Nat) (s : Sol F) : Sol F :=
  let mean := fun c p => divide (sumFinite ((List.range size).map fun i => s c antenna (index + i) p))
  (List.range size).foldl (fun (s : Sol F) i => fun c a d p =>
    if c < nCh ∧ a = antenna ∧ d = index + i ∧ p < nPol then mean c p else s c a d p) s

/-- The `while` loop for one direction with `nSub` sub-solutions; `fuel` bounds the number of
iterations, which does not end by itself when the factor is zero:
AntennaIntervalConstraint.cc:64-92. -/
def intervalLoop (nCh nPol antenna factor nSub : Nat) :
    Nat → Nat → Nat → Sol F → Nat × Sol F
  | 0, _, index, s => (index, s)
  | fuel + 1, start, index, s =>
    if start < nSub then
      let size := min (factor + start) nSub - start
      intervalLoop nCh nPol antenna factor nSub fuel (start + size) (index + size)
        (averageGroup nCh nPol antenna index size s)
    else (index, s)

/-- The loop over the directions of one antenna: AntennaIntervalConstraint.cc:61-93. -/
def intervalAntenna (nCh nPol : Nat) (perDirection : List Nat) (antenna factor : Nat) (s : Sol F) :
    Sol F :=
  (perDirection.foldl (fun (st : Nat × Sol F) nSub =>
    intervalLoop nCh nPol antenna factor nSub nSub 0 st.1 st.2) (0, s)).2

/-- `AntennaIntervalConstraint::Apply`: AntennaIntervalConstraint.cc:47-95. -/
def intervalApply (nCh nAnt nPol : Nat) (factors : List Nat) (perDirection : List Nat) (s : Sol F) :
    Sol F :=
  (List.range nAnt).foldl (fun s antenna =>
    intervalAntenna nCh nPol perDirection antenna (factors.getD antenna 0) s) s

/-! ## ApplyReferenceAntenna -/

/-- Division of values; a division by zero is not finite. -/
def div : Option F → Option F → Option F
  | some a, some b => if b = 0 then none else some (a / b)
  | _, _ => none

/-- The loop that chooses the reference antenna: Constraint.cc:10-22. -/
def chooseReference (nCh nAnt : Nat) (s : Sol F) (pol : Nat) : Nat :=
  match (List.range nAnt).find? fun a =>
      decide (nCh < 5 * ((List.range nCh).filter fun c => (s c a 0 pol).isSome).length) with
  | some a => a
  | none => 0

/-- The body of the loop over the channel blocks: Constraint.cc:24-34. -/
def referenceChannel (nAnt nSub pol ref : Nat) (s : Sol F) (ch : Nat) : Sol F :=
  let s1 := (List.range nAnt).foldl (fun (s : Sol F) antenna =>
    if antenna ≠ ref then fun c a d p =>
      if c = ch ∧ a = antenna ∧ d < nSub ∧ p = pol then div (s c a d p) (s c ref d p)
      else s c a d p
    else s) s
  fun c a d p => if c = ch ∧ a = ref ∧ d < nSub ∧ p = pol then some 1 else s1 c a d p

/-- `ApplyReferenceAntenna`: Constraint.cc:7-37. -/
def applyReference (nCh nAnt nSub nPol : Nat) (s : Sol F) : Sol F :=
  (List.range nPol).foldl (fun s pol =>
    let ref := chooseReference nCh nAnt s pol
    (List.range nCh).foldl (referenceChannel nAnt nSub pol ref) s) s

end DP3.Constraints
