import Mathlib.Algebra.Order.Ring.Rat
import Mathlib.Algebra.Field.Rat
import Mathlib.Algebra.Order.Floor.Defs
import Mathlib.Data.Rat.Floor

/-!
# The ranges of times, channels and frequencies that are given to PreFlagger

Models `fillTimes`, `getSeconds`, `fillChannels`, `handleFreqRanges`, `getValue` and `matchRange` of steps/PreFlagger.cc. Texts are lists of
characters. How casacore reads angles, dates and expressions, and how numbers are read, are parameters; numbers are rational.
-/

namespace DP3.PreFlagRanges

/-- Exceptions and undefined behaviour. -/
inductive Err
  | throws
  | ub
  deriving DecidableEq, Repr

/-- `std::string::find` of two characters (steps/PreFlagger.cc:966, 969, 346, 1083, 1086): the texts before and behind the first place. -/
def find2 (x y : Char) : List Char → Option (List Char × List Char)
  | [] => none
  | [_] => none
  | a :: b :: rest => if a = x ∧ b = y then some ([], rest) else (find2 x y (b :: rest)).map fun p => (a :: p.1, p.2)

/-- Splitting at `..`, or else at `+-` (the first result tells which), steps/PreFlagger.cc:965-973 and 1082-1092. -/
def splitRange (s : List Char) : Except Err (Bool × List Char × List Char) :=
  match find2 '.' '.' s with
  | some p => .ok (false, p)
  | none =>
    match find2 '+' '-' s with
    | some p => .ok (true, p)
    | none => .error .throws

/-- MVAngle::read and MVTime::read, in seconds. -/
structure Readers where
  angle : List Char → Option ℚ
  dateTime : List Char → Option ℚ

/-- `getSeconds`, steps/PreFlagger.cc:1013-1035. -/
def getSeconds (R : Readers) (s : List Char) (asTime usepm : Bool) : Except Err ℚ :=
  if asTime || usepm then
    match R.angle s with
    | none => .error .throws
    | some v => if usepm = true ∧ v ≤ 0 then .error .throws else .ok v
  else
    match R.angle s with
    | some _ => .error .throws
    | none =>
      match R.dateTime s with
      | none => .error .throws
      | some v => .ok v

/-- The bounds of a range after `+-` is handled and the times of a day are brought back to the day, steps/PreFlagger.cc:980-999. -/
def bounds (usepm canEndBeforeStart : Bool) (v1 v2 : ℚ) : Except Err (ℚ × ℚ) :=
  let lo := if usepm then v1 - v2 else v1
  let hi := if usepm then v1 + v2 else v2
  if canEndBeforeStart then .ok (if lo < 0 then lo + 86400 else lo, if hi > 86400 then hi - 86400 else hi)
  else if lo ≥ hi then .error .throws
  else .ok (lo, hi)

/-- The pairs that a range is stored as, steps/PreFlagger.cc:1000-1008. -/
def pairs (v1 v2 : ℚ) : List (ℚ × ℚ) := if v1 < v2 then [(v1, v2)] else [(-1, v2), (v1, 86401)]

/-- One element of the loop of `fillTimes`, steps/PreFlagger.cc:962-1009. -/
def fillOne (R : Readers) (asTime canEndBeforeStart : Bool) (s : List Char) : Except Err (List (ℚ × ℚ)) :=
  (splitRange s).bind fun p =>
  (getSeconds R p.2.1 asTime false).bind fun v1 =>
  (getSeconds R p.2.2 asTime p.1).bind fun v2 =>
  if v1 < 0 ∨ v2 < 0 then .error .throws
  else (bounds p.1 canEndBeforeStart v1 v2).map fun b => pairs b.1 b.2

/-- `fillTimes`, steps/PreFlagger.cc:957-1011. -/
def fillTimes (R : Readers) (asTime canEndBeforeStart : Bool) : List (List Char) → Except Err (List (ℚ × ℚ))
  | [] => .ok []
  | s :: rest => (fillOne R asTime canEndBeforeStart s).bind fun a => (fillTimes R asTime canEndBeforeStart rest).map fun b => a ++ b

/-- `matchRange`, steps/PreFlagger.cc:602-610. -/
def matchRange (v : ℚ) (ranges : List (ℚ × ℚ)) : Bool := ranges.any fun p => decide (v > p.1 ∧ v < p.2)

/-! ## Channels -/

/-- The conversion of a value to an unsigned int, steps/PreFlagger.cc:350, 360, 364: undefined behaviour outside of its range. -/
def toUnsigned (x : ℚ) : Except Err Nat :=
  if x + 1 / 1000 ≤ -1 ∨ x + 1 / 1000 ≥ 4294967296 then .error .ub else .ok ⌊x + 1 / 1000⌋₊

/-- The first and last channel of an element, steps/PreFlagger.cc:345-370; `eval` evaluates an expression (RecordGram::parse). -/
def channelRange (eval : List Char → Option ℚ) (s : List Char) : Except Err (Nat × Nat) :=
  match find2 '.' '.' s with
  | none =>
    match eval s with
    | none => .error .throws
    | some x => (toUnsigned x).map fun c => (c, c)
  | some (a, b) =>
    if a = [] ∨ b = [] then .error .throws
    else
      match eval a with
      | none => .error .throws
      | some x => (toUnsigned x).bind fun first =>
        match eval b with
        | none => .error .throws
        | some y => (toUnsigned y).bind fun last => if first > last then .error .throws else .ok (first, last)

/-- Setting a part of the selection, steps/PreFlagger.cc:371-374. `endch + 1` is an unsigned int as well; a range that ends before it starts
is taken as empty. -/
def selectRange (sel : List Bool) (r : Nat × Nat) : List Bool :=
  if r.1 < sel.length then sel.mapIdx fun i x => x || (decide (r.1 ≤ i) && decide (i < min ((r.2 + 1) % 4294967296) sel.length)) else sel

/-- The loop over the elements, steps/PreFlagger.cc:342-375. -/
def selectChannels (eval : List Char → Option ℚ) : List Bool → List (List Char) → Except Err (List Bool)
  | sel, [] => .ok sel
  | sel, s :: rest => (channelRange eval s).bind fun r => selectChannels eval (selectRange sel r) rest

/-! ## Frequencies -/

/-- `getValue`, steps/PreFlagger.cc:1124-1138: the letters at the end of the text are the unit; if there are none the unit is as before. -/
def getValue (number : List Char → Option ℚ) (s : List Char) (unit : List Char) : Except Err (ℚ × List Char) :=
  let v := (s.reverse.dropWhile Char.isWhitespace)
  let u := v.takeWhile Char.isAlpha
  match number (v.dropWhile Char.isAlpha).reverse with
  | none => .error .throws
  | some x => .ok (x, if u = [] then unit else u.reverse)

/-- The bounds of a frequency range in Hz, steps/PreFlagger.cc:1093-1113; `hz` gives the value of a unit in Hz, if it is one of frequency. -/
def freqBounds (number : List Char → Option ℚ) (hz : List Char → Option ℚ) (s : List Char) : Except Err (ℚ × ℚ) :=
  (splitRange s).bind fun p =>
  (getValue number p.2.1 []).bind fun a =>
  (getValue number p.2.2 a.2).bind fun b =>
  let u2 := if b.2 = [] then ['M', 'H', 'z'] else b.2
  let u1 := if a.2 = [] then u2 else a.2
  match hz u1, hz u2 with
  | some f1, some f2 => .ok (if p.1 then (a.1 * f1 - b.1 * f2, a.1 * f1 + b.1 * f2) else (a.1 * f1, b.1 * f2))
  | _, _ => .error .throws

/-- `handleFreqRanges`, steps/PreFlagger.cc:1072-1122. -/
def handleFreqRanges (number hz : List Char → Option ℚ) (freqs : List ℚ) : List (List Char) → Except Err (List Bool)
  | [] => .ok (freqs.map fun _ => false)
  | s :: rest => (freqBounds number hz s).bind fun b => (handleFreqRanges number hz freqs rest).map fun sel =>
      List.zipWith (fun f x => x || decide (f > b.1 ∧ f < b.2)) freqs sel

/-- `fillChannels`, steps/PreFlagger.cc:331-392: itsChanFlags. -/
def fillChannels (eval number hz : List Char → Option ℚ) (freqs : List ℚ) (strChan strFreq : List (List Char)) : Except Err (List Bool) :=
  (if strChan = [] then .ok (freqs.map fun _ => true) else selectChannels eval (freqs.map fun _ => false) strChan).bind fun sel =>
  if strFreq = [] then .ok sel else (handleFreqRanges number hz freqs strFreq).map fun f => List.zipWith (fun a b => a && b) sel f

end DP3.PreFlagRanges
