import Verif.StringTools.Model
import Mathlib.Algebra.Order.Field.Basic

/-!
# Flagging on uvw coordinates

Model of `steps/UVWFlagger.cc`. Numbers are elements of an ordered field; the square root and the conversion
of a string to a number are parameters. The flags of a buffer are one flat list, as in the code; writing
behind its end is undefined behaviour. The coordinates, which are either those of the buffer or calculated for
another phase centre, are given. The model keeps the increments of the flag counters as a list.
-/

namespace DP3.UvwFlagger

open DP3.StringTools

variable {K : Type} [Field K] [LinearOrder K]

/-- Coordinates of a baseline. -/
structure Uvw (K : Type) where
  u : K
  v : K
  w : K

/-- The eight lists of ranges (steps/UVWFlagger.h, members itsRange*). A list has the start and the end of
each range, one after the other. -/
structure Ranges (K : Type) where
  uvm : List K
  um : List K
  vm : List K
  wm : List K
  uvl : List K
  ul : List K
  vl : List K
  wl : List K

/-- steps/UVWFlagger.cc:289-296 testUVWm, also the inner loop of testUVWl (307-312). -/
def testM (x : K) : List K → Except Err Bool
  | [] => .ok false
  | [a] => if a < x then .error .ub else .ok false
  | a :: b :: rest => if a < x ∧ x < b then .ok true else testM x rest

/-- `std::fill_n(flagPtr, n, true)` with the pointer at an offset. -/
def fillN (flags : List Bool) (off n : Nat) : Except Err (List Bool) :=
  if off + n ≤ flags.length then .ok (flags.take off ++ (List.replicate n true ++ flags.drop (off + n)))
  else .error .ub

/-- steps/UVWFlagger.cc:298-315 testUVWl: over the reciprocals of the wavelengths. -/
def testL (x : K) (ranges : List K) (nCorr : Nat) : List K → Nat → List Bool → Except Err (List Bool)
  | [], _, flags => .ok flags
  | k :: ks, off, flags =>
    match testM (x * k) ranges with
    | .error e => .error e
    | .ok true =>
      match fillN flags off nCorr with
      | .error e => .error e
      | .ok flags => testL x ranges nCorr ks (off + nCorr) flags
    | .ok false => testL x ranges nCorr ks (off + nCorr) flags

/-- One of the tests on metres, steps/UVWFlagger.cc:250-263: not done when the baseline is flagged already
or there are no ranges. -/
def stepM (x : K) (ranges : List K) (flagged : Bool) : Except Err Bool :=
  if flagged || ranges.isEmpty then .ok flagged else testM x ranges

/-- One of the tests on wavelengths, steps/UVWFlagger.cc:268-280. -/
def stepL (x : K) (ranges : List K) (nCorr : Nat) (recWavel : List K) (off : Nat) (flags : List Bool) :
    Except Err (List Bool) :=
  if ranges.isEmpty then .ok flags else testL x ranges nCorr recWavel off flags

/-- steps/UVWFlagger.cc:248-263: whether the entire baseline is flagged. -/
def flagBaseline (r : Ranges K) (p : Uvw K) : Except Err Bool := do
  let f ← stepM (p.u * p.u + p.v * p.v) r.uvm false
  let f ← stepM p.u r.um f
  let f ← stepM p.v r.vm f
  stepM p.w r.wm f

/-- steps/UVWFlagger.cc:268-280. -/
def flagChannels (sqrt : K → K) (r : Ranges K) (p : Uvw K) (nCorr : Nat) (recWavel : List K) (off : Nat)
    (flags : List Bool) : Except Err (List Bool) := do
  let flags ← stepL (sqrt (p.u * p.u + p.v * p.v)) r.uvl nCorr recWavel off flags
  let flags ← stepL p.u r.ul nCorr recWavel off flags
  let flags ← stepL p.v r.vl nCorr recWavel off flags
  stepL p.w r.wl nCorr recWavel off flags

/-- steps/UVWFlagger.cc:245-282 doFlag. -/
def doFlag (sqrt : K → K) (r : Ranges K) (p : Uvw K) (nCorr nChan : Nat) (recWavel : List K) (off : Nat)
    (flags : List Bool) : Except Err (List Bool) :=
  match flagBaseline r p with
  | .error e => .error e
  | .ok true => fillN flags off (nCorr * nChan)
  | .ok false => flagChannels sqrt r p nCorr recWavel off flags

/-- steps/UVWFlagger.cc:175-183: the channels whose first correlation was flagged now. A read behind the flags
(there is no correlation) is undefined behaviour. -/
def newlyFlagged (orig flags : List Bool) (nCorr : Nat) : Nat → Nat → Nat → Except Err (List Nat)
  | 0, _, _ => .ok []
  | n + 1, j, off =>
    match flags[off]?, orig[off]? with
    | some f, some o =>
      match newlyFlagged orig flags nCorr n (j + 1) (off + nCorr) with
      | .error e => .error e
      | .ok rest => .ok (if f && !o then j :: rest else rest)
    | _, _ => .error .ub

/-- steps/UVWFlagger.cc:158-184: the loop over the baselines of a buffer. The result has the flags and the
increments of the counters of baselines and channels. -/
def loop (sqrt : K → K) (r : Ranges K) (nCorr nChan : Nat) (recWavel : List K) :
    List (Uvw K) → Nat → List Bool → Except Err (List Bool × List (Nat × Nat))
  | [], _, flags => .ok (flags, [])
  | p :: ps, i, flags =>
    let off := i * (nCorr * nChan)
    match doFlag sqrt r p nCorr nChan recWavel off flags with
    | .error e => .error e
    | .ok out =>
      match newlyFlagged flags out nCorr nChan 0 off with
      | .error e => .error e
      | .ok channels =>
        match loop sqrt r nCorr nChan recWavel ps (i + 1) out with
        | .error e => .error e
        | .ok (final, counts) => .ok (final, channels.map (fun j => (i, j)) ++ counts)

/-- steps/UVWFlagger.cc:49-53: no ranges at all. -/
def degenerate (r : Ranges K) : Bool :=
  decide (r.uvm.length + r.uvl.length + r.um.length + r.vm.length + r.wm.length + r.ul.length + r.vl.length +
    r.wl.length = 0)

/-- steps/UVWFlagger.cc:133-190 process of a regular buffer. All baselines use the wavelengths of the first. -/
def process (sqrt : K → K) (r : Ranges K) (nCorr nChan : Nat) (recWavel : List (List K)) (ps : List (Uvw K))
    (flags : List Bool) : Except Err (List Bool × List (Nat × Nat)) :=
  if degenerate r then .ok (flags, [])
  else
    match recWavel with
    | [] => .error .ub
    | first :: _ => loop sqrt r nCorr nChan first ps 0 flags

/-- A row of a BDA buffer. -/
structure Row (K : Type) where
  baseline : Nat
  nCorr : Nat
  nChan : Nat
  uvw : Uvw K
  flags : List Bool

/-- steps/UVWFlagger.cc:200-238: a row of a BDA buffer, with the wavelengths of its own baseline. The
increments of the counters are those of its baseline. -/
def processRow (sqrt : K → K) (r : Ranges K) (recWavel : List (List K)) (row : Row K) :
    Except Err (List Bool × List (Nat × Nat)) :=
  match recWavel[row.baseline]? with
  | none => .error .ub
  | some k =>
    match doFlag sqrt r row.uvw row.nCorr row.nChan k 0 row.flags with
    | .error e => .error e
    | .ok out =>
      match newlyFlagged row.flags out row.nCorr row.nChan 0 0 with
      | .error e => .error e
      | .ok channels => .ok (out, channels.map fun j => (row.baseline, j))

/-- steps/UVWFlagger.cc:192-243 process of a BDA buffer. -/
def processBda (sqrt : K → K) (r : Ranges K) (recWavel : List (List K)) :
    List (Row K) → Except Err (List (List Bool) × List (Nat × Nat))
  | [] => .ok ([], [])
  | row :: rows =>
    if degenerate r then .ok ((row :: rows).map Row.flags, [])
    else
      match processRow sqrt r recWavel row with
      | .error e => .error e
      | .ok (out, counts) =>
        match processBda sqrt r recWavel rows with
        | .error e => .error e
        | .ok (outs, more) => .ok (out :: outs, counts ++ more)

/-! ## Reading the ranges -/

/-- `std::string::find` of a token of two characters, with `substr` before and behind it. -/
def splitToken (a b : Char) : List Char → Option (List Char × List Char)
  | [] => none
  | c :: r =>
    if c = a ∧ r.head? = some b then some ([], r.tail)
    else (splitToken a b r).map fun q => (c :: q.1, q.2)

/-- Both numbers of a range string, steps/UVWFlagger.cc:342-345. -/
def twoNumbers (num : List Char → Except Err K) (q : List Char × List Char) : Except Err (K × K) :=
  match num q.1 with
  | .error e => .error e
  | .ok v1 =>
    match num q.2 with
    | .error e => .error e
    | .ok v2 => .ok (v1, v2)

/-- steps/UVWFlagger.cc:330-350: one range string. -/
def parseRange (num : List Char → Except Err K) (s : List Char) : Except Err (K × K) :=
  match splitToken '.' '.' s with
  | some q => twoNumbers num q
  | none =>
    match splitToken '+' '-' s with
    | none => .error .throws
    | some q =>
      match twoNumbers num q with
      | .error e => .error e
      | .ok (v, hw) => .ok (v - hw, v + hw)

/-- steps/UVWFlagger.cc:328-353: all range strings. -/
def parseRanges (num : List Char → Except Err K) : List (List Char) → Except Err (List K)
  | [] => .ok []
  | s :: rest =>
    match parseRange num s with
    | .error e => .error e
    | .ok (a, b) =>
      match parseRanges num rest with
      | .error e => .error e
      | .ok vals => .ok (a :: b :: vals)

/-- The settings for one coordinate: the strings of the range setting, the minimum and the maximum, which are
zero when not given (steps/UVWFlagger.cc:320-324). -/
structure Setting (K : Type) where
  ranges : List (List Char)
  min : K
  max : K

/-- steps/UVWFlagger.cc:354-362: the ranges for the minimum and the maximum; `big` is 1e15. -/
def limits (big : K) (s : Setting K) : List K :=
  (if 0 < s.min then [-big, s.min] else []) ++ (if 0 < s.max then [s.max, big] else [])

/-- steps/UVWFlagger.cc:363-370: the square of a value. -/
def squareVal (big x : K) : K := if x ≠ -big then x * x else x

/-- steps/UVWFlagger.cc:317-372 fillUVW. -/
def fillUVW (num : List Char → Except Err K) (big : K) (s : Setting K) (square : Bool) : Except Err (List K) :=
  match parseRanges num s.ranges with
  | .error e => .error e
  | .ok vals =>
    let vals := vals ++ limits big s
    .ok (if square then vals.map (squareVal big) else vals)

/-- The settings of the step. -/
structure Settings (K : Type) where
  uvm : Setting K
  um : Setting K
  vm : Setting K
  wm : Setting K
  uvl : Setting K
  ul : Setting K
  vl : Setting K
  wl : Setting K

/-- steps/UVWFlagger.cc:41-48: the constructor. -/
def readRanges (num : List Char → Except Err K) (big : K) (s : Settings K) : Except Err (Ranges K) := do
  let uvm ← fillUVW num big s.uvm true
  let um ← fillUVW num big s.um false
  let vm ← fillUVW num big s.vm false
  let wm ← fillUVW num big s.wm false
  let uvl ← fillUVW num big s.uvl false
  let ul ← fillUVW num big s.ul false
  let vl ← fillUVW num big s.vl false
  let wl ← fillUVW num big s.wl false
  return ⟨uvm, um, vm, wm, uvl, ul, vl, wl⟩

end DP3.UvwFlagger
