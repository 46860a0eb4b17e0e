import Verif.PreFlaggerExpr.Model
import Mathlib.Algebra.Order.Ring.Defs

/-!
Model of the selection sets of the PreFlagger (`PSet::updateInfo`, `PSet::process` and the
functions it calls) and of the four modes (`setFlags`, `clearFlags`), `steps/PreFlagger.cc`.

Values are elements of an ordered ring.  The values derived from coordinates by casacore
(time of day, sidereal time, azimuth, elevation) and the amplitude and phase of the data
are inputs.  A flag array is a function of baseline and channel.
-/

namespace DP3.PreFlaggerSet

open PreFlaggerExpr

variable {F : Type} [CommRing F] [LinearOrder F]

/-- Per correlation, the lower and upper limit, steps/PreFlagger.h:248-255. -/
abbrev Limits (F : Type) := Nat → F × F

/-- The criteria of one set, from the parset and `updateInfo`, steps/PreFlagger.cc:222-266
and 285-293: ranges of times (abstime, reltime, timeofday, lst), time slots, azimuth and
elevation ranges, the baseline matrix, uvmmin and uvmmax, the channel mask (`none`: neither
`chan` nor `freqrange` given), and limits (`none`: not given). -/
structure Criteria (F : Type) where
  aTimes : List (F × F) := []
  rTimes : List (F × F) := []
  times : List (F × F) := []
  lst : List (F × F) := []
  slots : List Nat := []
  azimuth : List (F × F) := []
  elevation : List (F × F) := []
  baselines : Option (Nat → Nat → Bool) := none
  minUV : F
  maxUV : F
  channels : Option (List Bool) := none
  ampl : Option (Limits F) := none
  real : Option (Limits F) := none
  imag : Option (Limits F) := none
  phase : Option (Limits F) := none

/-- The parset of a set, steps/PreFlagger.cc:210-278: its criteria, and, if `expr` is given,
its tokens and the sets with a name below it. -/
inductive Config (F : Type)
  | leaf (crit : Criteria F)
  | node (crit : Criteria F) (expr : List Tok) (sub : String → Config F)

/-- A set after `updateInfo`: criteria, with the distances squared, `itsRpn` and
`itsPSets`. -/
inductive PSet (F : Type)
  | node (crit : Criteria F) (rpn : List Item) (psets : List (PSet F))

/-- A time slot of data: number of baselines, channels and correlations, the antennas of a
baseline, u and v of a baseline, azimuth and elevation (in seconds, not negative) for an
antenna, and the four values derived from a visibility. -/
structure Slot (F : Type) where
  nBaselines : Nat
  nChannels : Nat
  nCorr : Nat
  ant1 : Nat → Nat
  ant2 : Nat → Nat
  u : Nat → F
  v : Nat → F
  az : Nat → F
  el : Nat → F
  time : F
  start : F
  timeOfDay : F
  sidereal : F
  index : Nat
  ampl : Nat → Nat → Nat → F
  real : Nat → Nat → Nat → F
  imag : Nat → Nat → Nat → F
  phase : Nat → Nat → Nat → F

/-- `itsFlagOnTime`, steps/PreFlagger.cc:289-290. -/
def flagOnTime (c : Criteria F) : Bool :=
  !(c.slots.isEmpty && c.times.isEmpty && c.lst.isEmpty && c.aTimes.isEmpty && c.rTimes.isEmpty)

/-- `itsFlagOnAzEl`, steps/PreFlagger.cc:294. -/
def flagOnAzEl (c : Criteria F) : Bool := !(c.azimuth.isEmpty && c.elevation.isEmpty)

/-- `itsFlagOnUV` (from the values before squaring), steps/PreFlagger.cc:238. -/
def flagOnUV (c : Criteria F) : Bool := decide (c.minUV ≥ 0) || decide (c.maxUV > 0)

/-- `itsChannels` is not empty, steps/PreFlagger.cc:319-324 and 383-391. -/
def hasChannels (c : Criteria F) : Bool :=
  match c.channels with
  | none => false
  | some mask => mask.any id

/-- `itsFlagOnTimeOnly`, steps/PreFlagger.cc:309-312 and 321-323. -/
def flagOnTimeOnly (c : Criteria F) (noSets : Bool) : Bool :=
  !(flagOnUV c || c.baselines.isSome || flagOnAzEl c || c.ampl.isSome || c.phase.isSome ||
    c.real.isSome || c.imag.isSome) && noSets && !hasChannels c

/-- The squared limits, steps/PreFlagger.cc:297-305; `big` is 1e30. -/
def uvLimits (big : F) (c : Criteria F) : F × F :=
  (if c.minUV ≥ 0 then c.minUV * c.minUV else c.minUV,
   if c.maxUV > 0 then c.maxUV * c.maxUV else big)

/-- Construction of the sets, steps/PreFlagger.cc:267-277, 306-307, 326-328; `none`: an
exception is thrown. -/
def build (big : F) : Config F → Option (PSet F)
  | .leaf c =>
    if (uvLimits big c).1 ≥ (uvLimits big c).2 then none else some (.node c [] [])
  | .node c expr sub =>
    if (uvLimits big c).1 ≥ (uvLimits big c).2 then none
    else (parse expr).bind fun r =>
      (r.2.mapM fun n => build big (sub n)).map fun psets => .node c r.1 psets

/-- `matchRange`, steps/PreFlagger.cc:602-610. -/
def matchRange (v : F) (ranges : List (F × F)) : Bool :=
  ranges.any fun r => decide (v > r.1) && decide (v < r.2)

/-- `matchTime`, steps/PreFlagger.cc:565-600. -/
def matchTime (s : Slot F) (c : Criteria F) : Bool :=
  if !c.aTimes.isEmpty && !matchRange s.time c.aTimes then false
  else if !c.rTimes.isEmpty && !matchRange (s.time - s.start) c.rTimes then false
  else if !c.times.isEmpty && !matchRange s.timeOfDay c.times then false
  else if !c.slots.isEmpty && !c.slots.contains s.index then false
  else if !c.lst.isEmpty && !matchRange s.sidereal c.lst then false
  else true

/-- `flagBL`, steps/PreFlagger.cc:631-645. -/
def flagBL (s : Slot F) (sel : Nat → Nat → Bool) (m : Nat → Bool) : Nat → Bool :=
  fun i => m i && sel (s.ant1 i) (s.ant2 i)

/-- `flagUV`, steps/PreFlagger.cc:612-629. -/
def flagUV (s : Slot F) (lim : F × F) (m : Nat → Bool) : Nat → Bool :=
  fun i =>
    let d := s.u i * s.u i + s.v i * s.v i
    m i && !(decide (d ≥ lim.1) && decide (d ≤ lim.2))

/-- `testAzEl`, steps/PreFlagger.cc:685-709. -/
def testAzEl (s : Slot F) (c : Criteria F) (blnr ant : Nat) (m : Nat → Bool) : Nat → Bool :=
  let res := (c.azimuth.isEmpty || matchRange (s.az ant) c.azimuth) &&
    (c.elevation.isEmpty || matchRange (s.el ant) c.elevation)
  if res then m
  else fun i => m i && !(decide (blnr ≤ i) && (s.ant1 i == ant || s.ant2 i == ant))

/-- One iteration in `flagAzEl`, steps/PreFlagger.cc:660-680; the state is `itsMatchBL`
and `done`. -/
def azElStep (s : Slot F) (c : Criteria F) (st : (Nat → Bool) × (Nat → Bool)) (i : Nat) :
    (Nat → Bool) × (Nat → Bool) :=
  if st.1 i then
    let a1 := s.ant1 i
    let a2 := s.ant2 i
    let st1 := if !st.2 a1 then
        (testAzEl s c i a1 st.1, fun a => decide (a = a1) || st.2 a)
      else st
    if st1.1 i && !st1.2 a2 then
      (testAzEl s c i a2 st1.1, fun a => decide (a = a2) || st1.2 a)
    else st1
  else st

/-- `flagAzEl`, steps/PreFlagger.cc:647-683. -/
def flagAzEl (s : Slot F) (c : Criteria F) (m : Nat → Bool) : Nat → Bool :=
  ((List.range s.nBaselines).foldl (azElStep s c) (m, fun _ => false)).1

/-- `match` as returned by the three functions: a baseline is left,
steps/PreFlagger.cc:624, 640, 678. -/
def anyMatch (s : Slot F) (m : Nat → Bool) : Bool := (List.range s.nBaselines).any m

/-- `flagAmpl`, `flagReal`, `flagImag`, `flagPhase`, steps/PreFlagger.cc:711-806. -/
def flagValue (s : Slot F) (value : Nat → Nat → Nat → F) (lim : Option (Limits F))
    (flags : Nat → Nat → Bool) : Nat → Nat → Bool :=
  match lim with
  | none => flags
  | some lim => fun bl ch =>
      flags bl ch && (List.range s.nCorr).any fun k =>
        decide (value bl ch k < (lim k).1) || decide (value bl ch k > (lim k).2)

/-- `flagChannels` if there are channels, steps/PreFlagger.cc:512-514 and 808-818. -/
def flagChannels (c : Criteria F) (flags : Nat → Nat → Bool) : Nat → Nat → Bool :=
  match c.channels with
  | none => flags
  | some mask => if mask.any id then fun bl ch => flags bl ch && mask.getD ch false else flags

/-- The evaluation of the expression on arrays, steps/PreFlagger.cc:534-553. -/
def evalArrays (results : List (Nat → Nat → Bool)) :
    List Item → List (Nat → Nat → Bool) → Option (List (Nat → Nat → Bool))
  | [], stk => some stk
  | .set i :: items, stk =>
    match results[i]? with
    | none => none
    | some r => evalArrays results items (r :: stk)
  | .op .not :: items, x :: stk => evalArrays results items ((fun bl ch => !x bl ch) :: stk)
  | .op .or :: items, r :: l :: stk =>
    evalArrays results items ((fun bl ch => l bl ch || r bl ch) :: stk)
  | .op .and :: items, r :: l :: stk =>
    evalArrays results items ((fun bl ch => l bl ch && r bl ch) :: stk)
  | .op _ :: _, _ => none

/-- The result of the expression, steps/PreFlagger.cc:555-559. -/
def evalSets (results : List (Nat → Nat → Bool)) (rpn : List Item) : Option (Nat → Nat → Bool) :=
  match evalArrays results rpn [] with
  | some [x] => some x
  | _ => none

/-- `flagBL` if baselines are selected, steps/PreFlagger.cc:492. -/
def selectBL (s : Slot F) (c : Criteria F) (m : Nat → Bool) : Nat → Bool :=
  match c.baselines with
  | none => m
  | some sel => flagBL s sel m

/-- The baselines left by the criteria on baselines, or `none` when the function returns
early, steps/PreFlagger.cc:492-502. -/
def narrow (big : F) (s : Slot F) (c : Criteria F) (m : Nat → Bool) : Option (Nat → Bool) :=
  let m1 := selectBL s c m
  if c.baselines.isSome && !anyMatch s m1 then none
  else
    let m2 := if flagOnUV c then flagUV s (uvLimits big c) m1 else m1
    if flagOnUV c && !anyMatch s m2 then none
    else
      let m3 := if flagOnAzEl c then flagAzEl s c m2 else m2
      if flagOnAzEl c && !anyMatch s m3 then none else some m3

/-- The criteria within a baseline, steps/PreFlagger.cc:503-527. -/
def ownFlags (s : Slot F) (c : Criteria F) (m : Nat → Bool) : Nat → Nat → Bool :=
  flagValue s s.phase c.phase (flagValue s s.imag c.imag (flagValue s s.real c.real
    (flagValue s s.ampl c.ampl (flagChannels c fun bl _ => m bl))))

mutual
/-- `PSet::process`, steps/PreFlagger.cc:458-563; `m` are the baselines selected by the
parent (all for the top set). -/
def process (big : F) (s : Slot F) : PSet F → (Nat → Bool) → Option (Nat → Nat → Bool)
  | .node c rpn psets, m =>
    if flagOnTime c && !matchTime s c then some fun _ _ => false
    else if flagOnTimeOnly c psets.isEmpty then some fun _ _ => flagOnTime c
    else
      match narrow big s c m with
      | none => some fun _ _ => false
      | some m' =>
        if psets.isEmpty then some (ownFlags s c m')
        else
          (processAll big s psets m').bind fun results =>
            (evalSets results rpn).map fun e => fun bl ch => ownFlags s c m' bl ch && e bl ch

/-- The children, steps/PreFlagger.cc:537. -/
def processAll (big : F) (s : Slot F) :
    List (PSet F) → (Nat → Bool) → Option (List (Nat → Nat → Bool))
  | [], _ => some []
  | p :: ps, m => (process big s p m).bind fun r => (processAll big s ps m).map (r :: ·)
end

/-! ### Modes -/

/-- Flags of the buffer: per baseline and channel a flag per correlation; and the counts
per baseline and channel. -/
structure Flags where
  flags : Nat → Nat → List Bool
  perBaseline : Nat → Nat
  perChannel : Nat → Nat

/-- Fill all correlations and count, steps/PreFlagger.cc:168-170 and 196-198. -/
def Flags.fill (f : Flags) (bl ch : Nat) (value : Bool) : Flags where
  flags := fun b c => if b = bl ∧ c = ch then (f.flags b c).map fun _ => value else f.flags b c
  perBaseline := fun b => if b = bl then f.perBaseline b + 1 else f.perBaseline b
  perChannel := fun c => if c = ch then f.perChannel c + 1 else f.perChannel c

/-- The first correlation's flag, `out(baseline, channel, 0)`. -/
def Flags.first (f : Flags) (bl ch : Nat) : Bool := (f.flags bl ch).headD false

/-- One visibility in `setFlags`, steps/PreFlagger.cc:166-171. -/
def setOne (sel : Nat → Nat → Bool) (mode : Bool) (f : Flags) (p : Nat × Nat) : Flags :=
  if (sel p.1 p.2 == mode) && !f.first p.1 p.2 then f.fill p.1 p.2 true else f

/-- One visibility in `clearFlags`, steps/PreFlagger.cc:188-200; `bad`: a correlation of
the visibility is not finite or has weight zero. -/
def clearOne (bad sel : Nat → Nat → Bool) (mode : Bool) (f : Flags) (p : Nat × Nat) : Flags :=
  if sel p.1 p.2 == mode then
    if f.first p.1 p.2 != bad p.1 p.2 then f.fill p.1 p.2 (bad p.1 p.2) else f
  else f

/-- All baselines and channels, in the order of the loops at steps/PreFlagger.cc:164-165. -/
def cells (nBl nCh : Nat) : List (Nat × Nat) :=
  (List.range nBl).flatMap fun bl => (List.range nCh).map fun ch => (bl, ch)

/-- `Mode`, steps/PreFlagger.h:57. -/
inductive Mode
  | set
  | clear
  | setComp
  | clearComp
  deriving DecidableEq

/-- The switch in `process`, steps/PreFlagger.cc:135-150. -/
def apply (mode : Mode) (bad sel : Nat → Nat → Bool) (nBl nCh : Nat) (f : Flags) : Flags :=
  match mode with
  | .set => (cells nBl nCh).foldl (setOne sel true) f
  | .clear => (cells nBl nCh).foldl (clearOne bad sel true) f
  | .setComp => (cells nBl nCh).foldl (setOne sel false) f
  | .clearComp => (cells nBl nCh).foldl (clearOne bad sel false) f

end DP3.PreFlaggerSet
