import Mathlib.Algebra.Field.Basic
import Mathlib.Algebra.Order.Ring.Defs

/-!
# Descriptions of data sets

Model of `VdsPartDesc` (common/VdsPartDesc.cc) and `VdsMaker` (common/VdsMaker.cc): writing and reading of the times of the
slots, combining of parts, and the frequencies and fields taken from a measurement set. Numbers are in an ordered field; what
is lost by writing them with few digits is a function. Names, stations and data files are left out.
-/

namespace DP3.Vds

variable {K : Type}

/-! ## Times of the slots -/

/-- common/VdsPartDesc.cc:74-79: the differences of start times, from the start `t`. -/
def writeStarts [Ring K] (step : K) : K → List K → List K
  | _, [] => []
  | t, x :: xs => (x - t) :: writeStarts step (t + step) xs

/-- common/VdsPartDesc.cc:86-91: the differences of end times, from the start `t`. -/
def writeEnds [Ring K] (step : K) : K → List K → List K
  | _, [] => []
  | t, x :: xs => (x - (t + step)) :: writeEnds step (t + step) xs

/-- common/VdsPartDesc.cc:47-52: the times from the differences; the sizes are the same. -/
def readTimes [Ring K] (step : K) : K → List K → List K → List K × List K
  | t, s :: ss, e :: es =>
    let r := readTimes step (t + step) ss es
    ((s + t) :: r.1, (e + (t + step)) :: r.2)
  | _, _, _ => ([], [])

/-- common/VdsPartDesc.cc:70-94 and 27-52: the times that are read after writing, if the step is written as `rs step` and a
difference `d` as `rd d`. `none`: an exception. -/
def reread [Ring K] (rs rd : K → K) (start step : K) (starts ends : List K) : Option (List K × List K) :=
  let ss := (writeStarts step start starts).map rd
  let es := (writeEnds step start ends).map rd
  if ss.length = es.length then some (readTimes (rs step) start ss es) else none

/-! ## Combining -/

/-- common/VdsMaker.cc:332-344: the loop over the bands of a part, `inx` is `inxf`. `none`: access outside an array. -/
def goBands (single : Bool) (sf ef : List K) : List Nat → Nat → Option (List (Nat × K × K))
  | [], _ => some []
  | n :: ns, inx =>
    sf[inx]?.bind fun s =>
      let inx' := if single then inx + 1 else inx + n
      if inx' = 0 then none
      else ef[inx' - 1]?.bind fun e => (goBands single sf ef ns inx').map fun r => (n, s, e) :: r

/-- common/VdsMaker.cc:329-344: the bands of a part that are added to the global description. -/
def partBands (chans : List Nat) (sf ef : List K) : Option (List (Nat × K × K)) :=
  goBands (decide (chans.length = sf.length)) sf ef chans 0

/-- common/VdsMaker.cc:316-351: the start and end time of the parts, of which `times` are the start and end times; `big` is
1e30. -/
def minMax [LinearOrder K] [Zero K] (big : K) (times : List (K × K)) : K × K :=
  times.foldl (fun a x => if x.1 = 0 then a else (min a.1 x.1, max a.2 x.2)) (big, 0)

/-- common/VdsMaker.cc:354-357: with the checks. `none`: an exception. -/
def combineTimes [LinearOrder K] [Zero K] (big : K) (times : List (K × K)) : Option (K × K) :=
  if times = [] then none
  else if (minMax big times).1 = 0 then none
  else some (minMax big times)

/-! ## A measurement set -/

/-- common/VdsMaker.cc:51-69 getFreqInfo: the start and end frequencies of the channels; `dataDesc` are the spectral windows
of the rows of DATA_DESCRIPTION, `spws` the frequencies and widths of the channels of the spectral windows. `none`: access to
a row that does not exist. -/
def freqInfo [Field K] (dataDesc : List Nat) (spws : List (List (K × K))) : Option (List (List (K × K))) :=
  (List.range dataDesc.length).mapM fun i =>
    spws[i]?.map fun chans => chans.map fun c => (c.1 - c.2 / 2, c.1 + c.2 / 2)

/-- common/VdsMaker.cc:71-85 getFields: `dirs` has for each field its list of directions. `none`: access outside an array. -/
def fields {D : Type} (dirs : List (List D)) : Option (List D) :=
  (List.range dirs.length).mapM fun i => dirs[i]?.bind fun d => d[i]?

end DP3.Vds
