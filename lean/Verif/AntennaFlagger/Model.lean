import Verif.Cx.Basic
import Verif.BaselineIndices.Model
import Mathlib.Algebra.BigOperators.Group.List.Basic

/-!
# The antenna flagger

Model of antennaflagger/Flagger.cc and of process and updateInfo in steps/AntennaFlagger.cc.

Simplified: floats are elements of an ordered field, and values that are not finite (in the statistics of baselines: NaN) are `none`; `xt::median`,
`xt::stddev` and the complex `xt::log(1 + x)` are parameters. The statistics per baseline (Flagger.cc:64-82) are
input; `nansum` skips those that are not finite.
-/

namespace DP3.AntennaFlagger

open DP3.BaselineIndices

section Outliers
variable {K : Type} [Field K] [LinearOrder K]

/-- A value in one pass over the data, Flagger.cc:43-50: the flag and the value. -/
def passValue (lower upper median : K) (p : Bool × K) : Bool × K :=
  if !p.1 && (decide (p.2 < lower) || decide (upper < p.2)) then (true, median) else p

/-- One pass, Flagger.cc:37-50. -/
def pass (stddev : List K → K) (sigma median : K) (data : List (Bool × K)) : List (Bool × K) :=
  let s := stddev (data.map (·.2))
  data.map (passValue (median - sigma * s) (median + sigma * s) median)

/-- The number of flags. -/
def nFlags (data : List (Bool × K)) : Nat := data.countP (·.1)

/-- The iterations, Flagger.cc:36-55; `outlier_count` is the number of new flags. -/
def iterate (stddev : List K → K) (sigma median : K) : Nat → List (Bool × K) → List (Bool × K)
  | 0, data => data
  | n + 1, data =>
    let next := pass stddev sigma median data
    if nFlags next = nFlags data then next else iterate stddev sigma median n next

/-- The finite values. -/
def finiteValues (data : List (Option K)) : List K := data.filterMap id

/-- The flags and values before the iterations, Flagger.cc:23 and 32-34. -/
def initialData (median : K) (data : List (Option K)) : List (Bool × K) :=
  data.map fun v => (v.isNone, v.getD median)

/-- FindOutliers, Flagger.cc:20-58. -/
def findOutliers (median stddev : List K → K) (sigma : K) (maxIterations : Nat) (data : List (Option K)) :
    List Bool :=
  if data.all Option.isNone then data.map Option.isNone
  else
    let m := median (finiteValues data)
    (iterate stddev sigma m maxIterations (initialData m data)).map (·.1)

end Outliers

section Flagger
variable {K : Type} [Field K] [LinearOrder K]

/-- GroupStats, Flagger.cc:84-107, for one antenna and correlation. `stats` are the statistics of a baseline. -/
def groupStats (nAntennas perStation : Nat) (order : Order) (stats : Nat → Option (Cx K)) (antenna : Nat) : Cx K :=
  Cx.divReal (((baselineList antenna nAntennas order).map fun b => (stats b).getD 0).sum) (perStation : K)

/-- The functions and numbers that the flagging uses. -/
structure Config (K : Type) where
  median : List K → K
  stddev : List K → K
  /-- The real and imaginary part of `xt::log(1 + x)`. -/
  log1p : Cx K → Option K × Option K
  nStations : Nat
  perStation : Nat
  nCorr : Nat

/-- Statistics by station, antenna in the station and correlation. -/
abbrev Stats (K : Type) := Nat → Nat → Nat → Cx K

/-- ComputeAntennaFlags, Flagger.cc:109-130: of the antennas of a station. -/
def antennaFlags (c : Config K) (sigma : K) (maxIterations : Nat) (stats : Stats K) (station : Nat) : List Bool :=
  (List.range c.nCorr).foldl (fun flags cor =>
    let check := (List.range c.perStation).map fun a => c.log1p (stats station a cor)
    List.zipWith (· || ·) flags (List.zipWith (· || ·)
      (findOutliers c.median c.stddev sigma maxIterations (check.map (·.1)))
      (findOutliers c.median c.stddev sigma maxIterations (check.map (·.2)))))
    (List.replicate c.perStation false)

/-- A quotient; not finite for a zero divisor. -/
def quotient (x y : K) : Option K := if y = 0 then none else some (x / y)

/-- The number of correlations of the station flags, Flagger.cc:140. -/
def nCorrOut (c : Config K) : Nat := if c.nCorr = 4 then 2 else 1

/-- The medians of the stations for one part of the statistics, divided by the overall median, Flagger.cc:166-172. -/
def stationMedians (c : Config K) (values : Nat → Nat → K) : List (Option K) :=
  let scale := c.median ((List.range c.nStations).flatMap fun s => (List.range c.perStation).map (values s))
  (List.range c.nStations).map fun s => quotient (c.median ((List.range c.perStation).map (values s))) scale

/-- ComputeStationFlags, Flagger.cc:132-180, for one of the output correlations; the input is 0 or 3. -/
def stationFlags (c : Config K) (sigma : K) (maxIterations : Nat) (stats : Stats K) (cor : Nat) : List Bool :=
  List.zipWith (· || ·)
    (findOutliers c.median c.stddev sigma maxIterations (stationMedians c fun s a => (stats s a (cor * 3)).re))
    (findOutliers c.median c.stddev sigma maxIterations (stationMedians c fun s a => (stats s a (cor * 3)).im))

/-- FindBadAntennas, Flagger.cc:205-224: by antenna number. -/
def findBadAntennas (c : Config K) (sigma : K) (maxIterations : Nat) (stddevs sumSquares : Stats K) : List Bool :=
  List.zipWith (· && ·)
    ((List.range c.nStations).flatMap (antennaFlags c sigma maxIterations stddevs))
    ((List.range c.nStations).flatMap (antennaFlags c sigma maxIterations sumSquares))

/-- Whether a station is bad: `xt::prod` over the correlations, Flagger.cc:231-240. -/
def badStation (c : Config K) (sigma : K) (maxIterations : Nat) (stddevs sumSquares : Stats K) (s : Nat) : Bool :=
  (List.range (nCorrOut c)).all fun cor =>
    (stationFlags c sigma maxIterations stddevs cor).getD s false &&
      (stationFlags c sigma maxIterations sumSquares cor).getD s false

/-- FindBadStations, Flagger.cc:226-253: by antenna number. -/
def findBadStations (c : Config K) (sigma : K) (maxIterations : Nat) (stddevs sumSquares : Stats K) : List Bool :=
  (List.range c.nStations).flatMap fun s =>
    List.replicate c.perStation (badStation c sigma maxIterations stddevs sumSquares s)

/-- The antennas to flag, steps/AntennaFlagger.cc:103-108. -/
def badAntennas (c : Config K) (sigmaA sigmaS : K) (maxA maxS : Nat) (stddevs sumSquares : Stats K) : List Nat :=
  let flags := List.zipWith (· || ·) (findBadAntennas c sigmaA maxA stddevs sumSquares)
    (findBadStations c sigmaS maxS stddevs sumSquares)
  (List.range flags.length).filter fun i => flags.getD i false

end Flagger

/-- The flags of a buffer; each baseline has a list. -/
abbrev Flags := List (List Bool)

/-- One baseline is flagged, AntennaFlagger.cc:125. -/
def setBaseline (flags : Flags) (bl : Nat) : Flags := flags.modify bl fun f => f.map fun _ => true

/-- Flagging the baselines, AntennaFlagger.cc:121-127. -/
def flagBaselines (antennas : List Nat) (nAntennas : Nat) (order : Order) (flags : Flags) : Flags :=
  antennas.foldl (fun flags a =>
    (List.range nAntennas).foldl (fun flags b => setBaseline flags (baselineIndex a b nAntennas order)) flags) flags

/-- HasBaselineOrder, AntennaFlagger.cc:19-33. -/
def hasBaselineOrder (bls : List (Nat × Nat)) (nAntennas : Nat) (order : Order) : Bool :=
  (List.range bls.length).all fun i => decide (bls[i]? = some (baseline i nAntennas order))

/-- The order that updateInfo finds, AntennaFlagger.cc:62-75; none if it throws. -/
def findOrder (bls : List (Nat × Nat)) (nAntennas : Nat) : Option Order :=
  if nBaselines nAntennas ≠ bls.length then none
  else if hasBaselineOrder bls nAntennas .columnMajor then some .columnMajor
  else if hasBaselineOrder bls nAntennas .rowMajor then some .rowMajor
  else none

end DP3.AntennaFlagger
