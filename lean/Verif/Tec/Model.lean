import Verif.PhaseLine.Model
import Verif.Constraints.Model
import Mathlib.Analysis.SpecialFunctions.Complex.Arg

/-!
# Fitting a TEC model

A model of base/PhaseFitter.{h,cc}, of `TecConstraint::Apply` and of the way in which `GainCal` writes TEC solutions.

Simplified: floating point numbers are real numbers; solutions that are not finite are `none`. The phases, frequencies and
weights of a channel, which are in three arrays in the code, are in one structure.
-/

namespace DP3.Tec

open PhaseLine (fmod doubleMax)

noncomputable section

/-- The values of one channel: `_phases`, `_frequencies`, `_weights`, base/PhaseFitter.h:274. -/
structure Chan where
  nu : ℝ
  phase : ℝ
  weight : ℝ

/-- `TEC2ModelFunc`, base/PhaseFitter.h:218-220. -/
def func2 (nu alpha beta : ℝ) : ℝ := alpha / nu + beta

/-- `TEC2ModelFuncWrapped`, base/PhaseFitter.h:243-245. -/
def wrapped2 (nu alpha beta : ℝ) : ℝ := fmod (alpha / nu + beta) (2 * Real.pi)

/-- `TEC1ModelFuncWrapped`, base/PhaseFitter.h:267-269. -/
def wrapped1 (nu alpha : ℝ) : ℝ := fmod (alpha / nu) (2 * Real.pi)

/-- The cost of a channel without its weight, base/PhaseFitter.cc:15-16 and 169-170. -/
def circle (estimate phase : ℝ) : ℝ :=
  let dCost := fmod |estimate - phase| (2 * Real.pi)
  open Classical in if dCost > Real.pi then 2 * Real.pi - dCost else dCost

/-- The loop over the channels and the division, base/PhaseFitter.cc:12-24 and 166-178, for the estimated phases. -/
def meanCost (data : List Chan) (estimate : Chan → ℝ) : ℝ :=
  let r := data.foldl (fun (r : ℝ × ℝ) c => (r.1 + circle (estimate c) c.phase * c.weight, r.2 + c.weight)) (0, 0)
  open Classical in if r.2 = 0 then 0 else r.1 / r.2

/-- `TEC2ModelCost`, base/PhaseFitter.cc:11-25. -/
def cost2 (data : List Chan) (alpha beta : ℝ) : ℝ := meanCost data fun c => wrapped2 c.nu alpha beta

/-- `TEC1ModelCost`, base/PhaseFitter.cc:165-179. -/
def cost1 (data : List Chan) (alpha : ℝ) : ℝ := meanCost data fun c => wrapped1 c.nu alpha

/-- The wrapped distance of a channel to the model, base/PhaseFitter.cc:32-38. -/
def residual (alpha beta : ℝ) (c : Chan) : ℝ :=
  let dist := fmod (c.phase - func2 c.nu alpha beta) (2 * Real.pi)
  open Classical in
  if dist < -Real.pi then dist + 2 * Real.pi else if dist > Real.pi then dist - 2 * Real.pi else dist

/-- The loop over the channels, base/PhaseFitter.cc:30-41: the sum of an iteration, and the sum of weights, which goes on
from the one before. -/
def betaSums (data : List Chan) (alpha beta weightSum : ℝ) : ℝ × ℝ :=
  data.foldl (fun (r : ℝ × ℝ) c => (r.1 + residual alpha beta c * c.weight, r.2 + c.weight)) (0, weightSum)

/-- One iteration, base/PhaseFitter.cc:30-42, of the estimate and the sum of weights. -/
def betaStep (data : List Chan) (alpha : ℝ) (st : ℝ × ℝ) : ℝ × ℝ :=
  let r := betaSums data alpha st.1 st.2
  open Classical in (if r.2 ≠ 0 then st.1 + r.1 / r.2 else st.1, r.2)

/-- `fitTEC2ModelBeta`, base/PhaseFitter.cc:27-45. -/
def fitBeta (data : List Chan) (alpha betaEstimate : ℝ) : ℝ :=
  fmod (betaStep data alpha (betaStep data alpha (betaStep data alpha (betaEstimate, 0)))).1 (2 * Real.pi)

/-- The grid of the brute force search, base/PhaseFitter.cc:57-58 and 146-147. -/
def gridAlpha (lower upper : ℝ) (i : Nat) : ℝ := lower + (i : ℝ) / 256 * (upper - lower)

/-- The state of the brute force search: the smallest cost, its index and its phase. -/
structure Best where
  cost : ℝ
  index : Nat
  beta : ℝ

/-- The body of the loop, base/PhaseFitter.cc:56-65. -/
def try2 (data : List Chan) (lower upper : ℝ) (b : Best) (i : Nat) : Best :=
  let curBeta := fitBeta data (gridAlpha lower upper i) b.beta
  let costVal := cost2 data (gridAlpha lower upper i) curBeta
  open Classical in if costVal < b.cost then ⟨costVal, i, curBeta⟩ else b

/-- The loop of `bruteForceSearchTEC2Model`, base/PhaseFitter.cc:50-66. -/
def best2 (data : List Chan) (lower upper beta : ℝ) : Best :=
  (List.range 256).foldl (try2 data lower upper) ⟨doubleMax, 0, beta⟩

/-- The body of the loop, base/PhaseFitter.cc:144-157. -/
def try1 (data : List Chan) (lower upper : ℝ) (b : ℝ × Nat) (i : Nat) : ℝ × Nat :=
  let curBeta := fitBeta data (gridAlpha lower upper i) 0
  let costVal := cost2 data (gridAlpha lower upper i) curBeta
  open Classical in if costVal < b.1 then (costVal, i) else b

/-- The loop of `bruteForceSearchTEC1Model`, base/PhaseFitter.cc:140-158. -/
def best1 (data : List Chan) (lower upper : ℝ) : ℝ × Nat :=
  (List.range 256).foldl (try1 data lower upper) (doubleMax, 0)

/-- The new bounds, base/PhaseFitter.cc:67-70 and 159-162. -/
def window (lower upper : ℝ) (index : Nat) : ℝ × ℝ :=
  (((index : ℤ) - 1 : ℤ) / 256 * (upper - lower) + lower, ((index : ℤ) + 1 : ℤ) / 256 * (upper - lower) + lower)

/-- `lAlpha`, base/PhaseFitter.cc:79 and 186. -/
def left (s e : ℝ) : ℝ := s + (e - s) * (1 / 3)

/-- `rAlpha`, base/PhaseFitter.cc:80 and 187. -/
def right (s e : ℝ) : ℝ := s + (e - s) * (2 / 3)

/-- `ternarySearchTEC1ModelAlpha`, base/PhaseFitter.cc:181-200, with the number of iterations that may still follow. -/
def ternary1 (data : List Chan) (accuracy : ℝ) : Nat → ℝ → ℝ → ℝ
  | 0, s, e => (left s e + right s e) * 0.5
  | n + 1, s, e =>
    open Classical in
    if accuracy < |cost1 data (left s e) - cost1 data (right s e)| then
      if cost1 data (left s e) < cost1 data (right s e) then ternary1 data accuracy n s (right s e)
      else ternary1 data accuracy n (left s e) e
    else (left s e + right s e) * 0.5

/-- The body of the loop, base/PhaseFitter.cc:79-92: the new bounds and beta, and `dCost`. -/
def step2 (data : List Chan) (s e beta : ℝ) : (ℝ × ℝ × ℝ) × ℝ :=
  let lBeta := fitBeta data (left s e) beta
  let rBeta := fitBeta data (right s e) beta
  let lCost := cost2 data (left s e) lBeta
  let rCost := cost2 data (right s e) rBeta
  open Classical in (if lCost < rCost then (s, right s e, lBeta) else (left s e, e, rBeta), |lCost - rCost|)

/-- `ternarySearchTEC2ModelAlpha`, base/PhaseFitter.cc:73-98: alpha and beta, with the number of iterations that may still
follow. -/
def ternary2 (data : List Chan) (accuracy : ℝ) : Nat → ℝ → ℝ → ℝ → ℝ × ℝ
  | 0, s, e, beta =>
    ((left s e + right s e) * 0.5,
      fitBeta data ((left s e + right s e) * 0.5) (step2 data s e beta).1.2.2)
  | n + 1, s, e, beta =>
    open Classical in
    if accuracy < (step2 data s e beta).2 then
      ternary2 data accuracy n (step2 data s e beta).1.1 (step2 data s e beta).1.2.1 (step2 data s e beta).1.2.2
    else ((left s e + right s e) * 0.5,
      fitBeta data ((left s e + right s e) * 0.5) (step2 data s e beta).1.2.2)

/-- The search range, base/PhaseFitter.cc:111 and 133. -/
def bound : ℝ := 40000.0e6

/-- `FitTEC1ModelParameters`, base/PhaseFitter.cc:132-136. -/
def fit1 (data : List Chan) (accuracy : ℝ) : ℝ :=
  let w := window (-bound) bound (best1 data (-bound) bound).2
  ternary1 data accuracy 99 w.1 w.2

/-- `FitTEC2ModelParameters`, base/PhaseFitter.cc:110-116; the input value of beta is used. -/
def fit2 (data : List Chan) (accuracy beta : ℝ) : ℝ × ℝ :=
  let b := best2 data (-bound) bound beta
  let w := window (-bound) bound b.index
  ternary2 data accuracy 99 w.1 w.2 b.beta

/-- What a fit gives: the parameters, the cost and the phases. -/
structure Fit where
  alpha : ℝ
  beta : ℝ
  cost : ℝ
  phases : List ℝ

/-- `FitDataToTEC1Model`, base/PhaseFitter.cc:105-108 and 125-130. -/
def fitData1 (data : List Chan) (accuracy beta : ℝ) : Fit :=
  let alpha := fit1 data accuracy
  ⟨alpha, beta, cost1 data alpha, data.map fun c => wrapped1 c.nu alpha⟩

/-- `FitDataToTEC2Model`, base/PhaseFitter.cc:100-103 and 118-123. -/
def fitData2 (data : List Chan) (accuracy beta : ℝ) : Fit :=
  let p := fit2 data accuracy beta
  ⟨p.1, p.2, cost2 data p.1 p.2, data.map fun c => func2 c.nu p.1 p.2⟩

/-! ## TecConstraint -/

/-- The settings of `TecConstraint`: the sizes, the frequencies of the channel blocks, the weights per antenna and channel
block, and the mode; `_fittingAccuracy` has its initial value, base/PhaseFitter.h:43. -/
structure Settings where
  nCh : Nat
  nAnt : Nat
  nSub : Nat
  freqs : Nat → ℝ
  weights : Nat → ℝ
  tecOnly : Bool
  doReference : Bool

/-- The initial fitting accuracy, base/PhaseFitter.h:43. -/
def defaultAccuracy : ℝ := 1e-6

/-- The values that the fitter gets for one channel block, TecConstraint.cc:98-108. -/
def chanOf (c : Settings) (antenna ch : Nat) : Option ℂ → Chan
  | some z => ⟨c.freqs ch, Complex.arg z, c.weights (antenna * c.nCh + ch)⟩
  | none => ⟨c.freqs ch, 0, 0⟩

/-- The data for the fitter, TecConstraint.cc:97-109. -/
def chans (c : Settings) (antenna : Nat) (sol : Nat → Option ℂ) : List Chan :=
  (List.range c.nCh).map fun ch => chanOf c antenna ch (sol ch)

/-- What is added to `weight_sum` for a channel block, TecConstraint.cc:98-106. -/
def addWeight (c : Settings) (antenna : Nat) (sol : Nat → Option ℂ) (r : ℝ) (ch : Nat) : ℝ :=
  match sol ch with
  | some _ => r + c.weights (antenna * c.nCh + ch)
  | none => r

/-- `weight_sum`, TecConstraint.cc:96-109. -/
def weightSum (c : Settings) (antenna : Nat) (sol : Nat → Option ℂ) : ℝ :=
  (List.range c.nCh).foldl (addWeight c antenna sol) 0

/-- The fit of one antenna and sub-solution, TecConstraint.cc:111-119. -/
def fitOne (c : Settings) (antenna : Nat) (sol : Nat → Option ℂ) : Fit :=
  if c.tecOnly then fitData1 (chans c antenna sol) defaultAccuracy 0
  else fitData2 (chans c antenna sol) defaultAccuracy 0

/-- The values and weights of the results, by antenna and sub-solution: `tec`, `phase` and `error`. -/
structure Results where
  tec : Nat → ℝ
  phase : Nat → ℝ
  error : Nat → ℝ
  weight : Nat → ℝ

/-- The solutions after the reference antenna is divided out, TecConstraint.cc:81-82. -/
def referenced (c : Settings) (s : Constraints.Sol ℂ) : Constraints.Sol ℂ :=
  open Classical in if c.doReference then Constraints.applyReference c.nCh c.nAnt c.nSub 1 s else s

/-- The fit with an index over the antennas and sub-solutions, TecConstraint.cc:89-119. -/
def fitAt (c : Settings) (s : Constraints.Sol ℂ) (index : Nat) : Fit :=
  fitOne c (index / c.nSub) fun ch => s ch (index / c.nSub) (index % c.nSub) 0

/-- `TecConstraint::Apply`, TecConstraint.cc:74-134; `phase` is only a result if the mode is not `kTecOnly`. The iterations
of the loop write to different elements, so they are independent. -/
def apply (c : Settings) (s0 : Constraints.Sol ℂ) : Constraints.Sol ℂ × Results :=
  let s := referenced c s0
  (fun ch a d p =>
      if ch < c.nCh ∧ a < c.nAnt ∧ d < c.nSub ∧ p = 0 then
        (fitAt c s (a * c.nSub + d)).phases[ch]?.map fun (phase : ℝ) => Complex.exp (phase * Complex.I)
      else s ch a d p,
    ⟨fun i => (fitAt c s i).alpha / -8.44797245e9, fun i => (fitAt c s i).beta, fun i => (fitAt c s i).cost,
      fun i => weightSum c (i / c.nSub) fun ch => s ch (i / c.nSub) (i % c.nSub) 0⟩)

/-! ## GainCal -/

/-- The fit of one station, GainCal.cc:693-739: what is known of each frequency cell is its frequency, the referenced
solution and weight unless the station is flagged there, and the solution before. Gives the TEC parameters and the new
solutions. -/
structure Cell where
  nu : ℝ
  value : Option (ℂ × ℝ)
  solution : ℂ

/-- The values for the fitter, GainCal.cc:697-714. -/
def cellChan (c : Cell) : Chan :=
  match c.value with
  | none => ⟨c.nu, 0, 0⟩
  | some (z, w) => ⟨c.nu, Complex.arg z, w⟩

/-- `tecsol` of a station and its new solutions, GainCal.cc:720-739; `beta0` is the value of `tecsol(st, 1)`. -/
def fitStation (tecAndPhase : Bool) (beta0 : ℝ) (cells : List Cell) : (ℝ × ℝ) × List ℂ :=
  if 1 < (cells.filter fun c => c.value.isSome).length then
    let f := if tecAndPhase then fitData2 (cells.map cellChan) defaultAccuracy beta0
      else fitData1 (cells.map cellChan) defaultAccuracy beta0
    ((f.alpha, f.beta), f.phases.map fun (phase : ℝ) => Complex.exp (phase * Complex.I))
  else ((0, 0), cells.map Cell.solution)

/-- The values in the H5Parm, `writeSolutionsH5Parm`, GainCal.cc:1029 and 1034: the TEC and the phase. -/
def h5Values (tecsol : ℝ × ℝ) : ℝ × ℝ := (tecsol.1 / 8.44797245e9, -tecsol.1)

/-- The values in the ParmDB, `writeSolutionsParmDB`, GainCal.cc:1266-1274. -/
def parmdbValues (tecsol : ℝ × ℝ) : ℝ × ℝ := (tecsol.1 / 8.44797245e9, -tecsol.2)

end

end DP3.Tec
