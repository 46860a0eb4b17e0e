import Mathlib.Algebra.Field.Defs
import Mathlib.Order.Defs.LinearOrder

/-!
# KernelSmoother and SmoothnessConstraint

Model of ddecal/constraints/KernelSmoother.h and `SmoothnessConstraint::Apply`
(SmoothnessConstraint.cc).

Simplifications: exact arithmetic in an ordered field; data values are in the field as well (the real
and imaginary part of a solution are smoothed independently).  `exp` and `pow` are parameters.
`std::lower_bound` is the first element that is not smaller, which is what it gives on sorted input.
-/

namespace DP3.KernelSmoother

/-- KernelSmoother.h:31-38. -/
inductive Kernel where
  | rectangular
  | triangular
  | gaussian
  | epanechnikov
deriving DecidableEq, Repr

/-- The members set by the constructor, KernelSmoother.h:57-66, 173-179: `freq i` for `i < n` are
the frequencies.  `pow x` is `std::pow(x, _spectralExponent)`. -/
structure Config (F : Type) where
  n : Nat
  freq : Nat → F
  kernel : Kernel
  bandwidth : F
  refFrequency : F
  truncate : Bool
  exp : F → F
  pow : F → F

variable {F : Type} [Field F] [LinearOrder F]

/-- `Kernel`: KernelSmoother.h:75-104. -/
def kernelValue (c : Config F) (distance : F) : F :=
  let x := distance / c.bandwidth
  match c.kernel with
  | .rectangular => if x < -1 ∨ 1 < x then 0 else 1 / 2
  | .triangular => if x < -1 ∨ 1 < x then 0 else if 0 ≤ x then 1 - x else 1 + x
  | .gaussian => if c.truncate = true ∧ (x < -1 ∨ 1 < x) then 0 else c.exp (-x * x * 9)
  | .epanechnikov =>
    if c.truncate = true ∧ (x < -1 ∨ 1 < x) then 0 else (3 / 4) * (1 - x) * (1 - x)

/-- `localBandwidth`: KernelSmoother.h:127-130. -/
def localBandwidth (c : Config F) (i : Nat) : F :=
  if c.refFrequency = 0 then c.bandwidth else c.bandwidth * c.freq i / c.refFrequency

/-- `kernelCorrection`: KernelSmoother.h:148-150. -/
def correction (c : Config F) (factor : F) (i : Nat) : F :=
  c.pow (localBandwidth c i / c.bandwidth) * factor

/-- The loop that moves `bandLeft`; `none` when it runs out of the array: KernelSmoother.h:133-134. -/
def moveLeft (c : Config F) (limit : F) : Nat → Nat → Option Nat
  | 0, _ => none
  | fuel + 1, left =>
    if left < c.n then
      if c.freq left < limit then moveLeft c limit fuel (left + 1) else some left
    else none

/-- The loop that moves `bandRight`: KernelSmoother.h:135-137. -/
def moveRight (c : Config F) (limit : F) : Nat → Nat → Nat
  | 0, right => right
  | fuel + 1, right =>
    if right ≠ c.n ∧ c.freq right < limit then moveRight c limit fuel (right + 1) else right

/-- The initial value of `bandRight`: KernelSmoother.h:119-123. -/
def firstRight (c : Config F) : Nat :=
  let limit := c.freq 0 + c.bandwidth * (1 / 2)
  let lbound := ((List.range c.n).find? fun k => decide (¬ c.freq k < limit)).getD c.n
  min (lbound + 1) c.n

/-- Sum and division for one output value: KernelSmoother.h:146-160. -/
def smoothOne (c : Config F) (data weight : Nat → F) (factor : F) (i start stop : Nat) : Option F :=
  let r := (List.range' start (stop - start)).foldl (fun (acc : F × F) j =>
    let w := kernelValue c ((c.freq i - c.freq j) * correction c factor i) * weight j
    (acc.1 + data j * w, acc.2 + w)) (0, 0)
  if r.2 = 0 then none else some (r.1 / r.2)

/-- The state of the loop over the channels: `bandLeft`, `bandRight` and the results. -/
structure State (F : Type) where
  left : Nat
  right : Nat
  out : List (Option F)

/-- The body of the loop over the channels: KernelSmoother.h:125-160. -/
def smoothStep (c : Config F) (data weight : Nat → F) (factor : F) (s : State F) (i : Nat) :
    Option (State F) :=
  if c.truncate then do
    let half := localBandwidth c i * (1 / 2)
    let left ← moveLeft c (c.freq i - half) (c.n + 1) s.left
    let right := moveRight c (c.freq i + half) (c.n + 1) s.right
    let start := if 0 < left then left - 1 else 0
    let stop := if right < c.n then right + 1 else c.n
    some { left := left, right := right,
           out := s.out ++ [smoothOne c data weight factor i start stop] }
  else
    some { s with out := s.out ++ [smoothOne c data weight factor i 0 c.n] }

/-- `Smooth`; an output value is `none` if it is not finite, and the result is `none` for undefined
behaviour: KernelSmoother.h:114-163. -/
def smooth (c : Config F) (data weight : Nat → F) (factor : F) : Option (List (Option F)) :=
  if c.n = 0 then none
  else
    ((List.range c.n).foldlM (smoothStep c data weight factor)
      { left := 0, right := firstRight c, out := [] }).map State.out

/-! ## SmoothnessConstraint -/

/-- The data and weights given to the smoother for one series of solutions:
SmoothnessConstraint.cc:72-82. -/
def constraintInput (solution : Nat → Option F) (weight : Nat → F) : (Nat → F) × (Nat → F) :=
  (fun ch => (solution ch).getD 0, fun ch => if (solution ch).isSome then weight ch else 0)

/-- `Apply` for one series: SmoothnessConstraint.cc:65-94. `ddFactor` and `antennaFactor` are the
direction and antenna dependent factors. -/
def constraintApply (c : Config F) (solution : Nat → Option F) (weight : Nat → F)
    (ddFactor antennaFactor : F) : Option (List (Option F)) :=
  let x := constraintInput solution weight
  smooth c x.1 x.2 (1 / ddFactor / antennaFactor)

/-- The sub-solution and antenna of a series: SmoothnessConstraint.cc:65-68. -/
def seriesIndices (nSub nPol index : Nat) : Nat × Nat :=
  ((index / nPol) % nSub, index / (nSub * nPol))

end DP3.KernelSmoother
