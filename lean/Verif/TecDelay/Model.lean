import Mathlib.Algebra.BigOperators.Group.Finset.Basic
import Mathlib.Algebra.Order.Floor.Ring
import Mathlib.Algebra.Order.Field.Basic
import Mathlib.Data.Fintype.Basic

/-!
# Fitting TEC, offset and delay

Model of ddecal/constraints/TecOffsetDelayFitting.cc and TecOffsetDelayConstraint.cc.

Simplifications: numbers are exact, in an ordered field in which a half turn is `pi`; `cos` is a
function.  The least squares fit of GSL is a function of the data (for fixed frequencies and
weights), of which the requirements are stated in the theorems.  The method `VonMises`, which DP3 does
not use, is left out.  The number of channel blocks is `n`; the assertions that there are at least
three and that the first and last frequency differ are hypotheses where needed.
-/

namespace DP3.TecDelay

variable {K : Type} [Field K] [LinearOrder K] [FloorRing K] {n : Nat}

/-- `TecOffsetDelayValues`: TecOffsetDelayFitting.h:13-20. -/
structure Fit (K : Type) where
  a : K
  b : K
  c : K
deriving DecidableEq, Repr

/-- Rounding towards zero, for `std::fmod`. -/
def trunc (x : K) : Int := if 0 ≤ x then ⌊x⌋ else ⌈x⌉

/-- `std::fmod`. -/
def fmod (x m : K) : K := x - m * trunc (x / m)

/-- `Wrap`: TecOffsetDelayFitting.cc:150-158. -/
def wrap (pi x : K) : K :=
  let w := fmod x (2 * pi)
  if pi ≤ w then w - 2 * pi else if w < -pi then w + 2 * pi else w

/-- `UnwrappedModel`: TecOffsetDelayFitting.cc:160-162. -/
def model (f : Fit K) (x : K) : K := f.a / x + f.b + f.c * x

/-- `TecOffsetDelayCost`: TecOffsetDelayFitting.cc:206-218. -/
def cost (cos : K → K) (x y w : Fin n → K) (f : Fit K) : K :=
  ∑ i, (1 - cos (y i - model f (x i)) * w i)

/-- The state of the search: `best_cost`, where `none` is the largest number, and `best_fit`:
TecOffsetDelayFitting.cc:332-333. -/
structure Best (K : Type) where
  cost : Option K
  fit : Fit K

/-- The start of the search: TecOffsetDelayFitting.cc:332-333. -/
def Best.start : Best K := ⟨none, ⟨0, 0, 0⟩⟩

/-- `if (cost < best_cost)`: TecOffsetDelayFitting.cc:366-369 and 395-398. -/
def Best.offer (costOf : Fit K → K) (s : Best K) : Option (Fit K) → Best K
  | none => s
  | some f =>
    match s.cost with
    | none => ⟨some (costOf f), f⟩
    | some k => if costOf f < k then ⟨some (costOf f), f⟩ else s

/-- The fit for a guess: the model of the guess is subtracted, the residual is wrapped and fitted, and
the guess is added again: TecOffsetDelayFitting.cc:345-364 (with `b = 0`) and 378-393. -/
def fitFrom (solve : (Fin n → K) → Option (Fit K)) (pi : K) (x y : Fin n → K) (guess : Fit K) :
    Option (Fit K) :=
  (solve fun i => wrap pi (y i - model guess (x i))).map fun r =>
    ⟨r.a + guess.a, r.b + guess.b, r.c + guess.c⟩

/-- The position of a grid point: TecOffsetDelayFitting.cc:338, 342. -/
def position (wraps i : Nat) : K := (i : K) / ((wraps * 2 : Nat) : K) - 1

/-- The largest value of `a` of the grid: TecOffsetDelayFitting.cc:326-328. -/
def maxA (pi front back : K) (wraps : Nat) : K := 2 * pi * wraps / (1 / front - 1 / back)

/-- The largest value of `c` of the grid: TecOffsetDelayFitting.cc:325-329. -/
def maxC (pi front back : K) (wraps : Nat) : K := 2 * pi * wraps / (back - front)

/-- The grid, in order: TecOffsetDelayFitting.cc:336-343. -/
def grid (pi front back : K) (wraps : Nat) : List (Fit K) :=
  (List.range (wraps * 4 + 2)).flatMap fun i =>
    (List.range (wraps * 4 + 2)).map fun j =>
      ⟨position wraps i * maxA pi front back wraps, 0,
        position wraps j * maxC pi front back wraps⟩

/-- The search over a list of guesses: TecOffsetDelayFitting.cc:336-372. -/
def search (solve : (Fin n → K) → Option (Fit K)) (costOf : Fit K → K) (pi : K) (x y : Fin n → K)
    (guesses : List (Fit K)) : Best K :=
  guesses.foldl (fun s g => s.offer costOf (fitFrom solve pi x y g)) Best.start

/-- The refinement: TecOffsetDelayFitting.cc:377-400. -/
def refine (solve : (Fin n → K) → Option (Fit K)) (costOf : Fit K → K) (pi : K) (x y : Fin n → K) :
    Nat → Best K → Best K
  | 0, s => s
  | k + 1, s => refine solve costOf pi x y k (s.offer costOf (fitFrom solve pi x y s.fit))

/-- `TecOffsetDelayGridSearch`: TecOffsetDelayFitting.cc:308-403.  `front` and `back` are the first
and the last of `x`. -/
def gridSearch (solve : (Fin n → K) → Option (Fit K)) (cos : K → K) (pi : K) (x y w : Fin n → K)
    (front back : K) (wraps : Nat) : Fit K :=
  (refine solve (cost cos x y w) pi x y 5
    (search solve (cost cos x y w) pi x y (grid pi front back wraps))).fit

/-! ## The constraint -/

/-- The phases and weights of an antenna and direction; `none` is a solution that is not finite:
TecOffsetDelayConstraint.cc:85-99. -/
def prepared (phase : Fin n → Option K) (weights : Fin n → K) : (Fin n → K) × (Fin n → K) :=
  (fun ch => (phase ch).getD 0, fun ch => if (phase ch).isSome then weights ch else 0)

/-- What the constraint writes for an antenna and direction: the solutions (the phases of numbers of
amplitude one), the three results and their weight. -/
structure Out (K : Type) (n : Nat) where
  phase : Fin n → K
  tec : K
  offset : Option K
  delay : K
  weight : K

/-- The body of the loop of `Apply`.  `gridSearch` is the search for phases and weights; `tecConst`
is 8.44797245e9; `refFreq` is the first frequency: TecOffsetDelayConstraint.cc:77-124, and 30-35 for
the relative frequencies. -/
def applyOne (search : (Fin n → K) → (Fin n → K) → Fit K) (pi tecConst refFreq : K)
    (freqs : Fin n → K) (includeOffset : Bool) (phase : Fin n → Option K) (weights : Fin n → K) :
    Out K n :=
  let p := prepared phase weights
  let values := search p.1 p.2
  { phase := fun ch => wrap pi (model values (freqs ch / refFreq))
    tec := values.a * refFreq / -tecConst
    offset := if includeOffset then some values.b else none
    delay := values.c / (refFreq * 2 * pi)
    weight := ∑ ch, if (phase ch).isSome then weights ch else 0 }

end DP3.TecDelay
