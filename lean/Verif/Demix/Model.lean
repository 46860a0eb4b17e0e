import Mathlib.Analysis.Complex.Basic
import Mathlib.LinearAlgebra.Matrix.NonsingularInverse

/-!
# The mixing factors of the demixer

A model of `addFactors`, `makeFactors`, `deproject` and the subtraction in steps/Demixer.cc, with base/SubtractMixed.cc.

Simplified: numbers are complex numbers without rounding. One baseline and one correlation are modelled, the loops over these are independent.
`none` is a value that is not a number. The phasors are given (see `PhaseShift`), as are the visibilities of the sources with their gains
(see `Simulator` and `Estimate`).
-/

namespace DP3.Demix

open Matrix ComplexConjugate

/-- A visibility. `phasor d` is that of `itsPhaseShifts[d]`, from the target to source `d`. -/
structure Sample where
  flag : Bool
  weight : ℝ
  data : ℂ
  phasor : ℕ → ℂ

/-! ## Factors -/

/-- The pairs of directions, in the order of their numbers, steps/Demixer.cc:703-706 and 749-750. -/
def pairs (nDir : ℕ) : List (ℕ × ℕ) := (List.range (nDir - 1)).flatMap fun d0 => (List.range' (d0 + 1) (nDir - 1 - d0)).map fun d1 => (d0, d1)

/-- The shift from a direction to another, steps/Demixer.cc:713 and 733-734. -/
def pairFactor (nDir : ℕ) (s : Sample) (d0 d1 : ℕ) : ℂ := if d1 = nDir - 1 then conj (s.phasor d0) else s.phasor d1 * conj (s.phasor d0)

/-- `double(!flags * weights)`, steps/Demixer.cc:717. -/
noncomputable def weighted (s : Sample) : ℝ := if s.flag then 0 else s.weight

/-- A pair of directions in `addFactors`, steps/Demixer.cc:711-722 and 731-742. -/
noncomputable def addPair (nDir : ℕ) (t : ℕ → Sample) (buf : ℕ → ℕ → ℂ) (e : (ℕ × ℕ) × ℕ) : ℕ → ℕ → ℂ := fun k ch =>
  if k = e.2 then buf k ch + pairFactor nDir (t ch) e.1.1 e.1.2 * (weighted (t ch) : ℂ) else buf k ch

/-- `addFactors`, steps/Demixer.cc:685-751, for the channels of a time. The buffer has a value per pair and channel. -/
noncomputable def addFactors (nDir : ℕ) (buf : ℕ → ℕ → ℂ) (t : ℕ → Sample) : ℕ → ℕ → ℂ := (pairs nDir).zipIdx.foldl (addPair nDir t) buf

/-- The sum of some channels, steps/Demixer.cc:784-788. -/
noncomputable def sumFrom (f : ℕ → ℂ) (chIn : ℕ) : ℕ → ℂ
  | 0 => 0
  | n + 1 => sumFrom f chIn n + f (chIn + n)

/-- The sums per output channel, steps/Demixer.cc:774-788, with the input channel where the loop is. -/
noncomputable def channelSums (f : ℕ → ℂ) (nChanIn nChanAvg : ℕ) : List ℕ → ℕ → List ℂ
  | [], _ => []
  | chOut :: later, chIn =>
    sumFrom f chIn (min nChanAvg (nChanIn - chOut * nChanAvg)) ::
      channelSums f nChanIn nChanAvg later (chIn + min nChanAvg (nChanIn - chOut * nChanAvg))

/-- Division in floating point numbers. -/
noncomputable def divide (z : ℂ) (w : ℝ) : Option ℂ := if w = 0 then none else some (z / w)

/-- A pair of directions in `makeFactors`, steps/Demixer.cc:767-798. -/
noncomputable def fillPair (nChanIn nChanOut nChanAvg : ℕ) (buf : ℕ → ℕ → ℂ) (weightSums : ℕ → ℝ) (out : ℕ → ℕ → ℕ → Option ℂ)
    (e : (ℕ × ℕ) × ℕ) : ℕ → ℕ → ℕ → Option ℂ := fun chOut a b =>
  match (channelSums (buf e.2) nChanIn nChanAvg (List.range nChanOut) 0)[chOut]? with
  | none => out chOut a b
  | some z =>
    if (a, b) = (e.1.2, e.1.1) then (divide z (weightSums chOut)).map conj
    else if (a, b) = e.1 then divide z (weightSums chOut)
    else out chOut a b

/-- `makeFactors`, steps/Demixer.cc:753-801: the factor per output channel, direction from and direction to. -/
noncomputable def makeFactors (nDir nChanIn nChanOut nChanAvg : ℕ) (buf : ℕ → ℕ → ℂ) (weightSums : ℕ → ℝ) : ℕ → ℕ → ℕ → Option ℂ :=
  (pairs nDir).zipIdx.foldl (fillPair nChanIn nChanOut nChanAvg buf weightSums) fun _ _ _ => some 1

/-! ## Averages -/

/-- The average of some visibilities as flag, weight and value, steps/Averager.cc:136-231 and 245-313 with `minpoints` 1 and `minperc` 0. -/
noncomputable def average (l : List (Bool × ℝ × ℂ)) : Bool × ℝ × ℂ :=
  let sumData := ((l.filter fun s => !s.1).map fun s => s.2.2 * (s.2.1 : ℂ)).sum
  let sumAllData := (l.map fun s => s.2.2 * (s.2.1 : ℂ)).sum
  let sumWeights := ((l.filter fun s => !s.1).map fun s => s.2.1).sum
  let sumAllWeights := (l.map fun s => s.2.1).sum
  if sumWeights = 0 then (true, sumAllWeights, if sumAllWeights = 0 then 0 else sumAllData / sumAllWeights)
  else (false, sumWeights, sumData / sumWeights)

/-- The visibilities in a direction: `PhaseShift` for the sources, steps/Demixer.cc:530-533, and none for the target, the last direction. -/
noncomputable def shifted (nDir d : ℕ) (s : Sample) : Bool × ℝ × ℂ := (s.flag, s.weight, if d = nDir - 1 then s.data else s.data * s.phasor d)

/-! ## Subtraction -/

/-- `subtract` for one visibility of a source, base/SubtractMixed.cc:30-31. -/
noncomputable def subtract (data : Option ℂ) (mix : Option ℂ) (model : ℂ) : Option ℂ :=
  match data, mix with
  | some x, some m => some (x - m * model)
  | _, _ => none

/-- The loop over the sources to subtract, steps/Demixer.cc:1045 and 1124-1140. -/
noncomputable def subtractAll (nDir : ℕ) (factors : ℕ → ℕ → Option ℂ) (model : ℕ → ℂ) (nSubtr : ℕ) (data : ℂ) : Option ℂ :=
  (List.range nSubtr).foldl (fun x dr => subtract x (factors dr (nDir - 1)) (model dr)) (some data)

/-! ## Deprojection -/

/-- The columns of directions with a model, of the factors of one visibility as they are in memory, steps/Demixer.cc:851. -/
def modelColumns (nDir nModel : ℕ) (factors : ℕ → ℂ) : Matrix (Fin nDir) (Fin nModel) ℂ := fun to_ from_ => factors (from_ * nDir + to_)

/-- The columns of the directions to deproject, steps/Demixer.cc:852-853. -/
def otherColumns (nDir nModel nDeproject : ℕ) (factors : ℕ → ℂ) : Matrix (Fin nDir) (Fin nDeproject) ℂ := fun to_ from_ =>
  factors (nDir * nModel + (from_ * nDir + to_))

/-- The projection, steps/Demixer.cc:855-865. The inverse of Mathlib is 0 for singular matrices, as is the matrix after `resize`. -/
noncomputable def projection {n m : ℕ} (a : Matrix (Fin n) (Fin m) ℂ) : Matrix (Fin n) (Fin n) ℂ := 1 + -(a * (aᴴ * a)⁻¹ * aᴴ)

/-- `nrDeproject`, steps/Demixer.cc:807-810. -/
def nDeproject (nDir nModel : ℕ) (ignoreTarget : Bool) : ℕ := if ignoreTarget then nDir - nModel - 1 else nDir - nModel

/-- `deproject` for one visibility, steps/Demixer.cc:803-886: the new factors, as a matrix, and the new averages of all directions. -/
noncomputable def deproject (nDir nModel : ℕ) (ignoreTarget : Bool) (factors : ℕ → ℂ) (data : Fin nDir → ℂ) :
    Matrix (Fin nDir) (Fin nModel) ℂ × (Fin nDir → ℂ) :=
  if nDir ≤ 1 ∨ nDeproject nDir nModel ignoreTarget = 0 then (modelColumns nDir nModel factors, data)
  else
    let p := projection (otherColumns nDir nModel (nDeproject nDir nModel ignoreTarget) factors)
    (p * modelColumns nDir nModel factors, p.mulVec data)

/-! ## Baselines -/

/-- `mergeSubtractResult`, steps/Demixer.cc:671-683, for one time: the data per baseline. -/
def merge {X : Type} (indices : List ℕ) (subtracted full : List X) : Option (List X) :=
  (indices.zipIdx).foldl (fun (acc : Option (List X)) (e : ℕ × ℕ) =>
    match acc, subtracted[e.2]? with
    | some l, some x => if e.1 < l.length then some (l.set e.1 x) else none
    | _, _ => none) (some full)

end DP3.Demix
