import Mathlib.Algebra.Ring.Defs

/-!
# Weighting the data for the solvers

Model of `Weigh` and `AssignAndWeight` (ddecal/gain_solvers/SolverTools.cc) and of the weighting in
`BdaSolverBuffer::AppendAndWeight` (ddecal/gain_solvers/BdaSolverBuffer.cc).

Simplifications: in `weigh` the values are in a ring, in the other functions a value is `Option F`,
where `none` is a value that is not finite; overflow of a product of finite values is not modelled.
The square root is a parameter which may give a non-finite value.  The outermost loops over times,
baselines and channels (rows and channels for BDA), whose iterations are independent, are not
modelled: the functions below are about one baseline and channel.
-/

namespace DP3.SolverTools

/-! ## `Weigh` -/

section
variable {F : Type} [Ring F]

/-- One iteration of the loop over the batches; `B` is `Batch::size`, and `i` a multiple of it.
`DuplicateLow` and `DuplicateHigh` give the element of the batch of weights for each element of the
first and the second batch of data: SolverTools.cc:24-42, 64-72. -/
def weighBatch (B : Nat) (data weights : Nat → F) (i : Nat) : List F :=
  (List.range B).map (fun j => data (i * 2 + j) * weights (i + j / 2)) ++
    (List.range B).map (fun j => data (i * 2 + B + j) * weights (i + (j / 2 + B / 2)))

/-- An iteration of the loop for the remaining values: SolverTools.cc:75-78. -/
def weighOne (data weights : Nat → F) (i : Nat) : List F :=
  [data (i * 2 + 0) * weights i, data (i * 2 + 1) * weights i]

/-- `Weigh` for `n` complex numbers, `data` being their real and imaginary parts; the result is what
is written, from the first element of the output on.  `in` and `out` may be the same array: each
iteration reads, before it writes them, only the elements it writes: SolverTools.cc:48-79. -/
def weigh (B : Nat) (data weights : Nat → F) (n : Nat) : List F :=
  (List.range (n / B)).flatMap (fun k => weighBatch B data weights (k * B)) ++
    (List.range' (n / B * B) (n - n / B * B)).flatMap (weighOne data weights)

end

/-! ## One baseline and channel -/

section
variable {F : Type} [Ring F]

/-- A product of floating point values is not finite if one of them is not. -/
def mul : Option F → Option F → Option F
  | some a, some b => some (a * b)
  | _, _ => none

/-- The input: the flags, the weights, the data and the model data of each direction, per
correlation. -/
structure Input (F : Type) where
  flags : Nat → Bool
  weights : Nat → Option F
  data : Nat → Option F
  models : List (Nat → Option F)

/-- The weighted data and model data. -/
structure Output (F : Type) where
  data : List (Option F)
  models : List (List (Option F))
deriving DecidableEq, Repr

/-- The flag for all correlations: SolverTools.cc:115-128. -/
def anyFlag (nCorr : Nat) (x : Input F) : Bool :=
  (List.range nCorr).foldl (fun flag corr =>
    x.models.foldl (fun flag m => flag || !(m corr).isSome)
      (flag || (x.flags corr || !(x.data corr).isSome))) false

/-- The prepared weights: SolverTools.cc:134-142. -/
def prepare (linear : Bool) (sqrt : F → Option F) (w : Option F) : Option F :=
  if linear then w else w.bind sqrt

/-- A weighted array of one baseline and channel, where `masked_view` sets it to zero if flagged:
SolverTools.cc:143-150 for the data, 152-164 for the model data. -/
def weighMasked (nCorr : Nat) (flag : Bool) (weights values : Nat → Option F) : List (Option F) :=
  let out := (List.range nCorr).map fun c => mul (values c) (weights c)
  if flag then out.map fun _ => some 0 else out

/-- `AssignAndWeight` for one baseline and channel: SolverTools.cc:81-167. -/
def assignAndWeight (linear : Bool) (sqrt : F → Option F) (nCorr : Nat) (x : Input F) : Output F :=
  let flag := anyFlag nCorr x
  let prepared := fun c => prepare linear sqrt (x.weights c)
  { data := weighMasked nCorr flag prepared x.data
    models := x.models.map (weighMasked nCorr flag prepared) }

/-- One array in the weighting of BDA data: the loop over the correlations that updates `is_flagged`
and multiplies with the weight; `flags` is false for model data: BdaSolverBuffer.cc:106-109,
115-118. -/
def bdaArray (flags : Nat → Bool) (weights values : Nat → Option F) (flagged : Bool) :
    List (Option F) × Bool :=
  (List.range 4).foldl (fun acc cr =>
    (acc.1 ++ [mul (values cr) (weights cr)], acc.2 || !(values cr).isSome || flags cr))
    ([], flagged)

/-- The weighting in `AppendAndWeight` for one row and channel: BdaSolverBuffer.cc:88-131. -/
def bdaWeight (sqrt : F → Option F) (x : Input F) : Output F :=
  let weights := fun c => (x.weights c).bind sqrt
  let d := bdaArray x.flags weights x.data false
  let m := x.models.foldl (fun (acc : List (List (Option F)) × Bool) values =>
    let r := bdaArray (fun _ => false) weights values acc.2
    (acc.1 ++ [r.1], r.2)) ([], d.2)
  if m.2 then
    { data := d.1.map fun _ => some 0, models := m.1.map fun l => l.map fun _ => some 0 }
  else { data := d.1, models := m.1 }

end

end DP3.SolverTools
