import Mathlib.Data.Nat.Sqrt

/-!
Model of `common/baseline_indices.h` (numbering of antenna pairs).

`size_t` is modelled by `Nat` without wrap-around.  On the inputs for which the
functions are documented (antennas below `n`, index below the number of
baselines) no subtraction in the code goes below zero; the proofs in `Props`
cover exactly these inputs.
-/

namespace DP3.BaselineIndices

/-- `enum class BaselineOrder`, common/baseline_indices.h:63. -/
inductive Order where
  | columnMajor
  | rowMajor
  deriving DecidableEq, Repr

/-- `ComputeNBaselines`, common/baseline_indices.h:68-72. -/
def nBaselines (n : Nat) : Nat := (n * (n - 1)) / 2 + n

/-- `ComputeBaselineIndex`, common/baseline_indices.h:79-88. -/
def baselineIndex (a b n : Nat) (order : Order) : Nat :=
  let row := min a b
  let col := max a b
  match order with
  | .rowMajor => row * n + col - row * (row + 1) / 2
  | .columnMajor => (col * (col + 1)) / 2 + row

/-- `(1 + std::sqrt(1 + 8 * m)) / 2` truncated to `size_t`,
common/baseline_indices.h:100 and :107.  The truncation of the real value is
`(1 + Nat.sqrt (1 + 8 m)) / 2`; rounding of the floating point square root is
not modelled. -/
def triangleRoot (m : Nat) : Nat := (1 + Nat.sqrt (1 + 8 * m)) / 2

/-- `ComputeBaseline`, common/baseline_indices.h:94-113. -/
def baseline (index n : Nat) (order : Order) : Nat × Nat :=
  match order with
  | .rowMajor =>
    let nb := nBaselines n
    let antenna := triangleRoot (nb - index - 1)
    let antenna1 := n - antenna
    let before := nb - n - (antenna * (antenna - 1)) / 2
    (antenna1, index - before)
  | .columnMajor =>
    let antenna2 := triangleRoot index
    let before := (antenna2 * (antenna2 - 1)) / 2
    (index - before, antenna2 - 1)

/-- `ComputeBaselineList`, common/baseline_indices.h:119-130. -/
def baselineList (antenna n : Nat) (order : Order) : List Nat :=
  (List.range n).map fun i => baselineIndex antenna i n order

end DP3.BaselineIndices
