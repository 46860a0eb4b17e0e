import Verif.ParmGrid.BoxProps

/-!
# C46, C47, C48, C82-C85: axes, grids and boxes

The theorems are in `AxisProps` (C48), `SubsetProps` (C82), `CombineProps` (C83), `GridProps` (C46, C47, C84) and
`BoxProps` (C85).
-/
