import Verif.ParamSet.MapProps
import Verif.ParamSet.ReadProps

/-!
# C43, C44 and C81: parameter sets

The theorems on sets are in `MapProps`, those on files in `ReadProps`.
-/
