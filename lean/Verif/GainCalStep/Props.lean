import Verif.GainCalStep.RunProps
import Verif.GainCalStep.TimeProps
import Verif.GainCalStep.ParmProps

/-!
# The step GainCal

C208 to C212 are in the imported files.
-/
