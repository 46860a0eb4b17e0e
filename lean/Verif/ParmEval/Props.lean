import Verif.ParmEval.PolyProps
import Verif.ParmEval.ScaleProps
import Verif.ParmEval.CoeffProps
import Verif.ParmEval.ScalarProps
import Verif.ParmEval.AddProps
