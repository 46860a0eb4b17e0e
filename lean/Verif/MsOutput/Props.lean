import Verif.MsOutput.UpdateProps
import Verif.MsOutput.WriterProps
import Verif.MsOutput.ChunkProps
import Verif.MsOutput.ReadProps

/-!
# MsOutput: writing measurement sets
-/
