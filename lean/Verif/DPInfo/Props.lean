import Verif.DPInfo.AntennaProps
import Verif.DPInfo.ChannelProps

/-! All properties of `DPInfo` (C25, C26, C60, C61, C62). -/
