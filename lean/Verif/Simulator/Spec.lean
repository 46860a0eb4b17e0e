import Verif.Simulator.Model
import Verif.PhaseShift.Spec
import Mathlib.Analysis.SpecialFunctions.Integrals.Basic

/-!
# What an interferometer measures

None of this is in the code.
-/

namespace DP3.Simulator

open PhaseShift

noncomputable section

/-- The coherency of a source for linear feeds: XX, XY, YX and YY. -/
def coherency (s : Stokes) : Nat → ℂ
  | 0 => s.I + s.Q
  | 1 => s.U + Complex.I * s.V
  | 2 => s.U - Complex.I * s.V
  | _ => s.I - s.Q

/-- The delay in metres of a source over a baseline, less that of the phase centre. -/
def delay (center source : Direction) (uvw : Uvw) : ℝ :=
  dot (inSpace center uvw) (toward source) - dot (inSpace center uvw) (toward center)

/-- The phase factor of a source at a frequency. -/
def fringe (freq metres : ℝ) : ℂ := Complex.exp (turns freq metres * Complex.I)

/-- The coordinates of a baseline from these of its stations. -/
def baselineUvw (s : Cfg) (p q : Nat) : Uvw := fun i => s.stationUVW q i - s.stationUVW p i

/-- The mean of the phase factor over a channel of width `w` around a frequency. -/
def channelMean (freq w metres : ℝ) : ℂ := (1 / w : ℝ) * ∫ f in (freq - w / 2)..(freq + w / 2), fringe f metres

/-- The mean of the phase factor over an integration of length `T`, for a delay that changes with the given speed. -/
def timeMean (freq T metres speed : ℝ) : ℂ := (1 / T : ℝ) * ∫ t in (-(T / 2))..(T / 2), fringe freq (metres + speed * t)

/-- A vector fixed to the earth, an angle later: it turns around the celestial pole. -/
def turned (angle : ℝ) (b : Fin 3 → ℝ) : Fin 3 → ℝ :=
  ![Real.cos angle * b 0 - Real.sin angle * b 1, Real.sin angle * b 0 + Real.cos angle * b 1, b 2]

/-- The angular speed of the earth. -/
def earthSpeed : ℝ := 2 * Real.pi / 86164.0905

/-- The delay of a source over a baseline fixed to the earth as a function of time, less that of the phase centre. -/
def delayAt (center source : Direction) (uvw : Uvw) (t : ℝ) : ℝ :=
  dot (turned (earthSpeed * t) (inSpace center uvw)) (toward source) - dot (turned (earthSpeed * t) (inSpace center uvw)) (toward center)

/-- The phase factor of a source with the smearing that is asked for. For both kinds the two means are taken in turn, relative to the
phase in the middle of the channel and of the integration. -/
def smeared (byTime byFreq : Bool) (freq w T metres speed : ℝ) : ℂ :=
  match byTime, byFreq with
  | false, false => fringe freq metres
  | false, true => channelMean freq w metres
  | true, false => timeMean freq T metres speed
  | true, true => timeMean freq T metres speed * channelMean freq w metres / fringe freq metres

/-- The direction of the long axis of a source: its position angle goes from north to east. -/
def majorDir (d : Direction) (angle : ℝ) : Fin 3 → ℝ := fun i => Real.sin angle * east d i + Real.cos angle * north d i

/-- The direction of the short axis. -/
def minorDir (d : Direction) (angle : ℝ) : Fin 3 → ℝ := fun i => Real.cos angle * east d i - Real.sin angle * north d i

/-- The brightness along an axis: half the maximum at half the width on either side. -/
def profile (fwhm x : ℝ) : ℝ := Real.exp (-(4 * Real.log 2 / fwhm ^ 2) * x ^ 2)

end

end DP3.Simulator
