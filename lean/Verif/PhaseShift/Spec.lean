import Verif.PhaseShift.Model

/-!
# What a phase centre means

The sky as unit vectors in equatorial coordinates, the axes of the coordinates of a baseline, and the vector that
coordinates stand for. None of this is in the code.
-/

namespace DP3.PhaseShift

noncomputable section

/-- The unit vector of a direction: the first axis points to right ascension zero, the third to the celestial pole. -/
def toward (d : Direction) : Fin 3 → ℝ :=
  ![Real.cos d.ra * Real.cos d.dec, Real.sin d.ra * Real.cos d.dec, Real.sin d.dec]

/-- The direction of increasing right ascension. -/
def east (d : Direction) : Fin 3 → ℝ := ![-Real.sin d.ra, Real.cos d.ra, 0]

/-- The direction of increasing declination. -/
def north (d : Direction) : Fin 3 → ℝ :=
  ![-Real.cos d.ra * Real.sin d.dec, -Real.sin d.ra * Real.sin d.dec, Real.cos d.dec]

/-- The vector in space of a baseline with the given coordinates for a phase centre. -/
def inSpace (center : Direction) (uvw : Uvw) : Fin 3 → ℝ := fun i =>
  uvw 0 * east center i + uvw 1 * north center i + uvw 2 * toward center i

/-- The inner product. -/
def dot (x y : Fin 3 → ℝ) : ℝ := x 0 * y 0 + x 1 * y 1 + x 2 * y 2

/-- The number of turns of the phase, times `2π`, for a delay in metres at a frequency. -/
def turns (freq metres : ℝ) : ℝ := 2 * Real.pi * freq / lightSpeed * metres

/-- The visibilities of a baseline after shifting its phase centre: what the phase has to be follows from the vector of the
baseline in space and from the two directions alone. -/
def shifted (old new : Direction) (freqs : List ℝ) (r : Row) (ch : Nat) (x : ℂ) : ℂ :=
  x * Complex.exp (turns (freqs.getD ch 0) (dot (inSpace old r.uvw) (toward old) - dot (inSpace old r.uvw) (toward new)) * Complex.I)

end

end DP3.PhaseShift
