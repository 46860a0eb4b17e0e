import Verif.Simulator.Spec
import Verif.PhaseShift.Props

/-!
# Lemmas on the simulator
-/

namespace DP3.Simulator

open PhaseShift Complex

set_option linter.unusedSimpArgs false

theorem lmn_eq (ref d : Direction) : radec2lmn ref d = coords ref (toward d) := by
  funext i
  fin_cases i <;> simp [radec2lmn, coords, dot, east, north, toward, Real.sin_sub, Real.cos_sub] <;> ring

theorem dot_coords (d : Direction) (u : Uvw) (b : Fin 3 → ℝ) : dot u (coords d b) = dot (inSpace d u) b := by
  simp [dot, coords, inSpace]
  ring

theorem lmn_self (d : Direction) : radec2lmn d d = ![0, 0, 1] := by
  have h := Real.sin_sq_add_cos_sq d.dec
  funext i
  fin_cases i <;> simp [radec2lmn]
  · ring
  · linear_combination h

theorem stationPhase_eq (ref d : Direction) (u : Uvw) : stationPhase (radec2lmn ref d) u = cinv * delay ref d u := by
  have h1 : dot u (radec2lmn ref d) = dot (inSpace ref u) (toward d) := by rw [lmn_eq, dot_coords]
  have h2 : dot u (radec2lmn ref ref) = dot (inSpace ref u) (toward ref) := by rw [lmn_eq, dot_coords]
  rw [lmn_self] at h2
  unfold stationPhase delay
  rw [← h1, ← h2]
  simp [dot]
  left
  ring

theorem delay_sub (s : Cfg) (d : Direction) (p q : Nat) :
    delay s.reference d (s.stationUVW q) - delay s.reference d (s.stationUVW p) = delay s.reference d (baselineUvw s p q) := by
  simp only [delay, dot, inSpace, baselineUvw]
  ring

theorem phase_diff (s : Cfg) (d : Direction) (p q : Nat) :
    stationPhase (radec2lmn s.reference d) (s.stationUVW q) - stationPhase (radec2lmn s.reference d) (s.stationUVW p) =
      cinv * delay s.reference d (baselineUvw s p q) := by
  rw [stationPhase_eq, stationPhase_eq, ← mul_sub, delay_sub]

theorem turns_eq (f m : ℝ) : turns f m = cinv * m * f := by
  unfold turns cinv
  ring

theorem spectrum_eq (c : Point) (f : ℝ) (io : Bool) (corr : Nat) :
    (⟨(spectrum c f io corr).1, (spectrum c f io corr).2⟩ : ℂ) =
      if io then ((stokesAt c f).I : ℂ) else coherency (stokesAt c f) corr := by
  unfold spectrum
  cases io
  · simp only [Bool.false_eq_true, if_false]
    match corr with
    | 0 => apply Complex.ext <;> simp [coherency]
    | 1 => apply Complex.ext <;> simp [coherency]
    | 2 => apply Complex.ext <;> simp [coherency]
    | n + 3 => apply Complex.ext <;> simp [coherency]
  · simp only [if_true]
    apply Complex.ext <;> simp

theorem product_eq (s : Cfg) (c : Point) (p q ch corr : Nat) :
    (⟨(product s c p q ch corr).1, (product s c p q ch corr).2⟩ : ℂ) =
      fringe (s.freq.getD ch 0) (delay s.reference c.direction (baselineUvw s p q)) *
        if s.stokesIOnly then ((stokesAt c (s.freq.getD ch 0)).I : ℂ) else coherency (stokesAt c (s.freq.getD ch 0)) corr := by
  rw [← spectrum_eq]
  have h : turns (s.freq.getD ch 0) (delay s.reference c.direction (baselineUvw s p q)) =
      stationPhase (radec2lmn s.reference c.direction) (s.stationUVW q) * s.freq.getD ch 0 -
        stationPhase (radec2lmn s.reference c.direction) (s.stationUVW p) * s.freq.getD ch 0 := by
    rw [turns_eq, ← phase_diff, sub_mul]
  unfold fringe
  rw [h, ← mk_cos_sin, Real.cos_sub, Real.sin_sub]
  unfold product shift
  apply Complex.ext <;> simp <;> ring

end DP3.Simulator
