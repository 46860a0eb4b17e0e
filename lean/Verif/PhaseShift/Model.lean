import Mathlib.LinearAlgebra.Matrix.Notation
import Mathlib.Analysis.SpecialFunctions.Trigonometric.Basic
import Mathlib.Analysis.Complex.Basic

/-!
# The phase shifting step

A model of steps/PhaseShift.cc and of `rotateUVW` of base/Simulate.cc.

Simplified: floating point numbers are real numbers. The strings of the phase centre and the measures of casacore are not
modelled: the phase centre of a parset is a direction, or nothing for an empty vector. The loop over the baselines, which is
divided over threads, handles every baseline separately, and is a map.
-/

namespace DP3.PhaseShift

noncomputable section

/-- `Direction`, base/Direction.h:15-28. -/
structure Direction where
  ra : ℝ
  dec : ℝ

/-- The coordinates of a baseline or station. -/
abbrev Uvw := Fin 3 → ℝ

/-- `casacore::C::c` and `aocommon::kSpeedOfLight`, steps/PhaseShift.cc:84 and base/Simulator.cc:486. -/
def lightSpeed : ℝ := 299792458

/-- `PhaseShift::fillEulerMatrix`, steps/PhaseShift.cc:196-212. -/
def fillEulerMatrix (d : Direction) : Matrix (Fin 3) (Fin 3) ℝ :=
  let sinra := Real.sin d.ra
  let cosra := Real.cos d.ra
  let sindec := Real.sin d.dec
  let cosdec := Real.cos d.dec
  !![cosra, -sinra * sindec, sinra * cosdec;
     -sinra, -cosra * sindec, cosra * cosdec;
     0, cosdec, sindec]

/-- The product of a matrix, which is stored by columns, and a coordinate: steps/PhaseShift.cc:119-121 and
base/Simulate.cc:242-244. -/
def times (m : Matrix (Fin 3) (Fin 3) ℝ) (uvw : Uvw) : Uvw :=
  ![uvw 0 * m 0 0 + uvw 1 * m 0 1 + uvw 2 * m 0 2,
    uvw 0 * m 1 0 + uvw 1 * m 1 1 + uvw 2 * m 1 2,
    uvw 0 * m 2 0 + uvw 1 * m 2 1 + uvw 2 * m 2 2]

/-- `rotateUVW`, base/Simulate.cc:229-252. -/
def rotateUVW (from_ to_ : Direction) (uvw : List Uvw) : List Uvw :=
  let oldUVW := fillEulerMatrix from_
  let newUVW := fillEulerMatrix to_
  let tmp := newUVW.transpose * oldUVW
  uvw.map (times tmp)

/-- The part of a `DPInfo` that the step uses, base/DPInfo.h:211-214 and 132-134. -/
structure Info where
  originalPhaseCenter : Direction
  phaseCenter : Direction
  chanFreqs : List ℝ

/-- The members that `updateInfo` sets, steps/PhaseShift.h:99-103. -/
structure State where
  eulerMatrix : Matrix (Fin 3) (Fin 3) ℝ
  xyz : Uvw
  freqC : List ℝ

/-- The phase centre to shift to, steps/PhaseShift.cc:57-61. -/
def newDir (center : Option Direction) (info : Info) : Direction :=
  match center with
  | none => info.originalPhaseCenter
  | some d => d

/-- `PhaseShift::updateInfo`, steps/PhaseShift.cc:54-89: the state of the step and the information for the next step. -/
def updateInfo (center : Option Direction) (info : Info) : State × Info :=
  let new := newDir center info
  let oldUVW := fillEulerMatrix info.phaseCenter
  let newUVW := fillEulerMatrix new
  let w : Matrix (Fin 1) (Fin 3) ℝ := Matrix.of fun _ j => oldUVW j 2 - newUVW j 2
  let tt := w * oldUVW
  ({ eulerMatrix := newUVW.transpose * oldUVW
     xyz := ![tt 0 0, tt 0 1, tt 0 2]
     freqC := info.chanFreqs.map fun f => 2 * Real.pi * f / lightSpeed },
   { info with phaseCenter := new })

/-- A baseline of a `DPBuffer`: its coordinates, and per channel the values of the correlations. -/
structure Row where
  uvw : Uvw
  data : List (List ℂ)
  weights : List (List ℝ)
  flags : List (List Bool)

/-- The phase in metres, steps/PhaseShift.cc:122-123. -/
def phase (s : State) (uvw : Uvw) : ℝ := s.xyz 0 * uvw 0 + s.xyz 1 * uvw 1 + s.xyz 2 * uvw 2

/-- The phasor of channel `j`, steps/PhaseShift.cc:129-130. `itsFreqC` has an element for every channel. -/
def phasor (s : State) (uvw : Uvw) (j : Nat) : ℂ :=
  let phasewvl := phase s uvw * s.freqC.getD j 0
  ⟨Real.cos phasewvl, Real.sin phasewvl⟩

/-- The work for a baseline, steps/PhaseShift.cc:116-141. -/
def shiftRow (s : State) (r : Row) : Row :=
  { r with
    uvw := times s.eulerMatrix r.uvw
    data := r.data.mapIdx fun j d => d.map fun x => x * phasor s r.uvw j }

/-- The phasors that `getPhasors` returns for a baseline, steps/PhaseShift.cc:131. -/
def phasors (s : State) (r : Row) : List ℂ := r.data.mapIdx fun j _ => phasor s r.uvw j

/-- `PhaseShift::process`, steps/PhaseShift.cc:102-147: the buffer for the next step. -/
def process (s : State) (buffer : List Row) : List Row := buffer.map (shiftRow s)

/-- A chain of phase shifting steps: every step gets the information and the buffers of the step before it. -/
def chain : List (Option Direction) → Info → List (List Row) → Info × List (List Row)
  | [], info, buffers => (info, buffers)
  | center :: rest, info, buffers =>
    let r := updateInfo center info
    chain rest r.2 (buffers.map (process r.1))

end

end DP3.PhaseShift
