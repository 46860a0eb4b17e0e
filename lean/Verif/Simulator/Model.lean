import Verif.PhaseShift.Model
import Mathlib.Analysis.SpecialFunctions.Log.Base
import Mathlib.Analysis.SpecialFunctions.Pow.Real
import Mathlib.Analysis.SpecialFunctions.Complex.Arg

/-!
# Simulating visibilities

A model of base/Simulator.{h,cc}, base/PointSource.cc, base/GaussianSource.h, of the parts of steps/OnePredict.cc that
divide the sources over threads and use the result, and of the functions of sky_model/ that make components of sources.

Simplified: floating point numbers are real numbers (`sinc` is a `float` function in the code). The buffer is a function of the
baseline, the channel and the correlation: the pointers that step through it, through the phasors of the stations and
through the spectrum visit its elements in this order. The beam and the application of solutions are not modelled.
-/

namespace DP3.Simulator

open PhaseShift (Direction Uvw lightSpeed fillEulerMatrix times)

noncomputable section

/-- `radec2lmn`, base/Simulator.h:35-60. -/
def radec2lmn (reference direction : Direction) : Fin 3 → ℝ :=
  let deltaRa := direction.ra - reference.ra
  let sinDeltaRa := Real.sin deltaRa
  let cosDeltaRa := Real.cos deltaRa
  let sinDec := Real.sin direction.dec
  let cosDec := Real.cos direction.dec
  let sinDec0 := Real.sin reference.dec
  let cosDec0 := Real.cos reference.dec
  ![cosDec * sinDeltaRa,
    sinDec * cosDec0 - cosDec * sinDec0 * cosDeltaRa,
    sinDec * sinDec0 + cosDec * cosDec0 * cosDeltaRa]

/-- `Stokes`, base/Stokes.h:16-21. -/
structure Stokes where
  I : ℝ
  Q : ℝ
  U : ℝ
  V : ℝ

/-- `PointSource`, base/PointSource.h:61-69. -/
structure Point where
  direction : Direction
  stokes : Stokes
  refFreq : ℝ
  terms : List ℝ
  polarizedFraction : ℝ
  polarizationAngle : ℝ
  rotationMeasure : ℝ
  hasRotationMeasure : Bool
  hasLogarithmicSI : Bool

/-- The loops over the terms from the last to the first, base/PointSource.cc:65-71 and 79-84. -/
def horner (terms : List ℝ) (x : ℝ) : ℝ := terms.reverse.foldl (fun v t => v * x + t) 0

/-- The spectral terms, base/PointSource.cc:52-87: Stokes I at a frequency. -/
def stokesI (c : Point) (freq : ℝ) : ℝ :=
  if c.terms ≠ [] then
    if c.hasLogarithmicSI then
      let base := Real.logb 10 freq - Real.logb 10 c.refFreq
      let exponent := horner c.terms base
      c.stokes.I * (10 : ℝ) ^ (base * exponent)
    else
      let x := freq / c.refFreq - 1
      c.stokes.I + horner c.terms x * x
  else c.stokes.I

/-- `PointSource::stokes`, base/PointSource.cc:51-99. -/
def stokesAt (c : Point) (freq : ℝ) : Stokes :=
  let i := stokesI c freq
  if c.hasRotationMeasure then
    let lambda := lightSpeed / freq
    let chi := 2 * (c.polarizationAngle + c.rotationMeasure * lambda * lambda)
    let stokesQU := i * c.polarizedFraction
    { c.stokes with I := i, Q := stokesQU * Real.cos chi, U := stokesQU * Real.sin chi }
  else { c.stokes with I := i }

/-- `GaussianSource`, base/GaussianSource.h:52-58. -/
structure Gaussian where
  point : Point
  positionAngle : ℝ
  isAbsolute : Bool
  majorAxis : ℝ
  minorAxis : ℝ

/-- A `ModelComponent`. -/
inductive Component
  | point (c : Point)
  | gaussian (c : Gaussian)

/-- The arguments of the constructor, base/Simulator.cc:58-103. -/
structure Cfg where
  reference : Direction
  baselines : List (Nat × Nat)
  freq : List ℝ
  chanWidths : List ℝ
  /-- The second and third element; the first is zero, base/Simulator.cc:493-495. -/
  ncp1 : ℝ
  ncp2 : ℝ
  stationUVW : Nat → Uvw
  correctTimeSmearing : Bool
  correctFreqSmearing : Bool
  stokesIOnly : Bool

/-- The output: baseline, channel, correlation. -/
abbrev Buffer := Nat → Nat → Nat → ℂ

/-- The constant `cinv`, base/Simulator.cc:486. -/
def cinv : ℝ := 2 * Real.pi / lightSpeed

/-- `stationPhases`, base/Simulator.cc:489-490. -/
def stationPhase (lmn : Fin 3 → ℝ) (uvw : Uvw) : ℝ :=
  cinv * (uvw 0 * lmn 0 + uvw 1 * lmn 1 + uvw 2 * (lmn 2 - 1))

/-- `stationEarthRotation`, base/Simulator.cc:496-503. -/
def stationEarthRotation (s : Cfg) (lmn : Fin 3 → ℝ) (uvw : Uvw) : ℝ :=
  cinv * (lmn 0 * (uvw 1 * s.ncp2 - uvw 2 * s.ncp1) + lmn 1 * (-uvw 0 * s.ncp2) + (lmn 2 - 1) * (uvw 0 * s.ncp1))

/-- The real and imaginary part of the phasor of a station and channel, base/Simulator.cc:510-523. -/
def shift (s : Cfg) (lmn : Fin 3 → ℝ) (ch st : Nat) : ℝ × ℝ :=
  let phaseTerm := stationPhase lmn (s.stationUVW st) * s.freq.getD ch 0
  (Real.cos phaseTerm, Real.sin phaseTerm)

/-- `spectrum`, base/Simulator.cc:527-550: the real and imaginary part for a correlation. -/
def spectrum (c : Point) (freq : ℝ) (stokesIOnly : Bool) (corr : Nat) : ℝ × ℝ :=
  let stokes := stokesAt c freq
  if stokesIOnly then (stokes.I, 0)
  else
    match corr with
    | 0 => (stokes.I + stokes.Q, 0)
    | 1 => (stokes.U, stokes.V)
    | 2 => (stokes.U, -stokes.V)
    | _ => (stokes.I - stokes.Q, 0)

/-- `sinc`, base/Simulator.cc:472-474. -/
def sinc (x : ℝ) : ℝ := open Classical in if |x| < 1e-6 then 1 else Real.sin x / x

/-- The product of the phasors and the spectrum, base/Simulator.cc:206-211, 234-251 and 412-417, 430-447. -/
def product (s : Cfg) (c : Point) (p q ch corr : Nat) : ℝ × ℝ :=
  let lmn := radec2lmn s.reference c.direction
  let xyp := shift s lmn ch p
  let xyq := shift s lmn ch q
  let xyc := spectrum c (s.freq.getD ch 0) s.stokesIOnly corr
  let qConjPReal := xyp.1 * xyq.1 + xyp.2 * xyq.2
  let qConjPImag := xyp.1 * xyq.2 - xyq.1 * xyp.2
  (qConjPReal * xyc.1 - qConjPImag * xyc.2, qConjPReal * xyc.2 + qConjPImag * xyc.1)

/-- The factor for the smearing in time, base/Simulator.cc:183-185 and 391-393. -/
def timeSmear (s : Cfg) (c : Point) (p q ch : Nat) : ℝ :=
  let lmn := radec2lmn s.reference c.direction
  sinc (0.5 * (stationEarthRotation s lmn (s.stationUVW q) - stationEarthRotation s lmn (s.stationUVW p)) * s.freq.getD ch 0)

/-- The factor for the smearing in frequency, base/Simulator.cc:195-197 and 401-403. -/
def freqSmear (s : Cfg) (c : Point) (p q ch : Nat) : ℝ :=
  let lmn := radec2lmn s.reference c.direction
  sinc (0.5 * (stationPhase lmn (s.stationUVW q) - stationPhase lmn (s.stationUVW p)) * s.chanWidths.getD ch 0)

/-- `smear_terms` for a point source, base/Simulator.cc:178-199. -/
def smearTerm (s : Cfg) (c : Point) (p q ch : Nat) : ℝ :=
  let t := if s.correctTimeSmearing then timeSmear s c p q ch else 1
  if s.correctFreqSmearing then t * freqSmear s c p q ch else t

/-- The value that a point source adds, base/Simulator.cc:201-279. -/
def pointValue (s : Cfg) (c : Point) (p q ch corr : Nat) : ℂ :=
  let v := product s c p q ch corr
  let smear := smearTerm s c p q ch
  if s.stokesIOnly then
    if s.correctTimeSmearing || s.correctFreqSmearing then ⟨smear * v.1, smear * v.2⟩ else ⟨v.1, v.2⟩
  else
    if s.correctFreqSmearing then ⟨smear * v.1, smear * v.2⟩ else ⟨v.1, v.2⟩

/-- `uvwShifted`, base/Simulator.cc:302-326. -/
def uvwShifted (s : Cfg) (c : Gaussian) (st : Nat) : Uvw :=
  if c.isAbsolute then
    let eulerMatrixPhasecenter := fillEulerMatrix s.reference
    let eulerMatrixSource := fillEulerMatrix c.point.direction
    times (eulerMatrixSource.transpose * eulerMatrixPhasecenter) (s.stationUVW st)
  else s.stationUVW st

/-- The amplitude of a Gaussian, base/Simulator.cc:296-300, 329-333, 342, 352-366 and 382-383. -/
def amplitude (s : Cfg) (c : Gaussian) (p q ch : Nat) : ℝ :=
  let phi := Real.pi / 2 + c.positionAngle + Real.pi
  let cosPhi := Real.cos phi
  let sinPhi := Real.sin phi
  let fwhm2sigma := 1 / (2 * Real.sqrt (2 * Real.log 2))
  let uScale := c.majorAxis * fwhm2sigma
  let vScale := c.minorAxis * fwhm2sigma
  let u := uvwShifted s c q 0 - uvwShifted s c p 0
  let v := uvwShifted s c q 1 - uvwShifted s c p 1
  let uPrime := uScale * (u * cosPhi - v * sinPhi)
  let vPrime := vScale * (u * sinPhi + v * cosPhi)
  let uvPrime := (-2 * Real.pi * Real.pi) * (uPrime * uPrime + vPrime * vPrime)
  let invCSqr := 1 / (lightSpeed * lightSpeed)
  Real.exp (s.freq.getD ch 0 * s.freq.getD ch 0 * invCSqr * uvPrime)

/-- `smear_terms` for a Gaussian, base/Simulator.cc:379-405. -/
def gaussianSmear (s : Cfg) (c : Gaussian) (p q ch : Nat) : ℝ :=
  let a := amplitude s c p q ch
  let t := if s.correctTimeSmearing then a * timeSmear s c.point p q ch else a
  if s.correctFreqSmearing then t * freqSmear s c.point p q ch else t

/-- The value that a Gaussian adds, base/Simulator.cc:407-465. -/
def gaussianValue (s : Cfg) (c : Gaussian) (p q ch corr : Nat) : ℂ :=
  let v := product s c.point p q ch corr
  let smear := gaussianSmear s c p q ch
  ⟨smear * v.1, smear * v.2⟩

/-- The number of correlations, base/Simulator.cc:122-125 and 335-338. -/
def nCorr (s : Cfg) : Nat := if s.stokesIOnly then 1 else 4

/-- The loop over the baselines, base/Simulator.cc:157-281 and 344-467: autocorrelations are left out. -/
def visit (s : Cfg) (value : Nat → Nat → Nat → Nat → ℂ) (buffer : Buffer) : Buffer := fun bl ch corr =>
  match s.baselines[bl]? with
  | none => buffer bl ch corr
  | some (p, q) =>
    if p = q then buffer bl ch corr
    else if ch < s.freq.length ∧ corr < nCorr s then buffer bl ch corr + value p q ch corr
    else buffer bl ch corr

/-- `Simulator::simulate`, base/Simulator.cc:105-108. -/
def simulate (s : Cfg) (buffer : Buffer) (c : Component) : Buffer :=
  match c with
  | .point c => visit s (pointValue s c) buffer
  | .gaussian c => visit s (gaussianValue s c) buffer

/-- The loop of `PredictSourceRange` without a beam, steps/OnePredict.cc:592-610, in a buffer that starts at zero. -/
def predictRange (s : Cfg) (sources : List Component) : Buffer := sources.foldl (simulate s) (fun _ _ _ => 0)

/-- The sum over the threads, each with its own range of the sources, steps/OnePredict.cc:620-622 and 651-662: the lock lets one
thread after the other add its result. -/
def predict (s : Cfg) (ranges : List (List Component)) : Buffer :=
  ranges.foldl (fun result r bl ch corr => result bl ch corr + predictRange s r bl ch corr) (fun _ _ _ => 0)

/-- The direction of the pole over an integration, steps/OnePredict.cc:312-327: `scaled_ncp_uvw_`. -/
def withNcp (s : Cfg) (timeInterval : ℝ) : Cfg :=
  let kSiderealDay := 86164.0905
  let angularSpeed := 2 * Real.pi * timeInterval / kSiderealDay
  { s with ncp1 := angularSpeed * Real.cos s.reference.dec, ncp2 := angularSpeed * Real.sin s.reference.dec }

/-- `CopyPredictBufferToData`, steps/OnePredict.cc:437-457, for data with four correlations. -/
def copyToData (s : Cfg) (b : Buffer) : Buffer := fun bl ch corr =>
  if s.stokesIOnly then
    match corr with
    | 0 => b bl ch 0
    | 1 => 0
    | 2 => 0
    | _ => b bl ch 0
  else b bl ch corr

/-! ## The sky model -/

/-- A source of a sky model, sky_model/Source.h:85-99 and sky_model/SourceInfo.h:30-35, with angles and axes in degrees and
arcseconds. -/
structure Source where
  patchName : List Char
  isGaussian : Bool
  refTypeIsJ2000 : Bool
  ra : ℝ
  dec : ℝ
  I : ℝ
  Q : ℝ
  U : ℝ
  V : ℝ
  majorAxis : ℝ
  minorAxis : ℝ
  orientation : ℝ
  positionAngleIsAbsolute : Bool
  polAngle : ℝ
  polFrac : ℝ
  rm : ℝ
  useRotationMeasure : Bool
  terms : List ℝ
  refFreq : ℝ
  hasLogarithmicSI : Bool

/-- `MakePointSource`, sky_model/SkyModelFunctions.cc:29-86, for point sources and Gaussians; nothing for the exception. -/
def makePointSource (src : Source) : Option Component :=
  if src.refTypeIsJ2000 then
    let stokes : Stokes :=
      if src.useRotationMeasure then ⟨src.I, 0, 0, src.V⟩ else ⟨src.I, src.Q, src.U, src.V⟩
    let point : Point :=
      { direction := ⟨src.ra, src.dec⟩
        stokes := stokes
        refFreq := if src.terms.length > 0 then src.refFreq else 0
        terms := src.terms
        polarizedFraction := if src.useRotationMeasure then src.polFrac else 0
        polarizationAngle := if src.useRotationMeasure then src.polAngle else 0
        rotationMeasure := if src.useRotationMeasure then src.rm else 0
        hasRotationMeasure := src.useRotationMeasure
        hasLogarithmicSI := if src.terms.length > 0 then src.hasLogarithmicSI else true }
    if src.isGaussian then
      let deg2rad := Real.pi / 180
      let arcsec2rad := (Real.pi / 3600) / 180
      some (.gaussian ⟨point, src.orientation * deg2rad, src.positionAngleIsAbsolute, src.majorAxis * arcsec2rad, src.minorAxis * arcsec2rad⟩)
    else some (.point point)
  else none

/-- The sources of the patches with the given names, sky_model/SkyModelFunctions.cc:96-104. The components are in one list here,
in the order of the sky model. -/
def selected (sources : List Source) (patchNames : List (List Char)) : List Source :=
  sources.filter fun src => patchNames.contains src.patchName

/-- The condition in `CheckPolarized`, sky_model/SkyModelFunctions.cc:271-279. -/
def polarized (src : Source) : Bool :=
  open Classical in
  if src.useRotationMeasure then decide (src.V ≠ 0) || decide (src.polFrac ≠ 0)
  else decide (src.V ≠ 0) || decide (src.Q ≠ 0) || decide (src.U ≠ 0)

/-- `CheckPolarized`, sky_model/SkyModelFunctions.cc:265-284. -/
def checkPolarized (sources : List Source) (patchNames : List (List Char)) : Bool :=
  sources.any fun src => patchNames.any fun name => name == src.patchName && polarized src

/-- The spectral index of `calcRMParam`, sky_model/ReadSkyModel.cc:645-658. -/
def rmSpectralFactor (terms : List ℝ) (refFreq rmRefWavel : ℝ) : ℝ :=
  if terms.length > 0 then
    let rmFreq := lightSpeed / rmRefWavel
    let vv0 := rmFreq / refFreq
    let r := terms.foldl (fun (r : ℝ × ℝ) t => (r.1 + r.2 * t, r.2 * Real.logb 10 vv0)) (0, 1)
    vv0 ^ r.1
  else 1

/-- `fmod(x, π)` and the correction of negative values, sky_model/ReadSkyModel.cc:666-669. -/
def modPi (x : ℝ) : ℝ :=
  open Classical in
  let q := x / Real.pi
  let r := x - Real.pi * (if 0 ≤ q then (⌊q⌋ : ℝ) else (⌈q⌉ : ℝ))
  if r < 0 then r + Real.pi else r

/-- `calcRMParam`, sky_model/ReadSkyModel.cc:636-670: the polarized fraction and angle. Nothing for the exception. -/
def calcRMParam (fluxI fluxQ fluxU : ℝ) (terms : List ℝ) (rm refFreq rmRefWavel : ℝ) : Option (ℝ × ℝ) :=
  open Classical in
  if terms.length > 0 ∧ rmRefWavel ≤ 0 then none
  else
    let fluxi := fluxI * rmSpectralFactor terms refFreq rmRefWavel
    let polfrac := Real.sqrt (fluxQ * fluxQ + fluxU * fluxU) / fluxi
    let pa := 0.5 * Complex.arg ⟨fluxQ, fluxU⟩ - rmRefWavel * rmRefWavel * rm
    some (polfrac, modPi pa)

/-- `PatchSumInfo`, sky_model/PatchInfo.h:93-96. -/
structure PatchSum where
  x : ℝ
  y : ℝ
  z : ℝ
  flux : ℝ

/-- `PatchSumInfo::add`, sky_model/PatchInfo.cc:20-28. -/
def PatchSum.add (s : PatchSum) (d : Direction) (flux : ℝ) : PatchSum :=
  let cosDec := Real.cos d.dec
  { x := s.x + Real.cos d.ra * cosDec * flux
    y := s.y + Real.sin d.ra * cosDec * flux
    z := s.z + Real.sin d.dec * flux
    flux := s.flux + flux }

/-- `getRa` and `getDec`, sky_model/PatchInfo.h:84-87: `atan2` is the argument, `asin` is not defined outside `[-1, 1]`. -/
def PatchSum.direction (s : PatchSum) : Option Direction :=
  open Classical in
  if s.flux = 0 then none
  else if |s.z / s.flux| ≤ 1 then some ⟨Complex.arg ⟨s.x / s.flux, s.y / s.flux⟩, Real.arcsin (s.z / s.flux)⟩
  else none

/-- The direction of a patch, sky_model/ReadSkyModel.cc:932-937, from its sources and their Stokes I. Nothing if no direction is set, or
one that is not a number. -/
def patchDirection (sources : List (Direction × ℝ)) : Option Direction :=
  (sources.foldl (fun (s : PatchSum) c => s.add c.1 c.2) (⟨0, 0, 0, 0⟩ : PatchSum)).direction

end

end DP3.Simulator
