import Verif.Simulator.Lemmas
import Mathlib.Algebra.BigOperators.Group.List.Lemmas

/-!
# C115: predicted visibilities and the phase centre
-/

namespace DP3.Simulator

open PhaseShift Complex

set_option linter.unusedSimpArgs false

/-- The value that a component adds to a baseline. -/
noncomputable def value (s : Cfg) : Component → Nat → Nat → Nat → Nat → ℂ
  | .point c => pointValue s c
  | .gaussian c => gaussianValue s c

private theorem simulate_eq (s : Cfg) (b : Buffer) (c : Component) : simulate s b c = visit s (value s c) b := by
  cases c <;> rfl

/-- The sum of the values of the sources for an element of the buffer. -/
noncomputable def total (s : Cfg) (sources : List Component) (bl ch corr : Nat) : ℂ :=
  match s.baselines[bl]? with
  | none => 0
  | some (p, q) => if p = q then 0 else if ch < s.freq.length ∧ corr < nCorr s then (sources.map fun c => value s c p q ch corr).sum else 0

private theorem foldl_total (s : Cfg) (sources : List Component) (b : Buffer) (bl ch corr : Nat) :
    sources.foldl (simulate s) b bl ch corr = b bl ch corr + total s sources bl ch corr := by
  induction sources generalizing b with
  | nil =>
    simp only [List.foldl_nil, total, List.map_nil, List.sum_nil]
    cases s.baselines[bl]? with
    | none => simp
    | some pq => simp
  | cons c cs ih =>
    rw [List.foldl_cons, ih, simulate_eq]
    simp only [visit, total]
    cases h : s.baselines[bl]? with
    | none => simp
    | some pq =>
      obtain ⟨p, q⟩ := pq
      simp only
      by_cases hpq : p = q
      · simp [hpq]
      · rw [if_neg hpq, if_neg hpq, if_neg hpq]
        by_cases hr : ch < s.freq.length ∧ corr < nCorr s
        · rw [if_pos hr, if_pos hr, if_pos hr, List.map_cons, List.sum_cons, add_assoc]
        · rw [if_neg hr, if_neg hr, if_neg hr]

theorem predictRange_eq (s : Cfg) (sources : List Component) (bl ch corr : Nat) :
    predictRange s sources bl ch corr = total s sources bl ch corr := by
  unfold predictRange
  rw [foldl_total, zero_add]

private theorem total_append (s : Cfg) (a b : List Component) (bl ch corr : Nat) :
    total s (a ++ b) bl ch corr = total s a bl ch corr + total s b bl ch corr := by
  unfold total
  cases s.baselines[bl]? with
  | none => simp
  | some pq =>
    simp only [List.map_append, List.sum_append]
    split
    · simp
    · split <;> simp

private theorem predict_total (s : Cfg) (ranges : List (List Component)) (b : Buffer) (bl ch corr : Nat) :
    ranges.foldl (fun result r bl ch corr => result bl ch corr + predictRange s r bl ch corr) b bl ch corr =
      b bl ch corr + total s ranges.flatten bl ch corr := by
  induction ranges generalizing b with
  | nil =>
    simp only [List.foldl_nil, List.flatten_nil, total, List.map_nil, List.sum_nil]
    cases s.baselines[bl]? with
    | none => simp
    | some pq => simp
  | cons r rs ih =>
    rw [List.foldl_cons, ih, List.flatten_cons, total_append, predictRange_eq, add_assoc]

theorem predict_eq_total (s : Cfg) (ranges : List (List Component)) (bl ch corr : Nat) :
    predict s ranges bl ch corr = total s ranges.flatten bl ch corr := by
  unfold predict
  rw [predict_total, zero_add]

/-- The model of one source. -/
theorem predict_one (s : Cfg) (c : Component) (bl p q ch corr : Nat) (hb : s.baselines[bl]? = some (p, q)) (hpq : p ≠ q)
    (hch : ch < s.freq.length) (hn : corr < nCorr s) : predict s [[c]] bl ch corr = value s c p q ch corr := by
  rw [predict_eq_total]
  unfold total
  rw [hb]
  simp only [if_neg hpq]
  rw [if_pos ⟨hch, hn⟩]
  simp

/-- **C115.** The way in which the sources are divided over the threads, the order in which the threads finish, and the order of the
sources in the model do not change the result. -/
theorem predict_perm (s : Cfg) (ranges ranges' : List (List Component)) (h : ranges.flatten.Perm ranges'.flatten) :
    predict s ranges = predict s ranges' := by
  funext bl ch corr
  rw [predict_eq_total, predict_eq_total]
  unfold total
  cases s.baselines[bl]? with
  | none => rfl
  | some pq =>
    simp only
    rw [(h.map fun c => value s c pq.1 pq.2 ch corr).sum_eq]

/-- **C115.** The model of the sources of two sky models is the sum of their models. -/
theorem predict_add (s : Cfg) (a b : List Component) :
    predict s [a ++ b] = fun bl ch corr => predict s [a] bl ch corr + predict s [b] bl ch corr := by
  funext bl ch corr
  rw [predict_eq_total, predict_eq_total, predict_eq_total]
  simpa using total_append s a b bl ch corr

/-- **C115.** Without correction for smearing in frequency, the model of a sky of point sources is the sum over the sources of the coherency matrix and the phase
of the delay between the stations, less the delay of the phase centre. -/
theorem predict_points (s : Cfg) (hf : s.correctFreqSmearing = false) (hi : s.stokesIOnly = false)
    (sources : List Point) (bl p q ch corr : Nat) (hb : s.baselines[bl]? = some (p, q)) (hpq : p ≠ q) (hch : ch < s.freq.length)
    (hcorr : corr < 4) :
    copyToData s (predict s [sources.map Component.point]) bl ch corr =
      (sources.map fun c => coherency (stokesAt c (s.freq.getD ch 0)) corr *
        fringe (s.freq.getD ch 0) (delay s.reference c.direction (baselineUvw s p q))).sum := by
  have hn : corr < nCorr s := by simp [nCorr, hi]; omega
  unfold copyToData
  rw [if_neg (by simp [hi]), predict_eq_total]
  unfold total
  rw [hb]
  simp only [if_neg hpq]
  rw [if_pos ⟨hch, hn⟩, List.flatten_cons, List.flatten_nil, List.append_nil, List.map_map]
  congr 1
  apply List.map_congr_left
  intro c _
  show pointValue s c p q ch corr = _
  have := product_eq s c p q ch corr
  rw [hi] at this
  simp only [Bool.false_eq_true, if_false] at this
  unfold pointValue
  simp only [hi, hf, Bool.false_eq_true, if_false]
  rw [this, mul_comm]

/-- **C115.** The model has no autocorrelations. -/
theorem predict_auto (s : Cfg) (ranges : List (List Component)) (bl p ch corr : Nat) (hb : s.baselines[bl]? = some (p, p)) :
    copyToData s (predict s ranges) bl ch corr = 0 := by
  have h : ∀ k, predict s ranges bl ch k = 0 := by
    intro k
    rw [predict_eq_total]
    unfold total
    rw [hb]
    simp
  unfold copyToData
  split
  · match corr with
    | 0 => exact h 0
    | 1 => rfl
    | 2 => rfl
    | n + 3 => exact h 0
  · exact h corr

/-! ## Another phase centre -/

/-- The simulator for another phase centre, with the coordinates of the stations for it. -/
noncomputable def atCenter (s : Cfg) (d : Direction) : Cfg :=
  { s with
    reference := d
    stationUVW := fun st => times ((fillEulerMatrix d).transpose * fillEulerMatrix s.reference) (s.stationUVW st) }

private theorem at_inSpace (s : Cfg) (d : Direction) (st : Nat) :
    inSpace d ((atCenter s d).stationUVW st) = inSpace s.reference (s.stationUVW st) := by
  show inSpace d (times _ _) = _
  rw [times_coords, inSpace_coords]

private theorem inSpace_sub (s : Cfg) (p q : Nat) :
    inSpace s.reference (baselineUvw s p q) = fun i => inSpace s.reference (s.stationUVW q) i - inSpace s.reference (s.stationUVW p) i := by
  funext i
  simp only [inSpace, baselineUvw]
  ring

private theorem at_baseline (s : Cfg) (d : Direction) (p q : Nat) :
    inSpace d (baselineUvw (atCenter s d) p q) = inSpace s.reference (baselineUvw s p q) := by
  rw [inSpace_sub s p q, ← at_inSpace s d p, ← at_inSpace s d q]
  exact inSpace_sub (atCenter s d) p q

private theorem at_delay (s : Cfg) (d src : Direction) (p q : Nat) :
    delay d src (baselineUvw (atCenter s d) p q) = delay s.reference src (baselineUvw s p q) +
      (dot (inSpace s.reference (baselineUvw s p q)) (toward s.reference) - dot (inSpace s.reference (baselineUvw s p q)) (toward d)) := by
  unfold delay
  rw [at_baseline]
  ring

theorem fringe_add (f a b : ℝ) : fringe f (a + b) = fringe f a * fringe f b := by
  unfold fringe turns
  rw [← exp_add]
  congr 1
  push_cast
  ring

private theorem at_product (s : Cfg) (d : Direction) (c : Point) (p q ch corr : Nat) :
    (⟨(product (atCenter s d) c p q ch corr).1, (product (atCenter s d) c p q ch corr).2⟩ : ℂ) =
      ⟨(product s c p q ch corr).1, (product s c p q ch corr).2⟩ * fringe (s.freq.getD ch 0)
        (dot (inSpace s.reference (baselineUvw s p q)) (toward s.reference) - dot (inSpace s.reference (baselineUvw s p q)) (toward d)) := by
  rw [product_eq, product_eq]
  have h1 : (atCenter s d).reference = d := rfl
  have h2 : (atCenter s d).freq = s.freq := rfl
  have h3 : (atCenter s d).stokesIOnly = s.stokesIOnly := rfl
  rw [h1, h2, h3, at_delay, fringe_add]
  ring

private theorem at_shifted (s : Cfg) (d : Direction) (c : Gaussian) (ha : c.isAbsolute = true) (st : Nat) :
    uvwShifted (atCenter s d) c st = uvwShifted s c st := by
  unfold uvwShifted
  rw [if_pos ha, if_pos ha]
  show times ((fillEulerMatrix c.point.direction).transpose * fillEulerMatrix d) ((atCenter s d).stationUVW st) = _
  rw [times_coords, at_inSpace, times_coords]

private theorem at_amplitude (s : Cfg) (d : Direction) (c : Gaussian) (ha : c.isAbsolute = true) (p q ch : Nat) :
    amplitude (atCenter s d) c p q ch = amplitude s c p q ch := by
  unfold amplitude
  simp only [at_shifted s d c ha]
  rfl

theorem mk_smul (a x y : ℝ) : (⟨a * x, a * y⟩ : ℂ) = a * ⟨x, y⟩ := by
  apply Complex.ext <;> simp

/-- The components of which the shape does not depend on the phase centre. -/
def Fixed : Component → Prop
  | .point _ => True
  | .gaussian c => c.isAbsolute = true

private theorem at_value (s : Cfg) (ht : s.correctTimeSmearing = false) (hf : s.correctFreqSmearing = false) (d : Direction)
    (c : Component) (hc : Fixed c) (p q ch corr : Nat) :
    value (atCenter s d) c p q ch corr = value s c p q ch corr * fringe (s.freq.getD ch 0)
        (dot (inSpace s.reference (baselineUvw s p q)) (toward s.reference) - dot (inSpace s.reference (baselineUvw s p q)) (toward d)) := by
  have ht' : (atCenter s d).correctTimeSmearing = false := ht
  have hf' : (atCenter s d).correctFreqSmearing = false := hf
  cases c with
  | point c =>
    show pointValue _ _ _ _ _ _ = pointValue _ _ _ _ _ _ * _
    unfold pointValue
    simp only [ht, hf, ht', hf', Bool.or_self, Bool.false_eq_true, if_false, ite_self]
    exact at_product s d c p q ch corr
  | gaussian c =>
    show gaussianValue _ _ _ _ _ _ = gaussianValue _ _ _ _ _ _ * _
    unfold gaussianValue gaussianSmear
    simp only [ht, hf, ht', hf', Bool.false_eq_true, if_false]
    rw [mk_smul, mk_smul, at_amplitude s d c hc, at_product]
    ring

/-- The baselines of a buffer with model visibilities, as steps get them. -/
noncomputable def rows (s : Cfg) (b : Buffer) (weights : List (List ℝ)) (flags : List (List Bool)) : List Row :=
  s.baselines.mapIdx fun bl pq =>
    { uvw := baselineUvw s pq.1 pq.2
      data := (List.range s.freq.length).map fun ch => (List.range 4).map fun corr => copyToData s b bl ch corr
      weights := weights
      flags := flags }

private theorem at_predict (s : Cfg) (ht : s.correctTimeSmearing = false) (hf : s.correctFreqSmearing = false) (d : Direction)
    (ranges : List (List Component)) (hc : ∀ c ∈ ranges.flatten, Fixed c) (bl p q ch corr : Nat) (hb : s.baselines[bl]? = some (p, q)) :
    predict (atCenter s d) ranges bl ch corr = predict s ranges bl ch corr * fringe (s.freq.getD ch 0)
        (dot (inSpace s.reference (baselineUvw s p q)) (toward s.reference) - dot (inSpace s.reference (baselineUvw s p q)) (toward d)) := by
  rw [predict_eq_total, predict_eq_total]
  unfold total
  have hb' : (atCenter s d).baselines[bl]? = some (p, q) := hb
  rw [hb, hb']
  simp only
  split
  · simp
  · show (if ch < s.freq.length ∧ corr < nCorr s then _ else _) = _
    split
    · rw [← List.sum_map_mul_right]
      congr 1
      apply List.map_congr_left
      intro c hc'
      exact at_value s ht hf d c (hc c hc') p q ch corr
    · simp

/-- **C115.** Predicting a sky and shifting the phase centre is the same as shifting the phase centre and predicting the sky, for point
sources and for Gaussians with an absolute orientation, when the prediction does not correct for smearing. -/
theorem predict_shift (s : Cfg) (ht : s.correctTimeSmearing = false) (hf : s.correctFreqSmearing = false) (d : Direction)
    (ranges : List (List Component)) (hc : ∀ c ∈ ranges.flatten, Fixed c) (info : Info) (hi : info.phaseCenter = s.reference)
    (hfr : info.chanFreqs = s.freq) (weights : List (List ℝ)) (flags : List (List Bool)) :
    process (updateInfo (some d) info).1 (rows s (predict s ranges) weights flags) =
      rows (atCenter s d) (predict (atCenter s d) ranges) weights flags := by
  unfold process rows
  show _ = s.baselines.mapIdx _
  apply List.ext_getElem
  · simp
  intro bl h1 h2
  simp only [List.getElem_map, List.getElem_mapIdx]
  have hb : bl < s.baselines.length := by simpa using h1
  obtain ⟨p, q, hpq⟩ : ∃ p q, s.baselines[bl] = (p, q) := ⟨_, _, rfl⟩
  rw [hpq]
  have hb' : s.baselines[bl]? = some (p, q) := by rw [List.getElem?_eq_getElem hb, hpq]
  simp only
  have huvw : times (updateInfo (some d) info).1.eulerMatrix (baselineUvw s p q) = baselineUvw (atCenter s d) p q := by
    show times ((fillEulerMatrix d).transpose * fillEulerMatrix info.phaseCenter) _ = _
    rw [hi, times_coords, ← at_baseline s d p q, coords_inSpace]
  have hdata := shift_data (some d) info
    { uvw := baselineUvw s p q
      data := (List.range s.freq.length).map fun ch => (List.range 4).map fun corr => copyToData s (predict s ranges) bl ch corr
      weights := weights
      flags := flags }
  have hcopy : ∀ ch corr, copyToData (atCenter s d) (predict (atCenter s d) ranges) bl ch corr =
      copyToData s (predict s ranges) bl ch corr * fringe (s.freq.getD ch 0)
        (dot (inSpace s.reference (baselineUvw s p q)) (toward s.reference) - dot (inSpace s.reference (baselineUvw s p q)) (toward d)) := by
    intro ch corr
    unfold copyToData
    show (if s.stokesIOnly then _ else _) = _
    split
    · match corr with
      | 0 => exact at_predict s ht hf d ranges hc bl p q ch 0 hb'
      | 1 => simp
      | 2 => simp
      | n + 3 => exact at_predict s ht hf d ranges hc bl p q ch 0 hb'
    · exact at_predict s ht hf d ranges hc bl p q ch corr hb'
  show ({ uvw := _, data := _, weights := weights, flags := flags } : Row) = _
  congr 1
  refine Eq.trans hdata ?_
  apply List.ext_getElem
  · show _ = (List.map _ (List.range s.freq.length)).length
    simp
  intro ch h3 h4
  simp only [List.getElem_mapIdx, List.getElem_map, List.getElem_range, List.map_map]
  apply List.map_congr_left
  intro corr _
  simp only [Function.comp]
  rw [hcopy]
  unfold shifted fringe
  simp only [hi, hfr]
  rfl


/-! ## The other way around -/

private theorem fringe_swap (s : Cfg) (d : Direction) (p q : Nat) (f : ℝ) :
    fringe f (delay s.reference d (baselineUvw s q p)) = (starRingEnd ℂ) (fringe f (delay s.reference d (baselineUvw s p q))) := by
  have : delay s.reference d (baselineUvw s q p) = -delay s.reference d (baselineUvw s p q) := by
    rw [← delay_sub, ← delay_sub]
    ring
  unfold fringe
  rw [this, ← Complex.exp_conj]
  congr 1
  rw [map_mul, Complex.conj_ofReal, Complex.conj_I]
  unfold turns
  push_cast
  ring

private theorem sinc_neg (x : ℝ) : sinc (-x) = sinc x := by
  unfold sinc
  rw [abs_neg, Real.sin_neg, neg_div_neg_eq]

private theorem timeSmear_swap (s : Cfg) (c : Point) (p q ch : Nat) : timeSmear s c q p ch = timeSmear s c p q ch := by
  unfold timeSmear
  rw [← sinc_neg]
  congr 1
  ring

private theorem freqSmear_swap (s : Cfg) (c : Point) (p q ch : Nat) : freqSmear s c q p ch = freqSmear s c p q ch := by
  unfold freqSmear
  rw [← sinc_neg]
  congr 1
  ring

private theorem amplitude_swap (s : Cfg) (c : Gaussian) (p q ch : Nat) : amplitude s c q p ch = amplitude s c p q ch := by
  unfold amplitude
  simp only
  congr 2
  ring

/-- The correlation with the feeds of the stations exchanged: XX, YX, XY, YY. -/
def flipCorr : Nat → Nat
  | 1 => 2
  | 2 => 1
  | n => n

private theorem product_swap (s : Cfg) (hi : s.stokesIOnly = false) (c : Point) (p q ch corr : Nat) :
    (⟨(product s c q p ch (flipCorr corr)).1, (product s c q p ch (flipCorr corr)).2⟩ : ℂ) =
      (starRingEnd ℂ) ⟨(product s c p q ch corr).1, (product s c p q ch corr).2⟩ := by
  rw [product_eq, product_eq, fringe_swap, map_mul, hi]
  simp only [Bool.false_eq_true, if_false]
  congr 1
  match corr with
  | 0 => simp [flipCorr, coherency]
  | 1 => simp [flipCorr, coherency, sub_eq_add_neg]
  | 2 => simp [flipCorr, coherency, sub_eq_add_neg]
  | n + 3 => simp [flipCorr, coherency]

theorem value_swap (s : Cfg) (hi : s.stokesIOnly = false) (c : Component) (p q ch corr : Nat) :
    value s c q p ch (flipCorr corr) = (starRingEnd ℂ) (value s c p q ch corr) := by
  cases c with
  | point c =>
    show pointValue _ _ _ _ _ _ = (starRingEnd ℂ) (pointValue _ _ _ _ _ _)
    unfold pointValue smearTerm
    simp only [hi, Bool.false_eq_true, if_false]
    rw [timeSmear_swap, freqSmear_swap]
    split
    · rw [mk_smul, mk_smul, product_swap s hi, map_mul, Complex.conj_ofReal]
    · exact product_swap s hi c p q ch corr
  | gaussian c =>
    show gaussianValue _ _ _ _ _ _ = (starRingEnd ℂ) (gaussianValue _ _ _ _ _ _)
    unfold gaussianValue gaussianSmear
    simp only
    rw [timeSmear_swap, freqSmear_swap, amplitude_swap, mk_smul, mk_smul, product_swap s hi, map_mul, Complex.conj_ofReal]

/-- **C115.** A baseline the other way around has the conjugate transpose of the visibilities. -/
theorem predict_hermitian (s : Cfg) (hi : s.stokesIOnly = false) (ranges : List (List Component)) (bl bl' p q ch corr : Nat)
    (hcorr : corr < 4) (hb : s.baselines[bl]? = some (p, q)) (hb' : s.baselines[bl']? = some (q, p)) :
    copyToData s (predict s ranges) bl' ch (flipCorr corr) = (starRingEnd ℂ) (copyToData s (predict s ranges) bl ch corr) := by
  have hn : flipCorr corr < nCorr s ∧ corr < nCorr s := by
    have : nCorr s = 4 := by simp [nCorr, hi]
    rw [this]
    match corr, hcorr with
    | 0, _ => decide
    | 1, _ => decide
    | 2, _ => decide
    | 3, _ => decide
  unfold copyToData
  rw [if_neg (by simp [hi]), if_neg (by simp [hi]), predict_eq_total, predict_eq_total]
  unfold total
  rw [hb, hb']
  simp only
  by_cases hpq : p = q
  · rw [if_pos hpq.symm, if_pos hpq, map_zero]
  · rw [if_neg (fun h => hpq h.symm), if_neg hpq]
    by_cases hch : ch < s.freq.length
    · rw [if_pos ⟨hch, hn.1⟩, if_pos ⟨hch, hn.2⟩, map_list_sum, List.map_map]
      congr 1
      apply List.map_congr_left
      intro c _
      exact value_swap s hi c p q ch corr
    · rw [if_neg (fun h => hch h.1), if_neg (fun h => hch h.1), map_zero]

/-! ## Examples -/

/-- Two stations, one metre apart towards the phase centre, and a frequency with a wavelength of one metre. -/
noncomputable def exCfg : Cfg :=
  { reference := ⟨0, 0⟩, baselines := [(0, 1), (1, 1), (1, 0)], freq := [lightSpeed], chanWidths := [1], ncp1 := 0, ncp2 := 0
    stationUVW := fun st => if st = 1 then ![0, 0, 1] else ![0, 0, 0]
    correctTimeSmearing := false, correctFreqSmearing := false, stokesIOnly := false }

noncomputable def exPoint : Point :=
  { direction := ⟨0, 0⟩, stokes := ⟨1, 0, 0, 0⟩, refFreq := 1, terms := [], polarizedFraction := 0, polarizationAngle := 0
    rotationMeasure := 0, hasRotationMeasure := false, hasLogarithmicSI := true }

/-- A round source of one radian, in the phase centre, with an orientation that goes with the axes of the coordinates. -/
noncomputable def exGaussian : Gaussian :=
  { point := exPoint, positionAngle := 0, isAbsolute := false, majorAxis := 1, minorAxis := 1 }

private theorem gaussian_norm (s : Cfg) (ht : s.correctTimeSmearing = false) (hf : s.correctFreqSmearing = false) (hi : s.stokesIOnly = false)
    (p q : Nat) : ‖gaussianValue s exGaussian p q 0 0‖ = amplitude s exGaussian p q 0 := by
  unfold gaussianValue gaussianSmear
  simp only [ht, hf, Bool.false_eq_true, if_false]
  rw [mk_smul, product_eq, hi]
  simp only [Bool.false_eq_true, if_false]
  unfold fringe
  rw [norm_mul, norm_mul, norm_exp_ofReal_mul_I]
  have : coherency (stokesAt exGaussian.point (s.freq.getD 0 0)) 0 = 1 := by
    simp [coherency, stokesAt, stokesI, exGaussian, exPoint]
  rw [this, norm_one, mul_one, mul_one, Complex.norm_real, Real.norm_of_nonneg]
  unfold amplitude
  exact (Real.exp_pos _).le

private theorem gaussian_predict (s : Cfg) (ht : s.correctTimeSmearing = false) (hf : s.correctFreqSmearing = false)
    (hi : s.stokesIOnly = false) (hb : s.baselines[0]? = some (0, 1)) (hl : 0 < s.freq.length) :
    ‖predict s [[.gaussian exGaussian]] 0 0 0‖ = amplitude s exGaussian 0 1 0 := by
  rw [predict_eq_total]
  unfold total
  rw [hb]
  simp only [zero_ne_one, if_false]
  rw [if_pos ⟨hl, by simp [nCorr, hi]⟩]
  simp only [List.flatten_cons, List.flatten_nil, List.append_nil, List.map_cons, List.map_nil, List.sum_cons, List.sum_nil, add_zero]
  exact gaussian_norm s ht hf hi 0 1

/-- **C115 is violated** for a Gaussian with a relative orientation: its amplitude depends on the phase centre. Shifting only changes
phases, so that the model of the shifted data is not the shifted model. -/
theorem relative_violated :
    ‖predict (atCenter exCfg ⟨Real.pi / 2, 0⟩) [[.gaussian exGaussian]] 0 0 0‖ < ‖predict exCfg [[.gaussian exGaussian]] 0 0 0‖ := by
  rw [gaussian_predict _ rfl rfl rfl rfl (by simp [atCenter, exCfg]), gaussian_predict _ rfl rfl rfl rfl (by simp [exCfg])]
  have h1 : ∀ st, uvwShifted exCfg exGaussian st = exCfg.stationUVW st := fun st => by
    unfold uvwShifted
    rw [if_neg (by simp [exGaussian])]
  have h2 : ∀ st, uvwShifted (atCenter exCfg ⟨Real.pi / 2, 0⟩) exGaussian st =
      (atCenter exCfg ⟨Real.pi / 2, 0⟩).stationUVW st := fun st => by
    unfold uvwShifted
    rw [if_neg (by simp [exGaussian])]
  have hc : lightSpeed ≠ 0 := by norm_num [lightSpeed]
  unfold amplitude
  simp only [h1, h2]
  rw [Real.exp_lt_exp]
  have hs : 0 < Real.sqrt (2 * Real.log 2) := Real.sqrt_pos.mpr (by positivity)
  have hpi := Real.pi_pos
  have e : Real.cos (Real.pi / 2 + Real.pi) = 0 := by simp [Real.cos_add]
  have e' : Real.sin (Real.pi / 2 + Real.pi) = -1 := by simp [Real.sin_add]
  simp [exCfg, atCenter, exGaussian, times, fillEulerMatrix, Matrix.mul_apply, Matrix.transpose_apply, Fin.sum_univ_three, e, e', hc]
  positivity

example : copyToData exCfg (predict exCfg [[.point exPoint]]) 0 0 0 = 1 := by
  refine Eq.trans (predict_points exCfg rfl rfl [exPoint] 0 0 1 0 0 rfl (by decide) (by simp [exCfg]) (by decide)) ?_
  simp [exCfg, exPoint, coherency, stokesAt, stokesI, fringe, delay, turns]

/-- A polarized source at the other side of the sky: two wavelengths of delay. -/
noncomputable def exPoint2 : Point := { exPoint with direction := ⟨Real.pi, 0⟩, stokes := ⟨2, 1, 0, 0⟩ }

example : copyToData exCfg (predict exCfg [[.point exPoint2]]) 0 0 0 = 3 := by
  refine Eq.trans (predict_points exCfg rfl rfl [exPoint2] 0 0 1 0 0 rfl (by decide) (by simp [exCfg]) (by decide)) ?_
  have hc : lightSpeed ≠ 0 := by norm_num [lightSpeed]
  have hd : delay exCfg.reference exPoint2.direction (baselineUvw exCfg 0 1) = -2 := by
    simp [delay, dot, inSpace, baselineUvw, exCfg, east, north, toward, exPoint2]
    norm_num
  simp only [List.map_cons, List.map_nil, List.sum_cons, List.sum_nil, add_zero]
  rw [hd]
  have ht : turns (exCfg.freq.getD 0 0) (-2) = -((2 : ℕ) * (2 * Real.pi)) := by
    simp [exCfg, turns, hc]
    ring
  unfold fringe
  rw [ht, ← mk_cos_sin, Real.cos_neg, Real.sin_neg, Real.cos_nat_mul_two_pi]
  have e2 : Real.sin ((2 : ℕ) * (2 * Real.pi)) = 0 := by
    rw [show ((2 : ℕ) : ℝ) * (2 * Real.pi) = (4 : ℕ) * Real.pi by push_cast; ring]
    exact Real.sin_nat_mul_pi 4
  rw [e2]
  apply Complex.ext <;> simp [coherency, stokesAt, stokesI, exPoint2, exPoint]
  norm_num

example : copyToData exCfg (predict exCfg [[.point exPoint], [.gaussian exGaussian]]) 1 0 0 = 0 :=
  predict_auto exCfg _ 1 1 0 0 rfl

example : copyToData exCfg (predict exCfg [[.point { exPoint with stokes := ⟨1, 0, 2, 3⟩ }]]) 2 0 1 =
    (starRingEnd ℂ) (copyToData exCfg (predict exCfg [[.point { exPoint with stokes := ⟨1, 0, 2, 3⟩ }]]) 0 0 2) :=
  predict_hermitian exCfg rfl _ 0 2 0 1 0 2 (by decide) rfl rfl

example : predict exCfg [[.point exPoint], [.gaussian exGaussian]] = predict exCfg [[.gaussian exGaussian, .point exPoint], []] :=
  predict_perm _ _ _ (by simpa using List.Perm.swap _ _ _)

example : process (updateInfo (some ⟨1, 1⟩) ⟨⟨0, 0⟩, ⟨0, 0⟩, [lightSpeed]⟩).1
      (rows exCfg (predict exCfg [[.point exPoint, .gaussian { exGaussian with isAbsolute := true }]]) [] []) =
    rows (atCenter exCfg ⟨1, 1⟩) (predict (atCenter exCfg ⟨1, 1⟩) [[.point exPoint, .gaussian { exGaussian with isAbsolute := true }]]) [] [] :=
  predict_shift exCfg rfl rfl _ _ (by simp [Fixed]) _ rfl rfl _ _

end DP3.Simulator
