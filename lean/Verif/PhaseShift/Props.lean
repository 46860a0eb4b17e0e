import Verif.PhaseShift.Spec

/-!
# C114: shifting the phase centre
-/

namespace DP3.PhaseShift

open Complex

set_option linter.unusedSimpArgs false

/-! ## The coordinates -/

/-- The coordinates of a vector for a phase centre. -/
noncomputable def coords (d : Direction) (b : Fin 3 → ℝ) : Uvw := ![dot b (east d), dot b (north d), dot b (toward d)]

theorem inSpace_coords (d : Direction) (b : Fin 3 → ℝ) : inSpace d (coords d b) = b := by
  have h1 := Real.sin_sq_add_cos_sq d.ra
  have h2 := Real.sin_sq_add_cos_sq d.dec
  funext i
  fin_cases i <;> simp [inSpace, coords, dot, east, north, toward]
  · linear_combination b 0 * h1 + (Real.cos d.ra ^ 2 * b 0 + Real.sin d.ra * Real.cos d.ra * b 1) * h2
  · linear_combination b 1 * h1 + (Real.sin d.ra ^ 2 * b 1 + Real.sin d.ra * Real.cos d.ra * b 0) * h2
  · linear_combination b 2 * h2

theorem coords_inSpace (d : Direction) (uvw : Uvw) : coords d (inSpace d uvw) = uvw := by
  have h1 := Real.sin_sq_add_cos_sq d.ra
  have h2 := Real.sin_sq_add_cos_sq d.dec
  funext i
  fin_cases i <;> simp [inSpace, coords, dot, east, north, toward]
  · linear_combination uvw 0 * h1
  · linear_combination (Real.sin d.dec ^ 2 * uvw 1 - Real.sin d.dec * Real.cos d.dec * uvw 2) * h1 + uvw 1 * h2
  · linear_combination (Real.cos d.dec ^ 2 * uvw 2 - Real.sin d.dec * Real.cos d.dec * uvw 1) * h1 + uvw 2 * h2

theorem times_coords (old new : Direction) (uvw : Uvw) :
    times ((fillEulerMatrix new).transpose * fillEulerMatrix old) uvw = coords new (inSpace old uvw) := by
  funext i
  fin_cases i <;>
  simp [times, coords, inSpace, dot, east, north, toward, fillEulerMatrix, Matrix.mul_apply, Fin.sum_univ_three] <;> ring

/-- **C114.** The shift keeps the vector in space of every baseline. -/
theorem shift_inSpace (center : Option Direction) (info : Info) (r : Row) :
    inSpace (updateInfo center info).2.phaseCenter (shiftRow (updateInfo center info).1 r).uvw = inSpace info.phaseCenter r.uvw := by
  show inSpace (newDir center info) (times ((fillEulerMatrix (newDir center info)).transpose * fillEulerMatrix info.phaseCenter) r.uvw) = _
  rw [times_coords, inSpace_coords]

/-- **C114.** The length of a baseline stays as it is. -/
theorem shift_length (center : Option Direction) (info : Info) (r : Row) :
    dot (shiftRow (updateInfo center info).1 r).uvw (shiftRow (updateInfo center info).1 r).uvw = dot r.uvw r.uvw := by
  have key : ∀ (d : Direction) (u : Uvw), dot u u = dot (inSpace d u) (inSpace d u) := by
    intro d u
    have h1 := Real.sin_sq_add_cos_sq d.ra
    have h2 := Real.sin_sq_add_cos_sq d.dec
    simp [inSpace, dot, east, north, toward]
    linear_combination (-(u 0 ^ 2) - (u 1 * Real.sin d.dec - u 2 * Real.cos d.dec) ^ 2) * h1 - (u 1 ^ 2 + u 2 ^ 2) * h2
  rw [key (updateInfo center info).2.phaseCenter, shift_inSpace, ← key]

/-- `rotateUVW` keeps the vectors in space. -/
theorem rotate_inSpace (from_ to_ : Direction) (uvw : List Uvw) :
    (rotateUVW from_ to_ uvw).map (inSpace to_) = uvw.map (inSpace from_) := by
  simp only [rotateUVW, List.map_map]
  apply List.map_congr_left
  intro u _
  simp only [Function.comp]
  rw [times_coords, inSpace_coords]

/-- `rotateUVW` and the phase shift give the same coordinates. -/
theorem rotate_shift (center : Option Direction) (info : Info) (rows : List Row) :
    (process (updateInfo center info).1 rows).map Row.uvw =
      rotateUVW info.phaseCenter (updateInfo center info).2.phaseCenter (rows.map Row.uvw) := by
  simp only [process, rotateUVW, List.map_map]
  rfl

/-! ## The visibilities -/

theorem phase_eq (center : Option Direction) (info : Info) (uvw : Uvw) :
    phase (updateInfo center info).1 uvw =
      dot (inSpace info.phaseCenter uvw) (toward info.phaseCenter) - dot (inSpace info.phaseCenter uvw) (toward (newDir center info)) := by
  simp [phase, updateInfo, inSpace, dot, east, north, toward, fillEulerMatrix, Matrix.mul_apply, Fin.sum_univ_three]
  ring

/-- A phasor. -/
theorem mk_cos_sin (x : ℝ) : (⟨Real.cos x, Real.sin x⟩ : ℂ) = exp (x * I) := by
  apply Complex.ext
  · rw [exp_ofReal_mul_I_re]
  · rw [exp_ofReal_mul_I_im]

theorem phasor_eq (center : Option Direction) (info : Info) (uvw : Uvw) (j : Nat) :
    phasor (updateInfo center info).1 uvw j =
      exp (turns (info.chanFreqs.getD j 0) (dot (inSpace info.phaseCenter uvw) (toward info.phaseCenter) -
        dot (inSpace info.phaseCenter uvw) (toward (newDir center info))) * I) := by
  have hf : (updateInfo center info).1.freqC.getD j 0 = 2 * Real.pi * info.chanFreqs.getD j 0 / lightSpeed := by
    simp only [updateInfo, List.getD_eq_getElem?_getD, List.getElem?_map]
    cases info.chanFreqs[j]? <;> simp
  unfold phasor
  simp only
  rw [mk_cos_sin, phase_eq, hf]
  congr 3
  unfold turns
  ring

/-- **C114.** Every visibility turns over the angle that follows from the vector of its baseline in space, the old and the new
phase centre and the frequency of its channel. -/
theorem shift_data (center : Option Direction) (info : Info) (r : Row) :
    (shiftRow (updateInfo center info).1 r).data =
      r.data.mapIdx fun ch d => d.map (shifted info.phaseCenter (updateInfo center info).2.phaseCenter info.chanFreqs r ch) := by
  show (r.data.mapIdx fun j d => d.map fun x => x * phasor (updateInfo center info).1 r.uvw j) = _
  congr 1
  funext j d
  congr 1
  funext x
  rw [phasor_eq]
  rfl

/-- **C114.** The amplitude of a visibility stays as it is. -/
theorem shift_norm (center : Option Direction) (info : Info) (r : Row) :
    (shiftRow (updateInfo center info).1 r).data.map (fun d => d.map fun x => ‖x‖) = r.data.map (fun d => d.map fun x => ‖x‖) := by
  rw [shift_data]
  apply List.ext_getElem
  · simp
  · intro i h1 h2
    simp only [List.getElem_map, List.getElem_mapIdx, List.map_map]
    apply List.map_congr_left
    intro x _
    simp only [Function.comp, shifted]
    rw [norm_mul, norm_exp_ofReal_mul_I, mul_one]

/-- **C114.** The weights, the flags and the number of baselines, channels and correlations stay as they are. -/
theorem shift_rest (center : Option Direction) (info : Info) (rows : List Row) :
    (process (updateInfo center info).1 rows).map Row.weights = rows.map Row.weights ∧
    (process (updateInfo center info).1 rows).map Row.flags = rows.map Row.flags ∧
    (process (updateInfo center info).1 rows).map (fun r => r.data.map List.length) = rows.map (fun r => r.data.map List.length) := by
  refine ⟨?_, ?_, ?_⟩ <;> simp only [process, List.map_map] <;> apply List.map_congr_left <;> intro r _
  · rfl
  · rfl
  · simp only [Function.comp, shiftRow]
    apply List.ext_getElem <;> simp

/-- **C114.** The step tells the steps after it the new phase centre, and keeps the original one. -/
theorem shift_info (center : Option Direction) (info : Info) :
    (updateInfo center info).2.phaseCenter = center.getD info.originalPhaseCenter ∧
    (updateInfo center info).2.originalPhaseCenter = info.originalPhaseCenter ∧
    (updateInfo center info).2.chanFreqs = info.chanFreqs := by
  refine ⟨?_, rfl, rfl⟩
  cases center <;> rfl

/-- **C114.** The phasors that the step gives out turn the visibilities of the step back. -/
theorem phasors_back (center : Option Direction) (info : Info) (r : Row) (ch : Nat) (d : List ℂ) (h : r.data[ch]? = some d) :
    ∃ p, (phasors (updateInfo center info).1 r)[ch]? = some p ∧
      ((shiftRow (updateInfo center info).1 r).data[ch]?).map (List.map fun x => x * (starRingEnd ℂ) p) = some d := by
  refine ⟨phasor (updateInfo center info).1 r.uvw ch, ?_, ?_⟩
  · simp [phasors, List.getElem?_mapIdx, h]
  · simp only [shiftRow, List.getElem?_mapIdx, h, Option.map_some, List.map_map, Option.some.injEq]
    conv_rhs => rw [← List.map_id d]
    apply List.map_congr_left
    intro x _
    simp only [Function.comp, id, mul_assoc]
    rw [phasor_eq, ← exp_conj, ← exp_add]
    simp

/-! ## Chains of shifts -/

private theorem row_ext (a b : Row) (h1 : a.uvw = b.uvw) (h2 : a.data = b.data) (h3 : a.weights = b.weights) (h4 : a.flags = b.flags) :
    a = b := by
  cases a; cases b; simp_all

private theorem shiftRow_same (info : Info) (r : Row) : shiftRow (updateInfo (some info.phaseCenter) info).1 r = r := by
  apply row_ext
  · show times ((fillEulerMatrix info.phaseCenter).transpose * fillEulerMatrix info.phaseCenter) r.uvw = r.uvw
    rw [times_coords, coords_inSpace]
  · rw [shift_data]
    apply List.ext_getElem
    · simp
    · intro i h1 h2
      simp only [List.getElem_mapIdx]
      conv_rhs => rw [← List.map_id r.data[i]]
      apply List.map_congr_left
      intro x _
      simp [shifted, updateInfo, newDir, turns]
  · rfl
  · rfl

private theorem shiftRow_twice (c : Option Direction) (d : Direction) (info : Info) (r : Row) :
    shiftRow (updateInfo (some d) (updateInfo c info).2).1 (shiftRow (updateInfo c info).1 r) = shiftRow (updateInfo (some d) info).1 r := by
  have hs := shift_inSpace c info r
  apply row_ext
  · show times ((fillEulerMatrix d).transpose * fillEulerMatrix (updateInfo c info).2.phaseCenter) (shiftRow (updateInfo c info).1 r).uvw =
      times ((fillEulerMatrix d).transpose * fillEulerMatrix info.phaseCenter) r.uvw
    rw [times_coords, times_coords, hs]
  · rw [shift_data, shift_data, shift_data]
    apply List.ext_getElem
    · simp
    · intro i h1 h2
      simp only [List.getElem_mapIdx, List.map_map]
      apply List.map_congr_left
      intro x _
      simp only [Function.comp, shifted]
      rw [hs, mul_assoc, ← exp_add, ← add_mul, ← ofReal_add]
      have : (updateInfo (some d) (updateInfo c info).2).2.phaseCenter = d := rfl
      have h2 : (updateInfo (some d) info).2.phaseCenter = d := rfl
      have h3 : (updateInfo c info).2.chanFreqs = info.chanFreqs := rfl
      rw [this, h2, h3]
      congr 4
      unfold turns
      ring
  · rfl
  · rfl

/-- **C114.** However many phase shifts are done, the buffers are as after one shift, from the first phase centre to the last. -/
theorem chain_single (cs : List (Option Direction)) (info : Info) (buffers : List (List Row)) :
    (chain cs info buffers).2 = (chain [some (chain cs info buffers).1.phaseCenter] info buffers).2 := by
  induction cs generalizing info buffers with
  | nil =>
    simp only [chain]
    conv_lhs => rw [← List.map_id buffers]
    apply List.map_congr_left
    intro b _
    simp only [id, process]
    conv_lhs => rw [← List.map_id b]
    apply List.map_congr_left
    intro r _
    exact (shiftRow_same info r).symm
  | cons c cs ih =>
    have := ih (updateInfo c info).2 (buffers.map (process (updateInfo c info).1))
    simp only [chain] at this ⊢
    rw [this, List.map_map]
    apply List.map_congr_left
    intro b _
    simp only [Function.comp, process, List.map_map]
    apply List.map_congr_left
    intro r _
    simp only [Function.comp]
    exact shiftRow_twice c _ info r

private theorem chain_append (as bs : List (Option Direction)) (info : Info) (buffers : List (List Row)) :
    chain (as ++ bs) info buffers = chain bs (chain as info buffers).1 (chain as info buffers).2 := by
  induction as generalizing info buffers with
  | nil => rfl
  | cons a as ih => simp only [List.cons_append, chain]; exact ih _ _

private theorem chain_original (cs : List (Option Direction)) (info : Info) (buffers : List (List Row)) :
    (chain cs info buffers).1.originalPhaseCenter = info.originalPhaseCenter := by
  induction cs generalizing info buffers with
  | nil => rfl
  | cons c cs ih => simp only [chain]; rw [ih]; rfl

/-- **C114.** A shift without a phase centre at the end gives the data of a measurement set back, whatever the shifts before it
were. -/
theorem chain_back (cs : List (Option Direction)) (info : Info) (buffers : List (List Row))
    (h : info.phaseCenter = info.originalPhaseCenter) :
    (chain (cs ++ [none]) info buffers).2 = buffers ∧
      (chain (cs ++ [none]) info buffers).1.phaseCenter = info.originalPhaseCenter := by
  have hc : (chain (cs ++ [none]) info buffers).1.phaseCenter = info.originalPhaseCenter := by
    rw [chain_append]
    show (chain cs info buffers).1.originalPhaseCenter = _
    exact chain_original cs info buffers
  refine ⟨?_, hc⟩
  rw [chain_single, hc, ← h]
  have := chain_single [] info buffers
  simp only [chain] at this ⊢
  exact this.symm

/-! ## Examples -/

/-- Half a wavelength at this frequency is one metre. -/
private noncomputable def exInfo : Info := ⟨⟨0, 0⟩, ⟨0, 0⟩, [lightSpeed / 2]⟩

/-- A baseline of one metre towards the phase centre. -/
private noncomputable def exRow : Row := ⟨![0, 0, 1], [[1, I]], [[1, 1]], [[false, true]]⟩

/-- Example for `shift_data`: a shift over a quarter turn makes the coordinate along the line of sight zero, and the
visibilities change sign. -/
example : (shiftRow (updateInfo (some ⟨Real.pi / 2, 0⟩) exInfo).1 exRow).data = [[-1, -I]] := by
  have h1 : turns (lightSpeed / 2) 1 = Real.pi := by unfold turns lightSpeed; ring
  rw [shift_data]
  simp [exRow, exInfo, shifted, updateInfo, newDir, inSpace, dot, east, north, toward]
  rw [h1, exp_pi_mul_I]
  simp

/-- Example for `shift_inSpace`: the new coordinates of that baseline. -/
example : (shiftRow (updateInfo (some ⟨Real.pi / 2, 0⟩) exInfo).1 exRow).uvw = ![-1, 0, 0] := by
  show times ((fillEulerMatrix _).transpose * fillEulerMatrix _) _ = _
  rw [times_coords]
  funext i
  fin_cases i <;> simp [exRow, exInfo, newDir, inSpace, coords, dot, east, north, toward]

/-- Example for `chain_single` and `chain_back`: by way of the pole. -/
example : (chain [some ⟨0, Real.pi / 2⟩, some ⟨1, 1⟩, none] exInfo [[exRow]]).2 = [[exRow]] :=
  (chain_back [some ⟨0, Real.pi / 2⟩, some ⟨1, 1⟩] exInfo [[exRow]] rfl).1

end DP3.PhaseShift
