import Verif.FastPredict.Model

/-! Properties of the phase reference, the baselines and the correlations of predictions. -/

namespace DP3.FastPredict

variable {D : Type}

/-- The reference of a time slot with a given number. -/
def refAt (uses : State D → D × List (Nat × Nat)) (s : State D) (ts : List Nat) (k : Nat) : Option D := ((run uses s ts)[k]?).map Prod.fst

theorem run_get (uses : State D → D × List (Nat × Nat)) (s : State D) (ts : List Nat) (k : Nat) (t : Nat) (hk : ts[k]? = some t) :
    ∃ s', s'.moving = s.moving ∧ s'.centre = s.centre ∧ s'.baselines = s.baselines ∧ s'.planRef = s.planRef ∧
      s'.planBaselines = s.planBaselines ∧ (s.moving = false → s'.phaseRef = s.phaseRef) ∧
      (run uses s ts)[k]? = some (uses (moveRef s' t)) := by
  induction ts generalizing s k with
  | nil => simp at hk
  | cons a ts ih =>
    cases k with
    | zero =>
      simp only [List.getElem?_cons_zero, Option.some.injEq] at hk
      subst hk
      exact ⟨s, rfl, rfl, rfl, rfl, rfl, fun _ => rfl, by simp [run]⟩
    | succ k =>
      rw [List.getElem?_cons_succ] at hk
      obtain ⟨s', h1, h2, h3, h4, h5, h6, h7⟩ := ih (moveRef s a) k hk
      have e1 : (moveRef s a).moving = s.moving := by unfold moveRef; split <;> rfl
      have e2 : (moveRef s a).centre = s.centre := by unfold moveRef; split <;> rfl
      have e3 : (moveRef s a).baselines = s.baselines := by unfold moveRef; split <;> rfl
      have e4 : (moveRef s a).planRef = s.planRef := by unfold moveRef; split <;> rfl
      have e5 : (moveRef s a).planBaselines = s.planBaselines := by unfold moveRef; split <;> rfl
      refine ⟨s', h1.trans e1, h2.trans e2, h3.trans e3, h4.trans e4, h5.trans e5, ?_, by simp [run, h7]⟩
      intro hm
      rw [h6 (e1.trans hm)]
      simp [moveRef, hm]

/-- C271: `OnePredict` predicts each time slot with the phase centre of its time, also if that moves. -/
theorem one_reference (s : State D) (i : Info D) (hf : i.moving = false → ∀ t, i.centre t = i.centre 0) (ts : List Nat) (k t : Nat)
    (hk : ts[k]? = some t) : refAt oneUses (updateInfo s i) ts k = some (i.centre t) := by
  obtain ⟨s', h1, h2, _, _, _, h6, h7⟩ := run_get oneUses (updateInfo s i) ts k t hk
  rw [refAt, h7]
  by_cases hm : i.moving = true
  · have : s'.moving = true := h1.trans hm
    simp only [Option.map_some, oneUses, moveRef, this, if_true, h2, updateInfo]
  · have hm : i.moving = false := by simpa using hm
    have e : s'.moving = false := h1.trans hm
    have : s'.phaseRef = i.centre 0 := by rw [h6 hm]; simp [updateInfo, hm]
    simp [oneUses, moveRef, e, this, hf hm t]

/-- C271, what is proved of `FastPredict`: so does it if the phase centre is fixed. -/
theorem fast_reference_partial (s : State D) (i : Info D) (hm : i.moving = false) (hf : ∀ t, i.centre t = i.centre 0) (ts : List Nat)
    (k t : Nat) (hk : ts[k]? = some t) : refAt fastUses (updateInfo s i) ts k = some (i.centre t) := by
  obtain ⟨s', _, _, _, h4, _, _, h7⟩ := run_get fastUses (updateInfo s i) ts k t hk
  have : (moveRef s' t).planRef = s'.planRef := by unfold moveRef; split <;> rfl
  rw [refAt, h7]
  simp [fastUses, this, h4, updateInfo, hm, hf t]

/-- C271 is violated: if the phase centre moves, `FastPredict` predicts all time slots with the direction that the step was made with, which
has nothing to do with the phase centre. -/
theorem fast_moving (dflt : D) (i : Info D) (hm : i.moving = true) (ts : List Nat) (k t : Nat) (hk : ts[k]? = some t) :
    refAt fastUses (updateInfo (start dflt) i) ts k = some dflt := by
  obtain ⟨s', _, _, _, h4, _, _, h7⟩ := run_get fastUses (updateInfo (start dflt) i) ts k t hk
  have : (moveRef s' t).planRef = s'.planRef := by unfold moveRef; split <;> rfl
  rw [refAt, h7]
  simp [fastUses, this, h4, updateInfo, hm, start]

/-- A phase centre that moves from 10 to 30. -/
example : let i : Info Nat := ⟨true, fun t => 10 * (t + 1), [(0, 1)]⟩
    run oneUses (updateInfo (start 0) i) [0, 1, 2] = [(10, [(0, 1)]), (20, [(0, 1)]), (30, [(0, 1)])] ∧
    run fastUses (updateInfo (start 0) i) [0, 1, 2] = [(0, [(0, 1)]), (0, [(0, 1)]), (0, [(0, 1)])] := by decide

/-- C272: the baselines of a prediction are those of the information that was given, if that was given once. -/
theorem baselines_once (dflt : D) (i : Info D) (ts : List Nat) (k t : Nat) (hk : ts[k]? = some t) :
    ((run oneUses (updateInfo (start dflt) i) ts)[k]?).map Prod.snd = some i.baselines ∧
    ((run fastUses (updateInfo (start dflt) i) ts)[k]?).map Prod.snd = some i.baselines := by
  constructor
  · obtain ⟨s', _, _, h3, _, _, _, h7⟩ := run_get oneUses (updateInfo (start dflt) i) ts k t hk
    have : (moveRef s' t).baselines = s'.baselines := by unfold moveRef; split <;> rfl
    rw [h7]
    simp [oneUses, this, h3, updateInfo, start]
  · obtain ⟨s', _, _, _, _, h5, _, h7⟩ := run_get fastUses (updateInfo (start dflt) i) ts k t hk
    have : (moveRef s' t).planBaselines = s'.planBaselines := by unfold moveRef; split <;> rfl
    rw [h7]
    simp [fastUses, this, h5, updateInfo, start]

/-- C272 is violated: if information is given again, the new baselines come behind the old ones, so that the first baselines are
predicted for the old pairs of antennas. -/
theorem baselines_again (dflt : D) (i j : Info D) (ts : List Nat) (k t : Nat) (hk : ts[k]? = some t) :
    ((run oneUses (updateInfo (updateInfo (start dflt) i) j) ts)[k]?).map Prod.snd = some (i.baselines ++ j.baselines) := by
  obtain ⟨s', _, _, h3, _, _, _, h7⟩ := run_get oneUses (updateInfo (updateInfo (start dflt) i) j) ts k t hk
  have : (moveRef s' t).baselines = s'.baselines := by unfold moveRef; split <;> rfl
  rw [h7]
  simp [oneUses, this, h3, updateInfo, start]

example : let i : Info Nat := ⟨false, fun _ => 10, [(0, 1), (0, 2)]⟩
    let j : Info Nat := ⟨false, fun _ => 10, [(1, 2)]⟩
    (run oneUses (updateInfo (updateInfo (start 0) i) j) [0]) = [(10, [(0, 1), (0, 2), (1, 2)])] := by decide

/-- C273: unpolarized sources give Stokes I in the first and last correlation and zero in between, for any number of correlations. -/
theorem copy_stokesI {V : Type} (zero i : V) (rest : List V) (nCorr : Nat) (hn : 0 < nCorr) :
    ∃ out, copyPlanes true zero nCorr (i :: rest) = some out ∧ out.length = nCorr ∧
      ∀ c < nCorr, out[c]? = some (if c = 0 ∨ c = nCorr - 1 then i else zero) := by
  refine ⟨((List.replicate nCorr zero).set 0 i).set (nCorr - 1) i, ?_, by simp, ?_⟩
  · simp [copyPlanes, Nat.pos_iff_ne_zero.1 hn]
  · intro c hc
    rw [List.getElem?_set, List.getElem?_set]
    simp only [List.length_set, List.length_replicate]
    by_cases h1 : nCorr - 1 = c
    · rw [if_pos h1, if_pos (by omega), if_pos (by omega)]
    · rw [if_neg h1]
      by_cases h2 : 0 = c
      · rw [if_pos h2, if_pos hn, if_pos (by omega)]
      · rw [if_neg h2, if_neg (by omega)]
        simp [hc]

/-- C273: polarized sources give all planes. -/
theorem copy_all {V : Type} (zero : V) (planes : List V) : copyPlanes false zero planes.length planes = some planes := by
  simp [copyPlanes]

example : copyPlanes true 0 4 [7] = some [7, 0, 0, 7] ∧ copyPlanes true 0 2 [7] = some [7, 7] ∧ copyPlanes true 0 1 [7] = some [7] ∧
    copyPlanes false 0 4 [1, 2, 3, 4] = some [1, 2, 3, 4] := by decide

end DP3.FastPredict
