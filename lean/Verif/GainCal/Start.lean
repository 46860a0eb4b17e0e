import Verif.GainCal.Relax

/-!
# C111 and C112: the loop over the iterations, and the start of a solution interval
-/

namespace DP3.GainCal

open Complex Finset

set_option linter.unusedSimpArgs false

/-! ## Examples for the iterations -/

/-- Example for `doStep_fixed`: a start with the true gains. -/
example (old : State) (sees : Nat → Nat → Bool) :
    ∃ s', doStep (exCfg .phaseOnly) exVis exModel sees 0 (startState (fun u _ => exGain u) old) = some (s', .converged) ∧
      s'.g 1 0 = I := by
  obtain ⟨s', h1, h2, -⟩ := doStep_fixed (exCfg .phaseOnly) (by decide) exVis exModel sees 0 (startState (fun u _ => exGain u) old)
    (by simp only [exCfg]; norm_num) (by simp [startState]) (by simp [startState]) (by
      intro u hu
      have hu' : u < 2 := by simpa [nUn, exCfg] using hu
      refine Or.inr ⟨ex_explains _ u hu', ?_, ?_, ex_model _ u hu'⟩
      · show exGain u ≠ 0
        unfold exGain; split <;> simp
      · show ‖exGain u‖ = 1
        unfold exGain; split
        · exact Complex.norm_I
        · exact norm_one)
  exact ⟨s', h1, by rw [h2]; rfl⟩

/-- Example for `doStep_fixed_full`: a start with the true Jones matrices. -/
example (old : State) (sees : Nat → Nat → Bool) :
    ∃ s', doStep (exCfg .fullJones) exVisFull exModelFull sees 0
      (startState (fun st cr => if cr = 0 then (exGainFull st).a else if cr = 1 then (exGainFull st).b else if cr = 2 then (exGainFull st).c
        else (exGainFull st).d) old) = some (s', .converged) ∧ s'.g 1 1 = 1 := by
  obtain ⟨s', h1, h2, -⟩ := doStep_fixed_full (exCfg .fullJones) rfl exVisFull exModelFull sees 0
    (startState (fun st cr => if cr = 0 then (exGainFull st).a else if cr = 1 then (exGainFull st).b else if cr = 2 then (exGainFull st).c
        else (exGainFull st).d) old)
    (by simp only [exCfg]; norm_num) (by simp [startState]) (by simp [startState])
    ⟨0, by decide, 0, by decide, by simp [startState, exGainFull]⟩ (fun st hst => Or.inr (ex_full st hst))
  exact ⟨s', h1, by rw [h2]; simp [startState, exGainFull]⟩

/-- Example for `stalled_stays`: the third iteration in a row with an equal change is `STALLED`. -/
example (c : Cfg) (hd : c.detectStalling = true) (vis mvis : Nat → ℂ) (sees : Nat → Nat → Bool) (s : State)
    (h1 : s.dg = 1) (h2 : s.dgx = 1) (h3 : s.badIters = 2) (hf : ∃ i, i < c.nSt ∧ s.flagged i = false) :
    ∃ s', doStep c vis mvis sees 2 s = some (s', .stalled) := by
  obtain ⟨i, hi1, hi2⟩ := hf
  unfold doStep
  simp only
  rw [if_neg]
  · unfold relax
    rw [if_neg (by omega), if_pos ⟨hd, by omega⟩, if_pos]
    · exact ⟨_, rfl⟩
    · left
      set a := halfStep c vis mvis (sees 0) { s with gxx := s.gx, gx := s.g } with ha
      obtain ⟨a1, a2, a3, a4, -⟩ := halfStep_rest c vis mvis (sees 0) { s with gxx := s.gx, gx := s.g }
      obtain ⟨b1, b2, b3, b4, -⟩ := halfStep_rest c vis mvis (sees 1) a
      rw [count_bad, b1, b2, b3, ha, a1, a2, a3]
      simp only
      rw [h1, h2, h3, if_pos (by norm_num)]
  · intro hall
    rw [List.all_eq_true] at hall
    have := hall i (List.mem_range.mpr hi1)
    rw [hi2] at this
    exact absurd this (by simp)

/-- C111: the mean and the extrapolation leave gains that are the same in the last steps as they are. -/
theorem extrapolate_fixed (iter : Nat) (d : ℝ) (s : State) (h1 : s.gx = s.g) (h2 : s.gxx = s.g) : (extrapolate iter d s).g = s.g := by
  unfold extrapolate
  split
  · split
    · funext a cr
      simp only [h1]
      rw [← add_mul]
      norm_num
    · split
      · funext a cr
        simp only [h1, h2]
        rw [← add_mul, ← add_mul]
        norm_num
      · split
        · exact h1
        · exact h2
  · rfl

/-- Three stations with scalar gains, and a model and visibilities of one for all crosscorrelations. -/
def moveCfg : Cfg := ⟨3, 1, 1, .default, true, 1.0e-5, true⟩

/-- See `moveCfg`. -/
def moveVis (a : Nat) : ℂ := if a % 3 = a / 12 then 0 else 1

private theorem move_step (s : State) (sees : Nat → Bool) (hf : s.flagged = fun _ => false) (x y z : ℝ) (h0 : s.g 0 0 = x)
    (h1 : s.g 1 0 = y) (h2 : s.g 2 0 = z) (hx : 0 < x) (hy : 0 < y) (hz : 0 < z) :
    (halfStep moveCfg moveVis moveVis sees s).flagged = (fun _ => false) ∧
    (halfStep moveCfg moveVis moveVis sees s).g 0 0 = (((y + z) / (y ^ 2 + z ^ 2) : ℝ) : ℂ) ∧
    (halfStep moveCfg moveVis moveVis sees s).g 1 0 = (((x + z) / (x ^ 2 + z ^ 2) : ℝ) : ℂ) ∧
    (halfStep moveCfg moveVis moveVis sees s).g 2 0 = (((x + y) / (x ^ 2 + y ^ 2) : ℝ) : ℂ) := by
  have hsum : ∀ u, u < 3 → sums moveCfg moveVis moveVis (fun u => (starRingEnd ℂ) (s.g u 0)) u =
      if u = 0 then (4 * (y ^ 2 + z ^ 2), ((4 * (y + z) : ℝ) : ℂ))
      else if u = 1 then (4 * (x ^ 2 + z ^ 2), ((4 * (x + z) : ℝ) : ℂ)) else (4 * (x ^ 2 + y ^ 2), ((4 * (x + y) : ℝ) : ℂ)) := by
    intro u hu
    rw [sums_eq _ (by decide) _ _ _ _ hu]
    have hu' : u = 0 ∨ u = 1 ∨ u = 2 := by omega
    rcases hu' with rfl | rfl | rfl <;>
      simp [entries, addr, other, moveCfg, offset, moveVis, Finset.sum_product, Finset.sum_range_succ, h0, h1, h2] <;>
      constructor <;> ring
  have hd : ∀ u, u < nUn moveCfg → HasData moveCfg moveVis moveVis (fun u => s.g u 0) u := by
    intro u hu
    have hu3 : u < 3 := hu
    rw [hasData_iff _ (by decide) _ _ _ _ hu]
    unfold noData
    rw [hsum u hu3]
    have hu' : u = 0 ∨ u = 1 ∨ u = 2 := by omega
    have n1 : (4 * (y ^ 2 + z ^ 2) : ℝ) ≠ 0 ∧ (4 * (y + z) : ℝ) ≠ 0 := by constructor <;> positivity
    have n2 : (4 * (x ^ 2 + z ^ 2) : ℝ) ≠ 0 ∧ (4 * (x + z) : ℝ) ≠ 0 := by constructor <;> positivity
    have n3 : (4 * (x ^ 2 + y ^ 2) : ℝ) ≠ 0 ∧ (4 * (x + y) : ℝ) ≠ 0 := by constructor <;> positivity
    rcases hu' with rfl | rfl | rfl
    · rintro (h | h)
      · exact n1.1 h
      · exact n1.2 (Complex.ofReal_eq_zero.mp h)
    · rintro (h | h)
      · exact n2.1 h
      · exact n2.2 (Complex.ofReal_eq_zero.mp h)
    · rintro (h | h)
      · exact n3.1 h
      · exact n3.2 (Complex.ofReal_eq_zero.mp h)
  have hflag : (halfStep moveCfg moveVis moveVis sees s).flagged =
      (stepUnpolarized moveCfg moveVis moveVis sees (fun u => s.g u 0) s.flagged).2 := by
    unfold halfStep; rw [if_neg (by decide)]
  have hg : ∀ u, (halfStep moveCfg moveVis moveVis sees s).g u 0 =
      (stepUnpolarized moveCfg moveVis moveVis sees (fun u => s.g u 0) s.flagged).1 u := by
    intro u
    unfold halfStep; rw [if_neg (by decide)]; simp
  have hval : ∀ u, u < 3 → (stepUnpolarized moveCfg moveVis moveVis sees (fun u => s.g u 0) s.flagged).1 u =
      (sums moveCfg moveVis moveVis (fun u => (starRingEnd ℂ) (s.g u 0)) u).2 /
        ((sums moveCfg moveVis moveVis (fun u => (starRingEnd ℂ) (s.g u 0)) u).1 : ℂ) := by
    intro u hu
    rw [step_value moveCfg (by decide) _ _ _ _ _ u hu (by rw [hf]) fun v hv _ => hd v hv, sums_eq _ (by decide) _ _ _ _ hu]
    rfl
  refine ⟨?_, ?_, ?_, ?_⟩
  · rw [hflag]
    funext i
    rw [step_unflagged moveCfg (by decide) _ _ _ _ _ i fun v hv _ => hd v hv, hf]
  · rw [hg, hval 0 (by omega), hsum 0 (by omega), if_pos rfl]
    simp only
    rw [← Complex.ofReal_div]
    congr 1
    field_simp
  · rw [hg, hval 1 (by omega), hsum 1 (by omega), if_neg (by omega), if_pos rfl]
    simp only
    rw [← Complex.ofReal_div]
    congr 1
    field_simp
  · rw [hg, hval 2 (by omega), hsum 2 (by omega), if_neg (by omega), if_neg (by omega)]
    simp only
    rw [← Complex.ofReal_div]
    congr 1
    field_simp

/-- C111 is violated for cells that are `STALLED`: they are still stepped while another cell is `NOTCONVERGED`, without the mean, so
their solution depends on the other cells. The first gain of this stalled cell goes from 1 to 20/17 in an iteration for other cells. -/
theorem stalled_moves (old : State) (sees : Nat → Nat → Nat → Bool) :
    ∃ f', freqStep 2 ⟨moveCfg, moveVis, moveVis, sees, { old with
        g := fun u _ => if u = 2 then 2 else 1
        flagged := fun _ => false
        dg := 1
        dgx := 1
        badIters := 3
        veryBadIters := 0 }, .stalled⟩ = some f' ∧
      f'.status = .stalled ∧ f'.state.g 0 0 = 20 / 17 := by
  set s : State := { old with
        g := fun u _ => if u = 2 then 2 else 1
        flagged := fun _ => false
        dg := 1
        dgx := 1
        badIters := 3
        veryBadIters := 0 } with hs
  set s0 : State := { s with gxx := s.gx, gx := s.g } with hs0
  obtain ⟨f1, a1, b1, c1⟩ := move_step s0 (sees 2 0) rfl 1 1 2 (by simp [hs0, hs]) (by simp [hs0, hs]) (by simp [hs0, hs])
    (by norm_num) (by norm_num) (by norm_num)
  set s1 := halfStep moveCfg moveVis moveVis (sees 2 0) s0 with hs1
  obtain ⟨f2, a2, b2, c2⟩ := move_step s1 (sees 2 1) f1 _ _ _ a1 b1 c1 (by norm_num) (by norm_num) (by norm_num)
  set s2 := halfStep moveCfg moveVis moveVis (sees 2 1) s1 with hs2
  obtain ⟨p1, p2, p3, -⟩ := halfStep_rest moveCfg moveVis moveVis (sees 2 0) s0
  obtain ⟨q1, q2, q3, -⟩ := halfStep_rest moveCfg moveVis moveVis (sees 2 1) s1
  have hbad : (count s2).badIters ≥ 3 := by
    rw [count_bad, hs2, q1, q2, q3, hs1, p1, p2, p3]
    simp only [hs0, hs]
    rw [if_pos (by norm_num)]
    omega
  have hd : doStep moveCfg moveVis moveVis (sees 2) 2 s = some (count s2, .stalled) := by
    unfold doStep
    simp only
    rw [if_neg (by rw [show s.flagged = fun _ => false from rfl]; decide)]
    show relax moveCfg 4 s2 = _
    unfold relax
    rw [if_neg (by decide), if_pos ⟨rfl, by omega⟩, if_pos (Or.inl hbad)]
  refine ⟨⟨moveCfg, moveVis, moveVis, sees, count s2, .stalled⟩, ?_, rfl, ?_⟩
  · unfold freqStep
    rw [if_pos (by simp)]
    simp only
    rw [hd]
    rfl
  · show (count s2).g 0 0 = _
    rw [(count_rest s2).1, a2]
    norm_num

/-! ## The loop -/

/-- A number of iterations of one cell, from a given iteration. -/
noncomputable def steps : Nat → Nat → Freq → Option Freq
  | 0, _, f => some f
  | m + 1, iter, f => (freqStep iter f).bind (steps m (iter + 1))

/-- C111: a cell that is `CONVERGED` does not change in later iterations. -/
theorem steps_converged (m iter : Nat) (f : Freq) (h : f.status = .converged) : steps m iter f = some f := by
  induction m generalizing iter with
  | zero => rfl
  | succ m ih =>
    unfold steps freqStep
    rw [if_neg (by rw [h]; simp)]
    exact ih _

private theorem mapM_forall {α β : Type} (f : α → Option β) (l : List α) (r : List β) (h : l.mapM f = some r) :
    List.Forall₂ (fun x y => f x = some y) l r := by
  induction l generalizing r with
  | nil =>
    simp only [List.mapM_nil] at h
    cases Option.some.inj h
    exact List.Forall₂.nil
  | cons x l ih =>
    rw [List.mapM_cons] at h
    cases hx : f x with
    | none => rw [hx] at h; exact absurd h (by simp)
    | some y =>
      cases hl : l.mapM f with
      | none => rw [hx, hl] at h; exact absurd h (by simp)
      | some ys =>
        rw [hx, hl] at h
        have : y :: ys = r := Option.some.inj h
        subst this
        exact List.Forall₂.cons hx (ih ys hl)

/-- C111: the frequency cells are calibrated independently of each other, apart from the number of iterations, which is the same for all:
the first after which none is `NOTCONVERGED`, or the maximum. -/
theorem calibrate_cells (n iter : Nat) (fs fs' : List Freq) (h : calibrate n iter fs = some fs') :
    ∃ m, m ≤ n ∧ List.Forall₂ (fun f f' => steps m iter f = some f') fs fs' ∧
      (m < n → ∀ f ∈ fs', f.status ≠ .notConverged) ∧
      (∀ k, 0 < k → k < m → ∃ f ∈ fs, ∃ f', steps k iter f = some f' ∧ f'.status = .notConverged) := by
  induction n generalizing iter fs with
  | zero =>
    refine ⟨0, le_refl _, ?_, by omega, by omega⟩
    cases Option.some.inj h
    exact List.forall₂_same.mpr fun _ _ => rfl
  | succ n ih =>
    unfold calibrate at h
    cases hm : fs.mapM (freqStep iter) with
    | none => rw [hm] at h; exact absurd h (by simp)
    | some fs1 =>
      rw [hm] at h
      simp only at h
      have h1 := mapM_forall _ _ _ hm
      split at h
      · next hall =>
        cases Option.some.inj h
        refine ⟨1, by omega, ?_, ?_, by omega⟩
        · refine h1.imp fun f f' hf => ?_
          unfold steps
          rw [hf]
          rfl
        · intro _ f hf hst
          have := List.all_eq_true.mp hall f hf
          rw [hst] at this
          exact absurd this (by simp)
      · next hall =>
        obtain ⟨m, hmn, h2, h3, h4⟩ := ih (iter + 1) fs1 h
        have hlift : ∀ k, ∀ f f1, freqStep iter f = some f1 → steps (k + 1) iter f = steps k (iter + 1) f1 := by
          intro k f f1 hf
          conv_lhs => unfold steps
          rw [hf]
          rfl
        refine ⟨m + 1, by omega, ?_, fun hlt => h3 (by omega), ?_⟩
        · clear ih h hall h3 h4 hm
          induction h1 generalizing fs' with
          | nil => cases h2; exact List.Forall₂.nil
          | cons hx _ ihl =>
            cases h2 with
            | cons hy hys => exact List.Forall₂.cons (by rw [hlift m _ _ hx]; exact hy) (ihl _ hys)
        · intro k hk hkm
          have hback : ∀ f1 ∈ fs1, ∃ f ∈ fs, freqStep iter f = some f1 := by
            clear ih h hall h3 h4 hm h2
            induction h1 with
            | nil => intro f1 hf1; simp at hf1
            | cons hx _ ihl =>
              intro f1 hf1
              rcases List.mem_cons.mp hf1 with rfl | hf1
              · exact ⟨_, List.mem_cons_self, hx⟩
              · obtain ⟨f, hf, e⟩ := ihl f1 hf1
                exact ⟨f, List.mem_cons_of_mem _ hf, e⟩
          obtain ⟨k', rfl⟩ := Nat.exists_eq_succ_of_ne_zero (by omega : k ≠ 0)
          by_cases hk' : k' = 0
          · subst hk'
            have : ∃ f1 ∈ fs1, f1.status = .notConverged := by
              by_contra hc
              apply hall
              rw [List.all_eq_true]
              intro f1 hf1
              by_contra hb
              exact hc ⟨f1, hf1, by simpa using hb⟩
            obtain ⟨f1, hf1, hst⟩ := this
            obtain ⟨f, hf, e⟩ := hback f1 hf1
            exact ⟨f, hf, f1, by rw [hlift 0 _ _ e]; rfl, hst⟩
          · obtain ⟨f1, hf1, f', e1, e2⟩ := h4 k' (by omega) (by omega)
            obtain ⟨f, hf, e⟩ := hback f1 hf1
            exact ⟨f, hf, f', by rw [Nat.succ_eq_add_one, hlift k' _ _ e]; exact e1, e2⟩

/-- Example for `calibrate_cells`: a loop over two cells that end after one iteration. -/
example (old : State) (hf : old.flagged = fun _ => true) :
    calibrate 50 0 [⟨exCfg .default, exVis, exModel, fun _ _ _ => false, { old with gx := old.g, gxx := old.g }, .notConverged⟩,
      ⟨exCfg .phaseOnly, exVis, exModel, fun _ _ _ => false, { old with gx := old.g, gxx := old.g }, .notConverged⟩] =
    some [⟨exCfg .default, exVis, exModel, fun _ _ _ => false, { old with gx := old.g, gxx := old.g }, .converged⟩,
      ⟨exCfg .phaseOnly, exVis, exModel, fun _ _ _ => false, { old with gx := old.g, gxx := old.g }, .converged⟩] := by
  simp [calibrate, freqStep, doStep, hf]

/-! ## The start -/

/-- What an unknown that is finite adds to the mean: the moduli of the gains, or of the two diagonal elements. -/
noncomputable def moduli (c : Cfg) (x : Nat → ℂ) : ℝ := if nCr c = 4 then ‖x 0‖ + ‖x 3‖ else ‖x 0‖

theorem averageSums_eq (c : Cfg) (g : Nat → Option (Nat → ℂ)) :
    averageSums c g = (∑ u ∈ range (nUn c), ((g u).map (moduli c)).getD 0,
      (if nCr c = 4 then 2 else 1) * ((range (nUn c)).filter fun u => (g u).isSome).card) := by
  unfold averageSums
  induction nUn c with
  | zero => simp
  | succ n ih =>
    rw [List.range_succ, List.foldl_append, ih, Finset.sum_range_succ, Finset.range_add_one, Finset.filter_insert]
    simp only [List.foldl_cons, List.foldl_nil]
    cases hg : g n with
    | none => simp [addAverage]
    | some x =>
      simp only [addAverage, moduli, Option.map_some, Option.getD_some, Option.isSome_some, if_true]
      rw [Finset.card_insert_of_notMem (by simp)]
      split <;> simp [add_assoc, mul_add]

/-- The mean of the moduli of the gains that are finite. -/
noncomputable def meanModulus (c : Cfg) (g : Nat → Option (Nat → ℂ)) : ℝ :=
  (∑ u ∈ range (nUn c), ((g u).map (moduli c)).getD 0) /
    (((if nCr c = 4 then 2 else 1) * ((range (nUn c)).filter fun u => (g u).isSome).card : ℕ) : ℝ)

theorem average_eq (c : Cfg) (g : Nat → Option (Nat → ℂ)) : average c g = meanModulus c g := by
  unfold average meanModulus
  rw [averageSums_eq]
  simp only
  by_cases h : (if nCr c = 4 then 2 else 1) * ((range (nUn c)).filter fun u => (g u).isSome).card = 0
  · rw [if_pos h, h]; simp
  · rw [if_neg h]

theorem moduli_nonneg (c : Cfg) (x : Nat → ℂ) : 0 ≤ moduli c x := by
  unfold moduli
  split <;> positivity

theorem average_pos (c : Cfg) (g : Nat → Option (Nat → ℂ)) (u : Nat) (hu : u < nUn c) (x : Nat → ℂ) (hx : g u = some x)
    (h0 : x 0 ≠ 0) : 0 < average c g := by
  rw [average_eq]
  unfold meanModulus
  apply div_pos
  · refine Finset.sum_pos' (fun v _ => ?_) ⟨u, Finset.mem_range.mpr hu, ?_⟩
    · cases g v with
      | none => simp
      | some y => simpa using moduli_nonneg c y
    · rw [hx]
      simp only [Option.map_some, Option.getD_some]
      have : 0 < ‖x 0‖ := norm_pos_iff.mpr h0
      unfold moduli
      split
      · have := norm_nonneg (x 3); linarith
      · exact this
  · have hc : 0 < ((range (nUn c)).filter fun u => (g u).isSome).card :=
      Finset.card_pos.mpr ⟨u, by simp [hu, hx]⟩
    have : 0 < (if nCr c = 4 then 2 else 1) * ((range (nUn c)).filter fun u => (g u).isSome).card := by
      apply Nat.mul_pos
      · split <;> omega
      · exact hc
    exact_mod_cast this

/-- C112: with propagation the gains of the stations that were not flagged are the start of the next interval, and the others start
with the mean modulus of those; the solutions of the flagged stations are not numbers. -/
theorem init_propagates (c : Cfg) (vis mvis : Nat → ℂ) (s : State)
    (hs : ∃ u, u < nUn c ∧ s.flagged (u % c.nSt) = false ∧ s.g u 0 ≠ 0) (u : Nat) :
    (s.flagged (u % c.nSt) = false → init c vis mvis false (getSolution c s) u = s.g u) ∧
    (s.flagged (u % c.nSt) = true → getSolution c s u = none ∧ 0 < meanModulus c (getSolution c s) ∧
      init c vis mvis false (getSolution c s) u = uniform (meanModulus c (getSolution c s))) := by
  obtain ⟨v, hv, hf, hg⟩ := hs
  have hp : 0 < average c (getSolution c s) :=
    average_pos c _ v hv (s.g v) (by unfold getSolution; rw [hf]; rfl) hg
  have hi : init c vis mvis false (getSolution c s) = fun u => (getSolution c s u).getD (uniform (average c (getSolution c s))) := by
    unfold init
    rw [if_neg]
    rintro (h | ⟨-, h⟩)
    · exact absurd h (by simp)
    · exact ne_of_gt hp h
  rw [hi]
  constructor
  · intro h
    simp only [getSolution, h]
    rfl
  · intro h
    have hn : getSolution c s u = none := by unfold getSolution; rw [h]; rfl
    refine ⟨hn, by rw [← average_eq]; exact hp, ?_⟩
    simp only [hn, average_eq, Option.getD_none]

/-- C112: if all stations were flagged, the start is as without propagation. -/
theorem init_all_flagged (c : Cfg) (hn : 0 < c.nSt) (vis mvis : Nat → ℂ) (s : State) (h : ∀ i, s.flagged i = true) :
    init c vis mvis false (getSolution c s) = init c vis mvis true (getSolution c s) := by
  have hnone : ∀ u, getSolution c s u = none := by
    intro u
    unfold getSolution
    rw [h]; rfl
  have ha : average c (getSolution c s) = 0 := by
    rw [average_eq]
    unfold meanModulus
    simp [hnone]
  unfold init
  rw [if_pos (Or.inl rfl), if_pos]
  refine Or.inr ⟨⟨0, ?_, hnone 0⟩, ha⟩
  unfold nUn
  split <;> omega

theorem fronorm_eq (c : Cfg) (mem : Nat → ℂ) : fronorm c mem = ∑ i ∈ range (visSize c), normSq (mem i) := by
  unfold fronorm
  induction visSize c with
  | zero => simp
  | succ n ih => rw [List.range_succ, List.foldl_append, ih, Finset.sum_range_succ]; rfl

/-- C112: if the visibilities are a positive multiple of the model, the start without propagation is the solution: all gains are the root
of the factor, and the first iteration is `CONVERGED` with these. -/
theorem init_equal (c : Cfg) (hm : c.mode = .default ∨ c.mode = .amplitudeOnly) (vis mvis : Nat → ℂ) (r : ℝ) (hr : 0 < r)
    (hvis : ∀ a, vis a = (r : ℂ) * mvis a) (hsize : 1.0e-15 < Real.sqrt (∑ i ∈ range (visSize c), normSq (mvis i)))
    (hmod : ∀ u, u < nUn c → ∃ e ∈ entries c, mvis (addr c u e) ≠ 0) (ht : 0 ≤ c.tolerance) (g : Nat → Option (Nat → ℂ)) (old : State)
    (sees : Nat → Nat → Bool) (iter : Nat) :
    ∃ s', doStep c vis mvis sees iter (startState (init c vis mvis true g) old) = some (s', .converged) ∧
      ∀ u, s'.g u 0 = (Real.sqrt r : ℂ) := by
  have hpos : 0 < Real.sqrt (∑ i ∈ range (visSize c), normSq (mvis i)) := lt_trans (by norm_num) hsize
  have hgi : ginit c vis mvis = Real.sqrt r := by
    unfold ginit
    rw [if_neg (by rcases hm with h | h <;> rw [h] <;> decide), fronorm_eq, fronorm_eq, if_pos (by rw [abs_of_pos hpos]; exact hsize)]
    congr 1
    have : ∑ i ∈ range (visSize c), normSq (vis i) = r ^ 2 * ∑ i ∈ range (visSize c), normSq (mvis i) := by
      rw [Finset.mul_sum]
      refine Finset.sum_congr rfl fun i _ => ?_
      rw [hvis, normSq_mul, normSq_ofReal, pow_two]
    rw [this, Real.sqrt_mul (by positivity), Real.sqrt_sq (le_of_lt hr), mul_div_assoc, div_self (ne_of_gt hpos), mul_one]
  have hin : init c vis mvis true g = fun _ => uniform (Real.sqrt r) := by
    unfold init
    rw [if_pos (Or.inl rfl), hgi]
  have hne : (Real.sqrt r : ℂ) ≠ 0 := by
    rw [Ne, Complex.ofReal_eq_zero]
    exact ne_of_gt (Real.sqrt_pos.mpr hr)
  have hz : ∀ u, (startState (init c vis mvis true g) old).g u 0 = (Real.sqrt r : ℂ) := by
    intro u
    rw [show (startState (init c vis mvis true g) old).g = init c vis mvis true g from rfl, hin]
    simp [uniform]
  obtain ⟨s', h1, h2, -⟩ := doStep_fixed c (by rcases hm with h | h <;> rw [h] <;> decide) vis mvis sees iter
    (startState (init c vis mvis true g) old) ht (by simp [startState]) (by simp [startState]) (by
      intro u hu
      right
      obtain ⟨e, he, hem⟩ := hmod u hu
      refine ⟨?_, ?_, ?_, e, he, ?_⟩
      · intro e _
        simp only [hz]
        rw [hvis, Complex.conj_ofReal]
        have : ((Real.sqrt r : ℝ) : ℂ) * ((Real.sqrt r : ℝ) : ℂ) = (r : ℂ) := by
          rw [← Complex.ofReal_mul, Real.mul_self_sqrt (le_of_lt hr)]
        linear_combination -(mvis (addr c u e)) * this
      · rw [hz]; exact hne
      · rw [hz]
        unfold Admissible
        rcases hm with h | h
        · rw [h]; trivial
        · rw [h]
          simp only
          rw [Complex.norm_real, Real.norm_eq_abs, abs_of_nonneg (Real.sqrt_nonneg r)]
      · rw [hz]; exact mul_ne_zero hne hem)
  exact ⟨s', h1, fun u => by rw [h2]; exact hz u⟩

/-- C112: the same for full Jones matrices: the start is the root of the factor times the unit matrix. -/
theorem init_equal_full (c : Cfg) (hm : c.mode = .fullJones) (vis mvis : Nat → ℂ) (r : ℝ) (hr : 0 < r)
    (hvis : ∀ a, vis a = (r : ℂ) * mvis a) (hsize : 1.0e-15 < Real.sqrt (∑ i ∈ range (visSize c), normSq (mvis i)))
    (hmod : ∀ st, st < c.nSt → detFull c mvis (fun _ => ⟨(Real.sqrt r : ℂ), 0, 0, (Real.sqrt r : ℂ)⟩) st ≠ 0) (ht : 0 ≤ c.tolerance)
    (hn : 0 < c.nSt) (g : Nat → Option (Nat → ℂ)) (old : State) (sees : Nat → Nat → Bool) (iter : Nat) :
    ∃ s', doStep c vis mvis sees iter (startState (init c vis mvis true g) old) = some (s', .converged) ∧
      ∀ st, jones c s'.g st = ⟨(Real.sqrt r : ℂ), 0, 0, (Real.sqrt r : ℂ)⟩ := by
  have hpos : 0 < Real.sqrt (∑ i ∈ range (visSize c), normSq (mvis i)) := lt_trans (by norm_num) hsize
  have hgi : ginit c vis mvis = Real.sqrt r := by
    unfold ginit
    rw [if_neg (by rw [hm]; decide), fronorm_eq, fronorm_eq, if_pos (by rw [abs_of_pos hpos]; exact hsize)]
    congr 1
    have : ∑ i ∈ range (visSize c), normSq (vis i) = r ^ 2 * ∑ i ∈ range (visSize c), normSq (mvis i) := by
      rw [Finset.mul_sum]
      refine Finset.sum_congr rfl fun i _ => ?_
      rw [hvis, normSq_mul, normSq_ofReal, pow_two]
    rw [this, Real.sqrt_mul (by positivity), Real.sqrt_sq (le_of_lt hr), mul_div_assoc, div_self (ne_of_gt hpos), mul_one]
  have hin : init c vis mvis true g = fun _ => uniform (Real.sqrt r) := by
    unfold init
    rw [if_pos (Or.inl rfl), hgi]
  have hne : (Real.sqrt r : ℂ) ≠ 0 := by
    rw [Ne, Complex.ofReal_eq_zero]
    exact ne_of_gt (Real.sqrt_pos.mpr hr)
  have hz : (startState (init c vis mvis true g) old).g = fun _ => uniform (Real.sqrt r) := hin
  have hu : (fun st : Nat => (⟨(startState (init c vis mvis true g) old).g st 0, (startState (init c vis mvis true g) old).g st 1,
      (startState (init c vis mvis true g) old).g st 2, (startState (init c vis mvis true g) old).g st 3⟩ : Mat)) =
      fun _ => ⟨(Real.sqrt r : ℂ), 0, 0, (Real.sqrt r : ℂ)⟩ := by
    funext st
    rw [hz]
    simp [uniform]
  have hsq : ((Real.sqrt r : ℝ) : ℂ) * ((Real.sqrt r : ℝ) : ℂ) = (r : ℂ) := by
    rw [← Complex.ofReal_mul, Real.mul_self_sqrt (le_of_lt hr)]
  obtain ⟨s', h1, h2, -⟩ := doStep_fixed_full c hm vis mvis sees iter
    (startState (init c vis mvis true g) old) ht (by simp [startState]) (by simp [startState])
    ⟨0, hn, 0, by omega, by rw [hz]; simpa [uniform] using hne⟩ (by
      intro st hst
      right
      rw [hu]
      refine ⟨?_, hmod st hst⟩
      rintro ⟨x, p2⟩ hk
      simp only [eqSet, Finset.mem_product, Finset.mem_range] at hk
      have hp : p2 = 0 ∨ p2 = 1 := by omega
      have hb : ∀ p q, block c vis st x p q = (r : ℂ) * block c mvis st x p q := fun p q => hvis _
      simp only [predicted, Complex.conj_ofReal, map_zero, hb]
      rcases hp with rfl | rfl
      · simp only [if_true]
        constructor <;> (rw [← hsq]; ring)
      · norm_num
        constructor <;> (rw [← hsq]; ring))
  refine ⟨s', h1, fun st => ?_⟩
  rw [h2, hz]
  unfold jones
  rw [if_pos hm]
  simp [uniform]

/-- Example for `init_equal_full`: the determinant is not zero for the unit matrices of the example. -/
example (st : Nat) (hs : st < 2) :
    detFull (exCfg .fullJones) exModelFull (fun _ => ⟨(Real.sqrt 4 : ℂ), 0, 0, (Real.sqrt 4 : ℂ)⟩) st ≠ 0 := by
  have h : st = 0 ∨ st = 1 := by omega
  unfold detFull dot
  rcases h with rfl | rfl <;>
    simp [sum_eqSet, cellSet, Finset.sum_product, Finset.sum_range_succ, predicted, block, offset, exCfg, exModelFull]

/-- Example for `init_equal`: visibilities that are four times the model. -/
example (old : State) (sees : Nat → Nat → Bool) :
    ∃ s', doStep (exCfg .default) (fun a => ((4 : ℝ) : ℂ) * exModel a) exModel sees 0
      (startState (init (exCfg .default) (fun a => ((4 : ℝ) : ℂ) * exModel a) exModel true fun _ => none) old) = some (s', .converged) ∧
      ∀ u, s'.g u 0 = (Real.sqrt 4 : ℂ) := by
  refine init_equal (exCfg .default) (Or.inl rfl) _ exModel 4 (by norm_num) (fun _ => rfl) ?_ ?_ ?_ _ old sees 0
  · rw [show visSize (exCfg .default) = 16 from rfl]
    simp only [Finset.sum_range_succ, Finset.sum_range_zero, exModel]
    norm_num
    rw [Real.lt_sqrt (by norm_num)]
    norm_num
  · intro u hu
    obtain ⟨e, he, h⟩ := ex_model .default u (by simpa [nUn, exCfg] using hu)
    exact ⟨e, he, right_ne_zero_of_mul h⟩
  · simp only [exCfg]; norm_num

/-- Example for `init_propagates`: station 1 is flagged, and starts with the modulus 2 of the gain of station 0. -/
example (vis mvis : Nat → ℂ) (old : State) :
    init (exCfg .default) vis mvis false (getSolution (exCfg .default)
      { old with g := fun _ _ => 2 * I, flagged := fun i => decide (i = 1) }) 0 0 = 2 * I ∧
    init (exCfg .default) vis mvis false (getSolution (exCfg .default)
      { old with g := fun _ _ => 2 * I, flagged := fun i => decide (i = 1) }) 1 0 = 2 := by
  have h := init_propagates (exCfg .default) vis mvis { old with g := fun _ _ => 2 * I, flagged := fun i => decide (i = 1) }
    ⟨0, by decide, by simp [exCfg], by simp⟩
  constructor
  · rw [(h 0).1 (by simp [exCfg])]
  · rw [((h 1).2 (by simp [exCfg])).2.2]
    unfold uniform meanModulus
    rw [show nUn (exCfg .default) = 2 from rfl, show nCr (exCfg .default) = 1 from rfl]
    have h0 : getSolution (exCfg .default) { old with g := fun _ _ => 2 * I, flagged := fun i => decide (i = 1) } 0 =
        some fun _ => 2 * I := rfl
    have h1 : getSolution (exCfg .default) { old with g := fun _ _ => 2 * I, flagged := fun i => decide (i = 1) } 1 = none := rfl
    have hfil : ((range 2).filter fun u => (getSolution (exCfg .default)
        { old with g := fun _ _ => 2 * I, flagged := fun i => decide (i = 1) } u).isSome).card = 1 := by
      rw [Finset.card_filter, Finset.sum_range_succ, Finset.sum_range_one, h0, h1]
      rfl
    rw [hfil, Finset.sum_range_succ, Finset.sum_range_one, h0, h1]
    simp [moduli, nCr, exCfg]

end DP3.GainCal
