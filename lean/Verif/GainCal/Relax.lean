import Verif.GainCal.Full

/-!
# C111 and C112: the iterations of GainCal, their status, and their start
-/

namespace DP3.GainCal

open Complex Finset

set_option linter.unusedSimpArgs false

/-! ## Norms -/

theorem fro_eq (c : Cfg) (x : Nat → Nat → ℂ) :
    fro c x = ∑ u ∈ range (nUn c), ∑ cr ∈ range (nCr c), ‖x u cr * x u cr‖ := by
  have h1 : ∀ (u n : Nat) (r : ℝ), (List.range n).foldl (fun r cr => r + ‖x u cr * x u cr‖) r =
      r + ∑ cr ∈ range n, ‖x u cr * x u cr‖ := by
    intro u n r
    induction n with
    | zero => simp
    | succ n ih => rw [List.range_succ, List.foldl_append, ih, Finset.sum_range_succ]; simp [add_assoc]
  unfold fro
  induction nUn c with
  | zero => simp
  | succ n ih => rw [List.range_succ, List.foldl_append, ih, Finset.sum_range_succ, List.foldl_cons, List.foldl_nil, h1]

theorem fro_nonneg (c : Cfg) (x : Nat → Nat → ℂ) : 0 ≤ fro c x := by
  rw [fro_eq]
  exact Finset.sum_nonneg fun _ _ => Finset.sum_nonneg fun _ _ => norm_nonneg _

theorem fro_eq_zero (c : Cfg) (x : Nat → Nat → ℂ) : fro c x = 0 ↔ ∀ u, u < nUn c → ∀ cr, cr < nCr c → x u cr = 0 := by
  rw [fro_eq, Finset.sum_eq_zero_iff_of_nonneg fun _ _ => Finset.sum_nonneg fun _ _ => norm_nonneg _]
  constructor
  · intro h u hu cr hcr
    have := (Finset.sum_eq_zero_iff_of_nonneg fun _ _ => norm_nonneg _).mp (h u (Finset.mem_range.mpr hu)) cr (Finset.mem_range.mpr hcr)
    simpa using this
  · intro h u hu
    refine Finset.sum_eq_zero fun cr hcr => ?_
    rw [h u (Finset.mem_range.mp hu) cr (Finset.mem_range.mp hcr)]
    simp

/-- The relative change of the gains in the last step: the root of the sum of the squared moduli of the differences, divided by the
same for the gains. -/
theorem change_eq (c : Cfg) (s : State) :
    change c s = Real.sqrt (∑ u ∈ range (nUn c), ∑ cr ∈ range (nCr c), ‖s.g u cr - s.gold u cr‖ ^ 2) /
      Real.sqrt (∑ u ∈ range (nUn c), ∑ cr ∈ range (nCr c), ‖s.g u cr‖ ^ 2) := by
  unfold change
  rw [fro_eq, fro_eq]
  simp only [norm_mul, pow_two]

/-! ## The status -/

theorem extrapolate_rest (iter : Nat) (d : ℝ) (s : State) :
    (extrapolate iter d s).gold = s.gold ∧ (extrapolate iter d s).flagged = s.flagged ∧ (extrapolate iter d s).dg = s.dg ∧
    (extrapolate iter d s).dgx = s.dgx ∧ (extrapolate iter d s).badIters = s.badIters ∧
    (extrapolate iter d s).veryBadIters = s.veryBadIters ∧ (extrapolate iter d s).gx = s.gx ∧ (extrapolate iter d s).gxx = s.gxx := by
  unfold extrapolate
  split
  · split
    · simp
    · split
      · simp
      · split <;> simp
  · simp

theorem count_rest (s : State) :
    (count s).g = s.g ∧ (count s).gold = s.gold ∧ (count s).flagged = s.flagged ∧ (count s).dg = s.dg ∧ (count s).dgx = s.dgx ∧
    (count s).gx = s.gx ∧ (count s).gxx = s.gxx := by
  unfold count
  simp only
  split
  · simp
  · split <;> simp

theorem change_congr (c : Cfg) (s t : State) (h1 : s.g = t.g) (h2 : s.gold = t.gold) : change c s = change c t := by
  unfold change
  rw [h1, h2]

theorem relaxEnd_status (c : Cfg) (iter : Nat) (s s' : State) (st : Status) (h : relaxEnd c iter s = some (s', st)) :
    fro c s.g ≠ 0 ∧ s'.flagged = s.flagged ∧
    ((st = .converged ∧ change c s ≤ c.tolerance ∧ s'.g = s.g ∧ s'.gold = s.gold) ∨
     (st = .notConverged ∧ c.tolerance < change c s)) := by
  unfold relaxEnd at h
  split at h
  · exact absurd h (by simp)
  · next hf =>
    refine ⟨hf, ?_⟩
    simp only at h
    split at h
    · next ht =>
      obtain ⟨rfl, rfl⟩ := Prod.mk.inj (Option.some.inj h)
      exact ⟨rfl, Or.inl ⟨rfl, ht, rfl, rfl⟩⟩
    · next ht =>
      obtain ⟨rfl, rfl⟩ := Prod.mk.inj (Option.some.inj h)
      exact ⟨(extrapolate_rest _ _ _).2.1, Or.inr ⟨rfl, lt_of_not_ge ht⟩⟩

theorem relax_status (c : Cfg) (hn : 0 < c.nSt) (iter : Nat) (s s' : State) (st : Status) (h : relax c iter s = some (s', st)) :
    s'.flagged = s.flagged ∧
    ((st = .converged ∧ change c s ≤ c.tolerance ∧ s'.g = s.g ∧ s'.gold = s.gold) ∨
     (st = .notConverged ∧ c.tolerance < change c s) ∨
     (st = .stalled ∧ s' = count s ∧ c.detectStalling = true ∧ 3 < iter ∧
       ((count s).badIters ≥ 3 ∨ (count s).veryBadIters > 3))) := by
  unfold relax at h
  rw [if_neg (by omega)] at h
  obtain ⟨c1, c2, c3, -⟩ := count_rest s
  split at h
  · next hd =>
    split at h
    · next hb =>
      obtain ⟨rfl, rfl⟩ := Prod.mk.inj (Option.some.inj h)
      exact ⟨c3, Or.inr (Or.inr ⟨rfl, rfl, hd.1, hd.2, hb⟩)⟩
    · obtain ⟨-, h1, h2⟩ := relaxEnd_status c iter _ _ _ h
      refine ⟨h1.trans c3, ?_⟩
      rw [change_congr c _ s c1 c2, c1, c2] at h2
      rcases h2 with h2 | h2
      · exact Or.inl h2
      · exact Or.inr (Or.inl h2)
  · obtain ⟨-, h1, h2⟩ := relaxEnd_status c iter _ _ _ h
    refine ⟨h1, ?_⟩
    rcases h2 with h2 | h2
    · exact Or.inl h2
    · exact Or.inr (Or.inl h2)

/-- The state after the two steps of an iteration. -/
noncomputable def twoSteps (c : Cfg) (vis mvis : Nat → ℂ) (sees : Nat → Nat → Bool) (s : State) : State :=
  halfStep c vis mvis (sees 1) (halfStep c vis mvis (sees 0) { s with gxx := s.gx, gx := s.g })

/-- C111: an iteration is `CONVERGED` only if all stations are flagged, or the second of two steps changed the gains by at most the
tolerance, relative to the gains; then the gains are those of the second step. It is `NOTCONVERGED` only if it changed them more, and
`STALLED` only with the detection on and not in the first two iterations. It is never `FAILED`. -/
theorem doStep_status (c : Cfg) (vis mvis : Nat → ℂ) (sees : Nat → Nat → Bool) (iter : Nat) (s s' : State) (st : Status)
    (h : doStep c vis mvis sees iter s = some (s', st)) :
    st ≠ .failed ∧
    (st = .converged → (∀ i, i < c.nSt → s.flagged i = true) ∧ s'.g = s.g ∧ s'.flagged = s.flagged ∨
      change c (twoSteps c vis mvis sees s) ≤ c.tolerance ∧ s'.g = (twoSteps c vis mvis sees s).g ∧
        s'.gold = (twoSteps c vis mvis sees s).gold ∧ s'.flagged = (twoSteps c vis mvis sees s).flagged) ∧
    (st = .notConverged → (∃ i, i < c.nSt ∧ s.flagged i = false) ∧ c.tolerance < change c (twoSteps c vis mvis sees s)) ∧
    (st = .stalled → c.detectStalling = true ∧ 2 ≤ iter ∧ s' = count (twoSteps c vis mvis sees s)) := by
  unfold doStep at h
  simp only at h
  split at h
  · next ha =>
    obtain ⟨rfl, rfl⟩ := Prod.mk.inj (Option.some.inj h)
    refine ⟨by decide, fun _ => Or.inl ⟨?_, rfl, rfl⟩, fun h => absurd h (by decide), fun h => absurd h (by decide)⟩
    intro i hi
    exact List.all_eq_true.mp ha i (List.mem_range.mpr hi)
  · next ha =>
    have hex : ∃ i, i < c.nSt ∧ s.flagged i = false := by
      by_contra hc
      apply ha
      rw [List.all_eq_true]
      intro i hi
      by_contra hb
      exact hc ⟨i, List.mem_range.mp hi, by simpa using hb⟩
    have hn : 0 < c.nSt := by obtain ⟨i, hi, -⟩ := hex; omega
    obtain ⟨hf, h1 | h1 | h1⟩ := relax_status c hn _ _ _ _ h
    · obtain ⟨rfl, h2, h3, h4⟩ := h1
      exact ⟨by decide, fun _ => Or.inr ⟨h2, h3, h4, hf⟩, fun h => absurd h (by decide), fun h => absurd h (by decide)⟩
    · obtain ⟨rfl, h2⟩ := h1
      exact ⟨by decide, fun h => absurd h (by decide), fun _ => ⟨hex, h2⟩, fun h => absurd h (by decide)⟩
    · obtain ⟨rfl, h2, h3, h4, -⟩ := h1
      exact ⟨by decide, fun h => absurd h (by decide), fun h => absurd h (by decide), fun _ => ⟨h3, by omega, h2⟩⟩

theorem halfStep_rest (c : Cfg) (vis mvis : Nat → ℂ) (sees : Nat → Bool) (s : State) :
    (halfStep c vis mvis sees s).dg = s.dg ∧ (halfStep c vis mvis sees s).dgx = s.dgx ∧
    (halfStep c vis mvis sees s).badIters = s.badIters ∧ (halfStep c vis mvis sees s).veryBadIters = s.veryBadIters ∧
    (halfStep c vis mvis sees s).gx = s.gx ∧ (halfStep c vis mvis sees s).gxx = s.gxx ∧
    (halfStep c vis mvis sees s).gold = s.g := by
  unfold halfStep
  split <;> simp

open Classical in
theorem count_bad (s : State) : (count s).badIters =
    if |s.dgx - s.dg| < 5.0e-2 * s.dg then s.badIters + 1 else if s.dgx - s.dg < 0 then s.badIters else 0 := by
  unfold count
  simp only
  by_cases h1 : |s.dgx - s.dg| < 5.0e-2 * s.dg
  · rw [if_pos h1, if_pos h1]
  · rw [if_neg h1, if_neg h1]
    by_cases h2 : s.dgx - s.dg < 0
    · rw [if_pos h2, if_pos h2]
    · rw [if_neg h2, if_neg h2]

open Classical in
theorem count_veryBad (s : State) : (count s).veryBadIters =
    if |s.dgx - s.dg| < 5.0e-2 * s.dg then s.veryBadIters else if s.dgx - s.dg < 0 then s.veryBadIters + 1 else s.veryBadIters := by
  unfold count
  simp only
  by_cases h1 : |s.dgx - s.dg| < 5.0e-2 * s.dg
  · rw [if_pos h1, if_pos h1]
  · rw [if_neg h1, if_neg h1]
    by_cases h2 : s.dgx - s.dg < 0
    · rw [if_pos h2, if_pos h2]
    · rw [if_neg h2, if_neg h2]

/-- The counters are a function of the last changes and the counters. -/
theorem count_counters (s t : State) (h1 : s.dg = t.dg) (h2 : s.dgx = t.dgx) (h3 : s.badIters = t.badIters)
    (h4 : s.veryBadIters = t.veryBadIters) :
    (count s).badIters = (count t).badIters ∧ (count s).veryBadIters = (count t).veryBadIters := by
  rw [count_bad, count_bad, count_veryBad, count_veryBad, h1, h2, h3, h4]
  exact ⟨rfl, rfl⟩

theorem count_stalled (s : State) (h : (count s).badIters ≥ 3 ∨ (count s).veryBadIters > 3) :
    (count (count s)).badIters ≥ 3 ∨ (count (count s)).veryBadIters > 3 := by
  obtain ⟨-, -, -, e1, e2, -⟩ := count_rest s
  rw [count_bad (count s), count_veryBad (count s), e1, e2]
  rw [count_bad s, count_veryBad s] at h ⊢
  by_cases h1 : |s.dgx - s.dg| < 5.0e-2 * s.dg
  · simp only [if_pos h1] at h ⊢
    omega
  · simp only [if_neg h1] at h ⊢
    by_cases h2 : s.dgx - s.dg < 0
    · simp only [if_pos h2] at h ⊢
      omega
    · simp only [if_neg h2] at h ⊢
      omega

/-- C111: a cell that is `STALLED` stays so in all later iterations, unless all its stations are flagged: the changes are not updated,
although the gains still are. -/
theorem stalled_stays (c : Cfg) (vis mvis : Nat → ℂ) (sees sees' : Nat → Nat → Bool) (iter iter' : Nat) (s s' s'' : State) (st : Status)
    (h : doStep c vis mvis sees iter s = some (s', .stalled)) (hi : iter ≤ iter')
    (h' : doStep c vis mvis sees' iter' s' = some (s'', st)) (hf : ∃ i, i < c.nSt ∧ s'.flagged i = false) : st = .stalled := by
  have hs := (doStep_status c vis mvis sees iter s s' _ h).2.2.2 rfl
  have hb : (count (twoSteps c vis mvis sees s)).badIters ≥ 3 ∨ (count (twoSteps c vis mvis sees s)).veryBadIters > 3 := by
    unfold doStep at h
    simp only at h
    split at h
    · exact absurd (Prod.mk.inj (Option.some.inj h)).2 (by decide)
    · next ha =>
      have hn : 0 < c.nSt := by obtain ⟨i, hi, -⟩ := hf; omega
      obtain ⟨-, h1 | h1 | h1⟩ := relax_status c hn _ _ _ _ h
      · exact absurd h1.1 (by decide)
      · exact absurd h1.1 (by decide)
      · exact h1.2.2.2.2
  rw [← hs.2.2] at hb
  have hb2 := hs.2.2 ▸ count_stalled _ (hs.2.2 ▸ hb)
  obtain ⟨i, hi1, hi2⟩ := hf
  unfold doStep at h'
  simp only at h'
  rw [if_neg] at h'
  · have hn : 0 < c.nSt := by omega
    unfold relax at h'
    rw [if_neg (by omega), if_pos ⟨hs.1, by omega⟩, if_pos] at h'
    · exact ((Prod.mk.inj (Option.some.inj h')).2).symm
    · set a := halfStep c vis mvis (sees' 0) { s' with gxx := s'.gx, gx := s'.g } with ha
      obtain ⟨a1, a2, a3, a4, -⟩ := halfStep_rest c vis mvis (sees' 0) { s' with gxx := s'.gx, gx := s'.g }
      obtain ⟨b1, b2, b3, b4, -⟩ := halfStep_rest c vis mvis (sees' 1) a
      obtain ⟨c1, c2⟩ := count_counters (halfStep c vis mvis (sees' 1) a) s' (by rw [b1, ha, a1]) (by rw [b2, ha, a2])
        (by rw [b3, ha, a3]) (by rw [b4, ha, a4])
      rw [c1, c2]
      exact hb2
  · intro hall
    rw [List.all_eq_true] at hall
    have := hall i (List.mem_range.mpr hi1)
    rw [hi2] at this
    exact absurd this (by simp)

/-! ## Fixed points -/

theorem step_fixed_all (c : Cfg) (hm : c.mode ≠ .fullJones) (vis mvis g : Nat → ℂ) (flagged sees : Nat → Bool)
    (h : ∀ u, u < nUn c → flagged (u % c.nSt) = true ∨ (Explains c vis mvis g u ∧ g u ≠ 0 ∧ Admissible c.mode (g u) ∧
      ∃ e ∈ entries c, g (other c e) * mvis (addr c u e) ≠ 0)) :
    stepUnpolarized c vis mvis sees g flagged = (g, flagged) := by
  have h1 : (stepUnpolarized c vis mvis sees g flagged).1 = g := by
    funext u
    by_cases hu : u < nUn c
    · exact (step_fixed c hm vis mvis g flagged sees h u hu).1
    · unfold stepUnpolarized
      simp only
      rw [if_neg (by rintro ⟨h, -⟩; exact hu h)]
  have h2 : (stepUnpolarized c vis mvis sees g flagged).2 = flagged := by
    funext s
    by_cases hs : ∃ u, u < nUn c ∧ u % c.nSt = s
    · obtain ⟨u, hu, rfl⟩ := hs
      exact (step_fixed c hm vis mvis g flagged sees h u hu).2
    · apply step_unflagged c hm
      intro v hv hvs
      exact absurd ⟨v, hv, hvs⟩ hs
  exact Prod.ext h1 h2

theorem halfStep_fixed (c : Cfg) (hm : c.mode ≠ .fullJones) (vis mvis : Nat → ℂ) (sees : Nat → Bool) (s : State)
    (h : ∀ u, u < nUn c → s.flagged (u % c.nSt) = true ∨ (Explains c vis mvis (fun u => s.g u 0) u ∧ s.g u 0 ≠ 0 ∧
      Admissible c.mode (s.g u 0) ∧ ∃ e ∈ entries c, s.g (other c e) 0 * mvis (addr c u e) ≠ 0)) :
    halfStep c vis mvis sees s = { s with gold := s.g } := by
  unfold halfStep
  rw [if_neg hm]
  simp only
  rw [step_fixed_all c hm vis mvis (fun u => s.g u 0) s.flagged sees h]
  have : (fun (u cr : Nat) => if cr = 0 then s.g u 0 else s.g u cr) = s.g := by
    funext u cr
    split
    · next h => rw [h]
    · rfl
  simp only [this]

theorem halfStep_fixed_full (c : Cfg) (hm : c.mode = .fullJones) (vis mvis : Nat → ℂ) (sees : Nat → Bool) (s : State)
    (h : ∀ st, st < c.nSt → s.flagged st = true ∨
      (ExplainsFull c vis mvis (fun st => ⟨s.g st 0, s.g st 1, s.g st 2, s.g st 3⟩) st ∧
       detFull c mvis (fun st => ⟨s.g st 0, s.g st 1, s.g st 2, s.g st 3⟩) st ≠ 0)) :
    halfStep c vis mvis sees s = { s with gold := s.g } := by
  unfold halfStep
  rw [if_pos hm]
  simp only
  obtain ⟨h1, h2⟩ := full_fixed c vis mvis _ s.flagged h
  rw [h1, h2]
  have : (fun (st cr : Nat) => if cr = 0 then s.g st 0 else if cr = 1 then s.g st 1 else if cr = 2 then s.g st 2
      else if cr = 3 then s.g st 3 else s.g st cr) = s.g := by
    funext st cr
    split
    · next h => rw [h]
    · split
      · next h => rw [h]
      · split
        · next h => rw [h]
        · split
          · next h => rw [h]
          · rfl
  simp only [this]

private theorem doStep_same (c : Cfg) (vis mvis : Nat → ℂ) (sees : Nat → Nat → Bool) (iter : Nat) (s : State)
    (ht : 0 ≤ c.tolerance) (hb : s.badIters ≤ 1) (hv : s.veryBadIters ≤ 2) (hg : fro c s.g ≠ 0)
    (h : ∀ (f : Nat → Bool) (t : State), t.g = s.g → t.flagged = s.flagged → halfStep c vis mvis f t = { t with gold := t.g }) :
    ∃ s', doStep c vis mvis sees iter s = some (s', .converged) ∧ s'.g = s.g ∧ s'.flagged = s.flagged := by
  unfold doStep
  simp only
  split
  · exact ⟨_, rfl, rfl, rfl⟩
  · rw [h (sees 0) { s with gxx := s.gx, gx := s.g } rfl rfl, h (sees 1) { s with gxx := s.gx, gx := s.g, gold := s.g } rfl rfl]
    simp only
    have hend : ∀ t : State, t.g = s.g → t.gold = s.g → t.flagged = s.flagged →
        ∃ s', relaxEnd c (2 * iter) t = some (s', .converged) ∧ s'.g = s.g ∧ s'.flagged = s.flagged := by
      intro t t1 t2 t3
      have hc : change c t = 0 := by
        unfold change
        rw [t1, t2]
        have : fro c (fun a cr => s.g a cr - s.g a cr) = 0 := by
          rw [fro_eq_zero]
          intro u _ cr _
          exact sub_self _
        rw [this, Real.sqrt_zero, zero_div]
      unfold relaxEnd
      rw [if_neg (by rw [t1]; exact hg)]
      simp only
      rw [if_pos (by rw [hc]; exact ht)]
      exact ⟨_, rfl, t1, t3⟩
    unfold relax
    split
    · exact ⟨_, rfl, rfl, rfl⟩
    · split
      · rw [if_neg]
        · obtain ⟨c1, c2, c3, -⟩ := count_rest ({ s with gxx := s.gx, gx := s.g, gold := s.g } : State)
          exact hend _ c1 c2 c3
        · unfold count
          simp only
          split
          · simp only; omega
          · split
            · simp only; omega
            · simp only; omega
      · exact hend _ rfl rfl rfl

/-- C111: an iteration from gains that explain the visibilities of the unflagged stations is `CONVERGED`, with these gains. -/
theorem doStep_fixed (c : Cfg) (hm : c.mode ≠ .fullJones) (vis mvis : Nat → ℂ) (sees : Nat → Nat → Bool) (iter : Nat) (s : State)
    (ht : 0 ≤ c.tolerance) (hb : s.badIters ≤ 1) (hv : s.veryBadIters ≤ 2)
    (h : ∀ u, u < nUn c → s.flagged (u % c.nSt) = true ∨ (Explains c vis mvis (fun u => s.g u 0) u ∧ s.g u 0 ≠ 0 ∧
      Admissible c.mode (s.g u 0) ∧ ∃ e ∈ entries c, s.g (other c e) 0 * mvis (addr c u e) ≠ 0)) :
    ∃ s', doStep c vis mvis sees iter s = some (s', .converged) ∧ s'.g = s.g ∧ s'.flagged = s.flagged := by
  by_cases hall : (List.range c.nSt).all s.flagged = true
  · unfold doStep
    simp only
    rw [if_pos hall]
    exact ⟨_, rfl, rfl, rfl⟩
  · apply doStep_same c vis mvis sees iter s ht hb hv
    · rw [Ne, fro_eq_zero]
      intro hz
      apply hall
      rw [List.all_eq_true]
      intro i hi
      have hi' : i < c.nSt := List.mem_range.mp hi
      have hu : i < nUn c := by unfold nUn; split <;> omega
      rcases h i hu with h1 | ⟨-, h1, -⟩
      · rwa [Nat.mod_eq_of_lt hi'] at h1
      · exact absurd (hz i hu 0 (by unfold nCr; split <;> omega)) h1
    · intro f t t1 t2
      exact halfStep_fixed c hm vis mvis f t (by rw [t1, t2]; exact h)

/-- C111: the same for full Jones matrices. -/
theorem doStep_fixed_full (c : Cfg) (hm : c.mode = .fullJones) (vis mvis : Nat → ℂ) (sees : Nat → Nat → Bool) (iter : Nat) (s : State)
    (ht : 0 ≤ c.tolerance) (hb : s.badIters ≤ 1) (hv : s.veryBadIters ≤ 2) (hg : ∃ u, u < c.nSt ∧ ∃ cr, cr < 4 ∧ s.g u cr ≠ 0)
    (h : ∀ st, st < c.nSt → s.flagged st = true ∨
      (ExplainsFull c vis mvis (fun st => ⟨s.g st 0, s.g st 1, s.g st 2, s.g st 3⟩) st ∧
       detFull c mvis (fun st => ⟨s.g st 0, s.g st 1, s.g st 2, s.g st 3⟩) st ≠ 0)) :
    ∃ s', doStep c vis mvis sees iter s = some (s', .converged) ∧ s'.g = s.g ∧ s'.flagged = s.flagged := by
  apply doStep_same c vis mvis sees iter s ht hb hv
  · rw [Ne, fro_eq_zero]
    intro hz
    obtain ⟨u, hu, cr, hcr, hne⟩ := hg
    exact hne (hz u (by unfold nUn; rw [hm]; simpa using hu) cr (by unfold nCr; rw [hm]; simpa using hcr))
  · intro f t t1 t2
    exact halfStep_fixed_full c hm vis mvis f t (by rw [t1, t2]; exact h)

/-! ## Phases and amplitudes -/

theorem halfStep_mode (c : Cfg) (hm : c.mode ≠ .fullJones) (vis mvis : Nat → ℂ) (sees : Nat → Bool) (s : State) (u : Nat)
    (hu : u < nUn c) (hf : (halfStep c vis mvis sees s).flagged (u % c.nSt) = false) :
    Admissible c.mode ((halfStep c vis mvis sees s).g u 0) ∧ (halfStep c vis mvis sees s).g u 0 ≠ 0 := by
  have hflag : (halfStep c vis mvis sees s).flagged = (stepUnpolarized c vis mvis sees (fun u => s.g u 0) s.flagged).2 := by
    unfold halfStep; rw [if_neg hm]
  have hg : (halfStep c vis mvis sees s).g u 0 = (stepUnpolarized c vis mvis sees (fun u => s.g u 0) s.flagged).1 u := by
    unfold halfStep; rw [if_neg hm]; simp
  rw [hflag] at hf
  rw [hg]
  have hno : ¬ (s.flagged (u % c.nSt) = true ∨
      ∃ v, v < nUn c ∧ v % c.nSt = u % c.nSt ∧ ¬ HasData c vis mvis (fun u => s.g u 0) v) := by
    rw [← step_flag c hm vis mvis _ s.flagged sees, hf]; simp
  push Not at hno
  have hf' : s.flagged (u % c.nSt) = false := by simpa using hno.1
  have hd : ∀ v, v < nUn c → v % c.nSt = u % c.nSt → HasData c vis mvis (fun u => s.g u 0) v := fun v hv e => hno.2 v hv e
  cases hmode : c.mode with
  | phaseOnly =>
    have h1 := (step_phase c hmode vis mvis _ s.flagged sees u hu hf' hd).1
    refine ⟨h1, ?_⟩
    intro h0
    rw [h0] at h1
    simp at h1
  | amplitudeOnly =>
    obtain ⟨y, h1, h2, -⟩ := step_amplitude c hmode vis mvis _ s.flagged sees u hu hf' hd
    rw [h1]
    refine ⟨?_, by simpa using h2⟩
    show ((‖y‖ : ℝ) : ℂ) = ((‖((‖y‖ : ℝ) : ℂ)‖ : ℝ) : ℂ)
    rw [Complex.norm_real, norm_norm]
  | default =>
    refine ⟨trivial, ?_⟩
    rw [step_value c hm vis mvis _ s.flagged sees u hu hf' hd, hmode]
    simp only [constrain]
    have hw := (weight_pos c mvis (fun u => s.g u 0) u).mpr (hd u hu rfl).1
    exact div_ne_zero (hd u hu rfl).2 (Complex.ofReal_ne_zero.mpr hw)
  | fullJones => exact absurd hmode hm

/-- C111: the gains of the unflagged stations of a cell that is `CONVERGED` or `STALLED` satisfy the constraint of the mode: phases have
modulus one, and amplitudes are not negative; none is zero. -/
theorem doStep_mode (c : Cfg) (hm : c.mode ≠ .fullJones) (vis mvis : Nat → ℂ) (sees : Nat → Nat → Bool) (iter : Nat) (s s' : State)
    (st : Status) (h : doStep c vis mvis sees iter s = some (s', st)) (hst : st = .converged ∨ st = .stalled) (u : Nat)
    (hu : u < nUn c) (hf : s'.flagged (u % c.nSt) = false) : Admissible c.mode (s'.g u 0) ∧ s'.g u 0 ≠ 0 := by
  obtain ⟨-, h1, -, h3⟩ := doStep_status c vis mvis sees iter s s' st h
  rcases hst with hst | hst
  · rcases h1 hst with ⟨ha, -, hb⟩ | ⟨-, hg, -, hfl⟩
    · rw [hb, ha _ ((unknowns c u hu).2.1)] at hf
      exact absurd hf (by simp)
    · rw [hg]
      rw [hfl] at hf
      exact halfStep_mode c hm vis mvis _ _ u hu hf
  · obtain ⟨-, -, h4⟩ := h3 hst
    rw [h4] at hf ⊢
    obtain ⟨c1, -, c3, -⟩ := count_rest (twoSteps c vis mvis sees s)
    rw [c3] at hf
    rw [c1]
    exact halfStep_mode c hm vis mvis _ _ u hu hf

/-- C111: the mean of two steps from gains of modulus one does not: one iteration from gains of one on exact phases of 0 and 90 degrees,
with at most one iteration, gives solutions with modulus one over the root of two. -/
theorem phase_violated (sees : Nat → Nat → Bool) (old : State) (hf : old.flagged = fun _ => false) :
    ∃ s', doStep (exCfg .phaseOnly) exVis exModel sees 0 (startState (fun _ _ => 1) old) = some (s', .notConverged) ∧
      s'.g 0 0 = (1 - I) / 2 ∧ s'.g 1 0 = (1 + I) / 2 ∧ s'.flagged = (fun _ => false) ∧ ‖s'.g 0 0‖ ^ 2 = 1 / 2 := by
  have hstep : ∀ (g : Nat → ℂ) (f : Nat → Bool), (∀ u, u < 2 → g u ≠ 0) →
      (stepUnpolarized (exCfg .phaseOnly) exVis exModel f g fun _ => false).2 = (fun _ => false) ∧
      (stepUnpolarized (exCfg .phaseOnly) exVis exModel f g fun _ => false).1 0 =
        constrain .phaseOnly (4 * (g 1 * -I) / ((4 * normSq (g 1) : ℝ) : ℂ)) ∧
      (stepUnpolarized (exCfg .phaseOnly) exVis exModel f g fun _ => false).1 1 =
        constrain .phaseOnly (4 * (g 0 * I) / ((4 * normSq (g 0) : ℝ) : ℂ)) := by
    intro g f hg
    have hs0 : sums (exCfg .phaseOnly) exVis exModel (fun u => (starRingEnd ℂ) (g u)) 0 = (4 * normSq (g 1), 4 * (g 1 * -I)) := by
      rw [sums_eq _ (by decide) _ _ _ _ (by decide)]
      simp [entries, addr, other, exCfg, offset, exModel, exVis, exGain, Finset.sum_product, Finset.sum_range_succ]
      constructor <;> ring
    have hs1 : sums (exCfg .phaseOnly) exVis exModel (fun u => (starRingEnd ℂ) (g u)) 1 = (4 * normSq (g 0), 4 * (g 0 * I)) := by
      rw [sums_eq _ (by decide) _ _ _ _ (by decide)]
      simp [entries, addr, other, exCfg, offset, exModel, exVis, exGain, Finset.sum_product, Finset.sum_range_succ]
      constructor <;> ring
    have hg0 := hg 0 (by omega)
    have hg1 := hg 1 (by omega)
    have hd : ∀ v, v < nUn (exCfg .phaseOnly) → HasData (exCfg .phaseOnly) exVis exModel g v := by
      intro v hv
      have hv' : v < 2 := by simpa [nUn, exCfg] using hv
      rw [hasData_iff _ (by decide) _ _ _ _ hv]
      unfold noData
      have : v = 0 ∨ v = 1 := by omega
      rcases this with rfl | rfl
      · rw [hs0]; simp [hg1]
      · rw [hs1]; simp [hg0]
    refine ⟨?_, ?_, ?_⟩
    · funext s
      exact step_unflagged _ (by decide) _ _ _ _ _ s fun v hv _ => hd v hv
    · unfold stepUnpolarized
      simp only
      rw [if_pos ⟨by decide, not_skipped _ (by decide) _ _ _ _ _ 0 (by decide) rfl fun v hv _ => hd v hv⟩,
        if_neg ((hasData_iff _ (by decide) _ _ _ 0 (by decide)).mp (hd 0 (by decide))), hs0]
      rfl
    · unfold stepUnpolarized
      simp only
      rw [if_pos ⟨by decide, not_skipped _ (by decide) _ _ _ _ _ 1 (by decide) rfl fun v hv _ => hd v hv⟩,
        if_neg ((hasData_iff _ (by decide) _ _ _ 1 (by decide)).mp (hd 1 (by decide))), hs1]
      rfl
  set s0 : State := { startState (fun _ _ => 1) old with gxx := old.gx, gx := fun _ _ => 1 } with hs0
  set s1 := halfStep (exCfg .phaseOnly) exVis exModel (sees 0) s0 with hs1
  set s2 := halfStep (exCfg .phaseOnly) exVis exModel (sees 1) s1 with hs2
  obtain ⟨a1, a2, a3⟩ := hstep (fun _ => 1) (sees 0) (fun _ _ => one_ne_zero)
  have e1 : s1.flagged = (fun _ => false) ∧ s1.g 0 0 = -I ∧ s1.g 1 0 = I := by
    rw [hs1]
    unfold halfStep
    rw [if_neg (by decide)]
    have hfl : s0.flagged = fun _ => false := hf
    have hg : (fun u => s0.g u 0) = fun _ => 1 := rfl
    simp only [hfl, hg, if_true]
    refine ⟨a1, ?_, ?_⟩
    · rw [a2]; simp [constrain]; ring
    · rw [a3]; simp [constrain]
  obtain ⟨b1, b2, b3⟩ := hstep (fun u => s1.g u 0) (sees 1) (by
    intro u hu
    have : u = 0 ∨ u = 1 := by omega
    rcases this with rfl | rfl
    · rw [e1.2.1]; simp
    · rw [e1.2.2]; simp)
  have e2 : s2.flagged = (fun _ => false) ∧ s2.g 0 0 = 1 ∧ s2.g 1 0 = 1 ∧ s2.gold = s1.g := by
    rw [hs2]
    unfold halfStep
    rw [if_neg (by decide)]
    simp only [e1.1, if_true]
    refine ⟨b1, ?_, ?_, trivial⟩
    · rw [b2, e1.2.2]; simp [constrain]
    · rw [b3, e1.2.1]; simp [constrain]
  have hfro : fro (exCfg .phaseOnly) s2.g = 2 := by
    rw [fro_eq]
    rw [show nUn (exCfg .phaseOnly) = 2 from rfl, show nCr (exCfg .phaseOnly) = 1 from rfl]
    norm_num [Finset.sum_range_succ, e2.2.1, e2.2.2.1]
  have hn1 : normSq (1 + I) = 2 := by simp [normSq_apply]; norm_num
  have hn2 : normSq (1 - I) = 2 := by simp [normSq_apply]; norm_num
  have hfd : fro (exCfg .phaseOnly) (fun a cr => s2.g a cr - s2.gold a cr) = 4 := by
    rw [fro_eq]
    have hn : ∀ z : ℂ, ‖z * z‖ = normSq z := fun z => by rw [norm_mul, normSq_eq_norm_sq, pow_two]
    simp only [hn]
    rw [show nUn (exCfg .phaseOnly) = 2 from rfl, show nCr (exCfg .phaseOnly) = 1 from rfl]
    norm_num [Finset.sum_range_succ, e2.2.1, e2.2.2.1, e2.2.2.2, e1.2.1, e1.2.2, hn1, hn2]
  have hch : (1 : ℝ) < change (exCfg .phaseOnly) s2 := by
    unfold change
    rw [hfd, hfro, lt_div_iff₀ (by positivity), one_mul]
    exact Real.sqrt_lt_sqrt (by norm_num) (by norm_num)
  unfold doStep
  simp only
  rw [if_neg (by rw [show (startState (fun _ _ => 1) old).flagged = fun _ => false from hf]; decide)]
  show ∃ s', relax (exCfg .phaseOnly) (2 * 0) s2 = some (s', Status.notConverged) ∧ _
  unfold relax
  rw [if_neg (by decide), if_neg (by simp)]
  unfold relaxEnd
  rw [if_neg (by rw [hfro]; norm_num)]
  simp only
  have htol : ¬ change (exCfg .phaseOnly) s2 ≤ (exCfg .phaseOnly).tolerance := by
    have : (exCfg .phaseOnly).tolerance ≤ 1 := by simp only [exCfg]; norm_num
    linarith
  rw [if_neg htol]
  refine ⟨_, rfl, ?_⟩
  unfold extrapolate
  have hno : ¬ (2 * 0 + 1 ≥ 24 ∨ (max (change (exCfg .phaseOnly) s2) (max s2.dg s2.dgx) ≤ 1.0e-3 ∧
      change (exCfg .phaseOnly) s2 < s2.dg ∧ s2.dg < s2.dgx)) := by
    rintro (h | ⟨h, -⟩)
    · omega
    · have h5 := le_trans (le_max_left _ _) h
      norm_num at h5
      linarith
  simp only
  rw [if_neg hno]
  simp only [e2.2.2.2, e2.1, e2.2.1, e2.2.2.1, e1.2.1, e1.2.2]
  refine ⟨by ring, by ring, trivial, ?_⟩
  have : (1 - 0.5) * 1 + 0.5 * -I = (1 - I) / 2 := by ring
  rw [this, ← normSq_eq_norm_sq, normSq_div, hn2]
  norm_num [normSq_apply]

end DP3.GainCal
