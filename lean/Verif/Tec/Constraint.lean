import Verif.Tec.Grid
import Verif.Constraints.Props

/-!
# C107: the TEC constraint, C108: the TEC solutions of GainCal
-/

namespace DP3.Tec

open Real PhaseLine Constraints

set_option linter.unusedSimpArgs false

theorem index_eq (n a d : Nat) (h : d < n) : (a * n + d) / n = a ∧ (a * n + d) % n = d := by
  constructor
  · rw [Nat.mul_comm, Nat.mul_add_div (by omega), Nat.div_eq_of_lt h, Nat.add_zero]
  · rw [Nat.mul_comm, Nat.mul_add_mod, Nat.mod_eq_of_lt h]

theorem fitAt_eq (c : Settings) (s : Sol ℂ) (a d : Nat) (h : d < c.nSub) :
    fitAt c s (a * c.nSub + d) = fitOne c a fun ch => s ch a d 0 := by
  unfold fitAt
  rw [(index_eq c.nSub a d h).1, (index_eq c.nSub a d h).2]

theorem chans_get (c : Settings) (a : Nat) (sol : Nat → Option ℂ) (ch : Nat) (h : ch < c.nCh) :
    (chans c a sol)[ch]? = some (chanOf c a ch (sol ch)) := by
  unfold chans
  rw [List.getElem?_map, List.getElem?_range h]
  rfl

theorem chanOf_nu (c : Settings) (a ch : Nat) (z : Option ℂ) : (chanOf c a ch z).nu = c.freqs ch := by
  cases z <;> rfl

/-- The phase of the model that is stored as solution. -/
theorem phases_get (c : Settings) (a : Nat) (sol : Nat → Option ℂ) (ch : Nat) (h : ch < c.nCh) :
    ∃ x, (fitOne c a sol).phases[ch]? = some x ∧ SamePhase x ((fitOne c a sol).alpha / c.freqs ch + (fitOne c a sol).beta) := by
  unfold fitOne
  by_cases ht : c.tecOnly = true
  · rw [if_pos ht]
    unfold fitData1
    simp only
    refine ⟨_, by rw [List.getElem?_map, chans_get c a sol ch h]; rfl, ?_⟩
    simp only [chanOf_nu, add_zero]
    exact fmod_samePhase _
  · rw [if_neg ht]
    unfold fitData2
    simp only
    refine ⟨_, by rw [List.getElem?_map, chans_get c a sol ch h]; rfl, ?_⟩
    simp only [chanOf_nu]
    exact same_refl _

/-- C107: the results `tec` and `phase` describe the new solutions: each is a number with modulus one and phase
-8.44797245e9 tec / ν + phase, whatever the solution was, also if it was not finite. If only the TEC is fitted the phase is
zero. -/
theorem apply_spec (c : Settings) (s : Sol ℂ) (ch a d : Nat) (hch : ch < c.nCh) (ha : a < c.nAnt) (hd : d < c.nSub) :
    (apply c s).1 ch a d 0 = some (Complex.exp (((-8.44797245e9 * (apply c s).2.tec (a * c.nSub + d) / c.freqs ch +
      (apply c s).2.phase (a * c.nSub + d) : ℝ) : ℂ) * Complex.I)) ∧
    (c.tecOnly = true → (apply c s).2.phase (a * c.nSub + d) = 0) := by
  constructor
  · unfold apply
    simp only
    rw [if_pos ⟨hch, ha, hd, trivial⟩, fitAt_eq c _ a d hd]
    obtain ⟨x, hx, hs⟩ := phases_get c a (fun ch => referenced c s ch a d 0) ch hch
    rw [hx, Option.map_some]
    congr 1
    rw [exp_same hs]
    congr 3
    ring
  · intro ht
    unfold apply
    simp only
    rw [fitAt_eq c _ a d hd]
    unfold fitOne
    rw [if_pos ht]
    rfl

/-- C107: so all solutions have modulus one, and other values are not changed by the fit. -/
theorem apply_modulus (c : Settings) (s : Sol ℂ) (ch a d : Nat) (hch : ch < c.nCh) (ha : a < c.nAnt) (hd : d < c.nSub) :
    ∃ z, (apply c s).1 ch a d 0 = some z ∧ ‖z‖ = 1 := by
  refine ⟨_, (apply_spec c s ch a d hch ha hd).1, ?_⟩
  exact Complex.norm_exp_ofReal_mul_I _

/-- The weights of an antenna are usable. -/
def GoodWeights (c : Settings) (a : Nat) : Prop := ∀ ch, ch < c.nCh → 0 ≤ c.weights (a * c.nCh + ch)

theorem mem_chans (c : Settings) (a : Nat) (sol : Nat → Option ℂ) (x : Chan) :
    x ∈ chans c a sol ↔ ∃ ch, ch < c.nCh ∧ x = chanOf c a ch (sol ch) := by
  unfold chans
  rw [List.mem_map]
  constructor
  · rintro ⟨ch, h, rfl⟩; exact ⟨ch, List.mem_range.mp h, rfl⟩
  · rintro ⟨ch, h, rfl⟩; exact ⟨ch, List.mem_range.mpr h, rfl⟩

theorem weightSum_eq (c : Settings) (a : Nat) (sol : Nat → Option ℂ) :
    weightSum c a sol = ((chans c a sol).map Chan.weight).sum := by
  unfold weightSum chans
  have : ∀ (l : List Nat) (x : ℝ), l.foldl (addWeight c a sol) x = x + ((l.map fun ch => chanOf c a ch (sol ch)).map Chan.weight).sum := by
    intro l
    induction l with
    | nil => intro x; simp
    | cons ch l ih =>
      intro x
      rw [List.foldl_cons, ih, List.map_cons, List.map_cons, List.sum_cons]
      unfold addWeight
      cases sol ch with
      | none => simp [chanOf]
      | some z => simp [chanOf]; ring
  rw [this]
  simp

theorem chans_nonneg (c : Settings) (a : Nat) (h : GoodWeights c a) (sol : Nat → Option ℂ) :
    ∀ x ∈ chans c a sol, 0 ≤ x.weight := by
  intro x hx
  obtain ⟨ch, hch, rfl⟩ := (mem_chans c a sol x).mp hx
  cases sol ch with
  | none => exact le_refl _
  | some z => exact h ch hch

/-- C107: the weight of the results is the sum of the weights of the channel blocks with a finite solution. -/
theorem apply_weight (c : Settings) (s : Sol ℂ) (a d : Nat) (hd : d < c.nSub) :
    (apply c s).2.weight (a * c.nSub + d) =
      (((List.range c.nCh).filter fun ch => (referenced c s ch a d 0).isSome).map fun ch => c.weights (a * c.nCh + ch)).sum := by
  unfold apply
  simp only
  rw [(index_eq c.nSub a d hd).1, (index_eq c.nSub a d hd).2, weightSum_eq]
  unfold chans
  induction List.range c.nCh with
  | nil => rfl
  | cons ch l ih =>
    rw [List.map_cons, List.map_cons, List.sum_cons, ih]
    cases hs : referenced c s ch a d 0 with
    | none => rw [List.filter_cons_of_neg (by rw [hs]; simp)]; simp [chanOf, hs]
    | some z => rw [List.filter_cons_of_pos (by rw [hs]; simp), List.map_cons, List.sum_cons]; simp [chanOf, hs]

/-- The fit of the constraint as cost of the two parameter model. -/
theorem fitOne_cost (c : Settings) (a : Nat) (sol : Nat → Option ℂ) :
    (fitOne c a sol).cost = cost2 (chans c a sol) (fitOne c a sol).alpha (fitOne c a sol).beta := by
  unfold fitOne
  by_cases ht : c.tecOnly = true
  · rw [if_pos ht]
    exact cost1_cost2 _ _
  · rw [if_neg ht]
    rfl

/-- C107: the result `error` is between zero and π, and zero exactly if the fit is perfect: all finite solutions with weight are
the new solution times a positive number. -/
theorem apply_error (c : Settings) (s : Sol ℂ) (a d : Nat) (ha : a < c.nAnt) (hd : d < c.nSub) (hw : GoodWeights c a)
    (hW : 0 < (apply c s).2.weight (a * c.nSub + d)) (hz : ∀ ch, ch < c.nCh → referenced c s ch a d 0 ≠ some 0) :
    0 ≤ (apply c s).2.error (a * c.nSub + d) ∧ (apply c s).2.error (a * c.nSub + d) ≤ π ∧
    ((apply c s).2.error (a * c.nSub + d) = 0 ↔ ∀ ch, ch < c.nCh → ∀ z, referenced c s ch a d 0 = some z →
      c.weights (a * c.nCh + ch) ≠ 0 → ∃ u, (apply c s).1 ch a d 0 = some u ∧ z = ‖z‖ * u) := by
  have herr : (apply c s).2.error (a * c.nSub + d) = (fitOne c a fun ch => referenced c s ch a d 0).cost := by
    unfold apply
    simp only
    rw [fitAt_eq c _ a d hd]
  have hW' : 0 < ((chans c a fun ch => referenced c s ch a d 0).map Chan.weight).sum := by
    rw [← weightSum_eq]
    unfold apply at hW
    simp only at hW
    rwa [(index_eq c.nSub a d hd).1, (index_eq c.nSub a d hd).2] at hW
  set sol := fun ch => referenced c s ch a d 0 with hsol
  obtain ⟨-, h0, h1, h2, -⟩ := cost_spec (chans c a sol) (fitOne c a sol).alpha (fitOne c a sol).beta
    (chans_nonneg c a hw sol) hW'
  rw [herr, fitOne_cost]
  refine ⟨h0, h1, h2.trans ?_⟩
  have hsolch : ∀ ch, ch < c.nCh → (apply c s).1 ch a d 0 =
      some (Complex.exp ((((fitOne c a sol).alpha / c.freqs ch + (fitOne c a sol).beta : ℝ) : ℂ) * Complex.I)) := by
    intro ch hch
    unfold apply
    simp only
    rw [if_pos ⟨hch, ha, hd, trivial⟩, fitAt_eq c _ a d hd]
    obtain ⟨x, hx, hs⟩ := phases_get c a sol ch hch
    rw [show (fun ch => referenced c s ch a d 0) = sol from rfl, hx, Option.map_some, exp_same hs]
  constructor
  · intro h ch hch z hzc hwc
    refine ⟨_, hsolch ch hch, ?_⟩
    have hm : chanOf c a ch (sol ch) ∈ chans c a sol := (mem_chans c a sol _).mpr ⟨ch, hch, rfl⟩
    have hch' : chanOf c a ch (sol ch) = ⟨c.freqs ch, Complex.arg z, c.weights (a * c.nCh + ch)⟩ := by
      show chanOf c a ch (referenced c s ch a d 0) = _
      rw [hzc]; rfl
    have := h _ hm (by rw [hch']; exact hwc)
    rw [hch'] at this
    rw [← exp_same this]
    exact (Complex.norm_mul_exp_arg_mul_I z).symm
  · intro h x hx hwx
    obtain ⟨ch, hch, rfl⟩ := (mem_chans c a sol x).mp hx
    cases hzc : sol ch with
    | none => rw [hzc] at hwx; exact absurd rfl hwx
    | some z =>
      rw [hzc] at hwx
      have hz0 : z ≠ 0 := by
        intro h0
        exact hz ch hch (by rw [← h0]; exact hzc)
      obtain ⟨u, hu, hzu⟩ := h ch hch z hzc hwx
      rw [hsolch ch hch] at hu
      have hu' := Option.some.inj hu
      rw [← hu'] at hzu
      have hn : ((‖z‖ : ℝ) : ℂ) ≠ 0 := by simpa using hz0
      have he : Complex.exp (Complex.arg z * Complex.I) =
          Complex.exp ((((fitOne c a sol).alpha / c.freqs ch + (fitOne c a sol).beta : ℝ) : ℂ) * Complex.I) := by
        apply mul_left_cancel₀ hn
        rw [← hzu]
        exact Complex.norm_mul_exp_arg_mul_I z
      obtain ⟨n, hn⟩ := Complex.exp_eq_exp_iff_exists_int.mp he
      refine ⟨n, ?_⟩
      show Complex.arg z = _
      have h3 : ((Complex.arg z : ℝ) : ℂ) * Complex.I =
          (((fitOne c a sol).alpha / c.freqs ch + (fitOne c a sol).beta + 2 * π * n : ℝ) : ℂ) * Complex.I := by
        rw [hn]; push_cast; ring
      have h4 := mul_right_cancel₀ Complex.I_ne_zero h3
      exact_mod_cast h4

/-- C107: the reference antenna has no TEC and no phase, and its solutions stay one, if two of its channel blocks have weight
and different frequencies. Numbers that can be stored are rational. -/
theorem apply_reference (c : Settings) (s : Sol ℂ) (hr : c.doReference = true) :
    ∃ ref, IsReference c.nCh c.nAnt s 0 ref ∧ ∀ d, d < c.nSub → ref < c.nAnt → GoodWeights c ref →
      ∀ ch1 ch2 : Nat, ch1 < c.nCh → ch2 < c.nCh → c.weights (ref * c.nCh + ch1) ≠ 0 → c.weights (ref * c.nCh + ch2) ≠ 0 →
      ∀ x y : ℚ, c.freqs ch1 = x → c.freqs ch2 = y → x ≠ 0 → y ≠ 0 → x ≠ y →
        (apply c s).2.tec (ref * c.nSub + d) = 0 ∧ (apply c s).2.phase (ref * c.nSub + d) = 0 ∧
        ∀ ch, ch < c.nCh → (apply c s).1 ch ref d 0 = some 1 := by
  obtain ⟨ref, h1, h2⟩ := reference_spec c.nCh c.nAnt c.nSub 1 s (p := 0) (by norm_num)
  refine ⟨ref, h1, ?_⟩
  intro d hd href hgw ch1 ch2 hc1 hc2 hw1 hw2 x y hx hy hx0 hy0 hxy
  have hone : ∀ ch, ch < c.nCh → referenced c s ch ref d 0 = some 1 := by
    intro ch hch
    unfold referenced
    rw [if_pos hr]
    have := (h2 ch hch d hd).1
    convert this
  set sol := fun ch => referenced c s ch ref d 0 with hsol
  have hphase : ∀ z ∈ chans c ref sol, z.phase = 0 := by
    intro z hz
    obtain ⟨ch, hch, rfl⟩ := (mem_chans c ref sol z).mp hz
    rw [show sol ch = some 1 from hone ch hch]
    simp [chanOf]
  have hm : ∀ ch, ch < c.nCh → (⟨c.freqs ch, 0, c.weights (ref * c.nCh + ch)⟩ : Chan) ∈ chans c ref sol := by
    intro ch hch
    apply (mem_chans c ref sol _).mpr
    refine ⟨ch, hch, ?_⟩
    rw [show sol ch = some 1 from hone ch hch]
    simp [chanOf]
  have hnn := chans_nonneg c ref hgw sol
  have hW : 0 < ((chans c ref sol).map Chan.weight).sum :=
    sum_gt _ _ hnn _ (hm ch1 hc1) (lt_of_le_of_ne (hgw ch1 hc1) (Ne.symm hw1))
  have huniq : ∀ i : Nat, i < 128 → ¬ Fits (chans c ref sol) (-40000e6 + (i : ℝ) * 312.5e6) := by
    intro i hi
    have h := grid_unique (chans c ref sol) 0 0 (fun z hz _ => by rw [hphase z hz]; simpa using same_refl 0) _ _ (hm ch1 hc1)
      (hm ch2 hc2) hw1 hw2 x y hx hy hx0 hy0 hxy (-40000000000 + (i : ℚ) * 312500000) (by
        have : (i : ℚ) < 128 := by exact_mod_cast hi
        intro h
        linarith)
    have e : ((-40000000000 + (i : ℚ) * 312500000 : ℚ) : ℝ) = -40000e6 + (i : ℝ) * 312.5e6 := by push_cast; norm_num
    rwa [e] at h
  have hfit : (fitOne c ref sol).alpha = 0 ∧ (fitOne c ref sol).beta = 0 := by
    unfold fitOne
    have hacc : 0 ≤ defaultAccuracy := by unfold defaultAccuracy; norm_num
    by_cases ht : c.tecOnly = true
    · rw [if_pos ht]
      refine ⟨?_, rfl⟩
      show fit1 _ _ = 0
      rw [fit1_grid _ _ hacc hnn hW 128 (by norm_num) (fun z hz _ => by
        rw [hphase z hz]; norm_num; exact same_refl 0) huniq]
      norm_num
    · rw [if_neg ht]
      have := fit2_zero (chans c ref sol) defaultAccuracy 0 hacc hnn hW (fun z hz _ => hphase z hz) huniq
      unfold fitData2
      simp only
      rw [this]
      exact ⟨rfl, rfl⟩
  have hf := fitAt_eq c (referenced c s) ref d hd
  have ht : (apply c s).2.tec (ref * c.nSub + d) = 0 := by
    unfold apply
    simp only
    rw [hf, hfit.1, zero_div]
  have hp : (apply c s).2.phase (ref * c.nSub + d) = 0 := by
    unfold apply
    simp only
    rw [hf, hfit.2]
  refine ⟨ht, hp, ?_⟩
  intro ch hch
  rw [(apply_spec c s ch ref d hch href hd).1, ht, hp]
  simp

/-- C107, not met: an antenna without finite solution gets a TEC of 4.73 and solutions that are finite and belong to it; only
the weight zero of the results tells that there was no data. -/
theorem apply_missing (c : Settings) (s : Sol ℂ) (a d : Nat) (ha : a < c.nAnt) (hd : d < c.nSub)
    (h : ∀ ch, ch < c.nCh → referenced c s ch a d 0 = none) :
    (apply c s).2.tec (a * c.nSub + d) = 40000e6 / 8.44797245e9 ∧ (apply c s).2.weight (a * c.nSub + d) = 0 ∧
      (apply c s).2.error (a * c.nSub + d) = 0 ∧ ∀ ch, ch < c.nCh → ((apply c s).1 ch a d 0).isSome := by
  set sol := fun ch => referenced c s ch a d 0 with hsol
  have hw : ∀ z ∈ chans c a sol, z.weight = 0 := by
    intro z hz
    obtain ⟨ch, hch, rfl⟩ := (mem_chans c a sol z).mp hz
    rw [show sol ch = none from h ch hch]
    rfl
  have hf := fitAt_eq c (referenced c s) a d hd
  have hacc : 0 ≤ defaultAccuracy := by unfold defaultAccuracy; norm_num
  obtain ⟨f1, f2, -⟩ := fit_none (chans c a sol) defaultAccuracy 0 hw hacc
  have halpha : (fitOne c a sol).alpha = -40000e6 := by
    unfold fitOne
    by_cases ht : c.tecOnly = true
    · rw [if_pos ht]; exact f1
    · rw [if_neg ht]; exact f2
  have htot : total (chans c a sol) = 0 := by
    have : total (chans c a sol) = ((chans c a sol).map fun _ => (0 : ℝ)).sum := sum_congr _ _ _ hw
    rw [this]; simp
  refine ⟨?_, ?_, ?_, ?_⟩
  · unfold apply
    simp only
    rw [hf, halpha]
    norm_num
  · rw [apply_weight c s a d hd]
    have : (List.range c.nCh).filter (fun ch => (referenced c s ch a d 0).isSome) = [] := by
      rw [List.filter_eq_nil_iff]
      intro ch hch
      rw [h ch (List.mem_range.mp hch)]
      simp
    rw [this]; rfl
  · unfold apply
    simp only
    rw [hf, fitOne_cost, cost2_eq, htot, div_zero]
  · intro ch hch
    rw [(apply_spec c s ch a d hch ha hd).1]
    rfl

/-- C107: the order of the channel blocks and those without a finite solution do not influence the fit: the same parameters
follow from any other settings and solutions with the same frequencies, solutions and weights of the finite channel blocks. -/
theorem apply_ignores (c c' : Settings) (s s' : Sol ℂ) (a a' d d' : Nat) (hd : d < c.nSub) (hd' : d' < c'.nSub)
    (ht : c.tecOnly = c'.tecOnly)
    (h : (((List.range c.nCh).filter fun ch => (referenced c s ch a d 0).isSome).map fun ch =>
        (c.freqs ch, referenced c s ch a d 0, c.weights (a * c.nCh + ch))).Perm
      (((List.range c'.nCh).filter fun ch => (referenced c' s' ch a' d' 0).isSome).map fun ch =>
        (c'.freqs ch, referenced c' s' ch a' d' 0, c'.weights (a' * c'.nCh + ch)))) :
    (apply c s).2.tec (a * c.nSub + d) = (apply c' s').2.tec (a' * c'.nSub + d') ∧
    (apply c s).2.phase (a * c.nSub + d) = (apply c' s').2.phase (a' * c'.nSub + d') ∧
    (apply c s).2.error (a * c.nSub + d) = (apply c' s').2.error (a' * c'.nSub + d') := by
  have key : ∀ (c : Settings) (s : Sol ℂ) (a d : Nat) (f : Chan → ℝ), (∀ x, x.weight = 0 → f x = 0) →
      ((chans c a fun ch => referenced c s ch a d 0).map f).sum =
        ((((List.range c.nCh).filter fun ch => (referenced c s ch a d 0).isSome).map fun ch =>
        (c.freqs ch, referenced c s ch a d 0, c.weights (a * c.nCh + ch))).map fun x =>
          f ⟨x.1, Complex.arg (x.2.1.getD 0), x.2.2⟩).sum := by
    intro c s a d f hf
    unfold chans
    induction List.range c.nCh with
    | nil => rfl
    | cons ch l ih =>
      rw [List.map_cons, List.map_cons, List.sum_cons, ih]
      cases hs : referenced c s ch a d 0 with
      | none => rw [List.filter_cons_of_neg (by rw [hs]; simp), hf _ (by simp [hs, chanOf]), zero_add]
      | some z =>
        rw [List.filter_cons_of_pos (by rw [hs]; simp), List.map_cons, List.map_cons, List.sum_cons]
        simp [chanOf, hs]
  have hs : SameData (chans c a fun ch => referenced c s ch a d 0) (chans c' a' fun ch => referenced c' s' ch a' d' 0) := by
    intro f hf
    rw [key c s a d f hf, key c' s' a' d' f hf]
    exact (h.map _).sum_eq
  obtain ⟨h1, h2, h3, h4⟩ := fit_ignores _ _ hs defaultAccuracy 0
  unfold apply
  simp only
  rw [fitAt_eq c _ a d hd, fitAt_eq c' _ a' d' hd']
  unfold fitOne
  rw [← ht]
  by_cases hto : c.tecOnly = true
  · rw [if_pos hto, if_pos hto]
    refine ⟨?_, rfl, h3⟩
    simp only [fitData1]; rw [h1]
  · rw [if_neg hto, if_neg hto]
    refine ⟨?_, ?_, h4⟩
    · simp only [fitData2]; rw [h2]
    · simp only [fitData2]; rw [h2]

/-! ## Examples -/

/-- One antenna with three channel blocks, of which the second has no solution, and the same without that block. -/
example (u v : ℂ) : (apply ⟨3, 1, 1, fun ch => 100e6 + ch, fun _ => 1, false, false⟩
      (fun ch _ _ _ => if ch = 1 then none else some (if ch = 0 then u else v))).2.tec 0 =
    (apply ⟨2, 1, 1, fun ch => 100e6 + 2 * ch, fun _ => 1, false, false⟩
      (fun ch _ _ _ => some (if ch = 0 then u else v))).2.tec 0 := by
  have := (apply_ignores ⟨3, 1, 1, fun ch => 100e6 + ch, fun _ => 1, false, false⟩
    ⟨2, 1, 1, fun ch => 100e6 + 2 * ch, fun _ => 1, false, false⟩
    (fun ch _ _ _ => if ch = 1 then none else some (if ch = 0 then u else v))
    (fun ch _ _ _ => some (if ch = 0 then u else v)) 0 0 0 0 (by norm_num) (by norm_num) rfl (by
      simp [referenced, List.range_succ])).1
  simpa using this

/-- One channel block with the solution 2, so with a perfect fit of phase zero or not; the error tells. -/
example (z : ℂ) (hz : z ≠ 0) :
    0 ≤ (apply ⟨1, 1, 1, fun _ => 150e6, fun _ => 1, true, false⟩ (fun _ _ _ _ => some z)).2.error 0 := by
  have := (apply_error ⟨1, 1, 1, fun _ => 150e6, fun _ => 1, true, false⟩ (fun _ _ _ _ => some z) 0 0 (by norm_num) (by norm_num)
    (fun _ _ => by simp) (by
      rw [apply_weight _ _ 0 0 (by norm_num)]
      simp [referenced]) (by intro ch _; simp [referenced, hz])).1
  simpa using this

/-- Two channel blocks, two antennas and two directions; the second antenna has no finite solution in the second direction. -/
noncomputable def exSettings : Settings := ⟨2, 2, 2, fun ch => if ch = 0 then 150e6 else 200e6, fun _ => 1, false, true⟩

noncomputable def exSol : Sol ℂ := fun ch a d _ => if a = 1 ∧ d = 1 then none else some (ch + a + 2)

private theorem exSol_ref (ref : Nat) (h : IsReference 2 2 exSol 0 ref) : ref = 0 := by
  have hg : (2 : Nat) < 5 * ((List.range 2).filter fun c => (exSol c 0 0 0).isSome).length := by
    simp [exSol, List.range_succ]
  rcases h with ⟨-, -, h⟩ | ⟨h, -⟩
  · by_contra hne
    exact h 0 (by omega) hg
  · exact h

example : (apply exSettings exSol).2.tec 1 = 0 ∧ (apply exSettings exSol).1 1 0 1 0 = some 1 := by
  obtain ⟨ref, h1, h2⟩ := apply_reference exSettings exSol rfl
  have h0 := exSol_ref ref h1
  subst h0
  obtain ⟨h3, -, h4⟩ := h2 1 (by simp [exSettings]) (by simp [exSettings]) (fun _ _ => by simp [exSettings]) 0 1
    (by simp [exSettings]) (by simp [exSettings]) (by simp [exSettings]) (by simp [exSettings]) 150000000 200000000
    (by simp [exSettings]; norm_num) (by simp [exSettings]; norm_num) (by norm_num) (by norm_num) (by norm_num)
  exact ⟨by simpa [exSettings] using h3, h4 1 (by simp [exSettings])⟩

example : (apply exSettings exSol).2.tec 3 = 40000e6 / 8.44797245e9 := by
  have hm : ∀ ch, ch < 2 → referenced exSettings exSol ch 1 1 0 = none := by
    intro ch hch
    obtain ⟨ref, h1, h2⟩ := reference_spec 2 2 2 1 exSol (p := 0) (by norm_num)
    have h0 := exSol_ref ref h1
    subst h0
    have := (h2 ch hch 1 (by norm_num)).2 1 (by norm_num) (by norm_num)
    unfold referenced
    rw [if_pos (by rfl)]
    simp only [exSettings]
    rw [show Constraints.applyReference 2 2 2 1 exSol ch 1 1 0 = Constraints.div (exSol ch 1 1 0) (exSol ch 0 1 0) by
      convert this]
    simp [exSol, Constraints.div]
  have := (apply_missing exSettings exSol 1 1 (by simp [exSettings]) (by simp [exSettings]) hm).1
  simpa [exSettings] using this

example : ∃ z, (apply exSettings exSol).1 0 1 0 0 = some z ∧ ‖z‖ = 1 :=
  apply_modulus exSettings exSol 0 1 0 (by simp [exSettings]) (by simp [exSettings]) (by simp [exSettings])

/-! ## GainCal -/

/-- A TEC and a phase describe a solution at a frequency: this is how they are applied, as documented for the fitters in
pythondp3/pyfitters.cc:133-135. -/
def Describes (values : ℝ × ℝ) (nu : ℝ) (solution : ℂ) : Prop :=
  solution = Complex.exp (((-8.44797245e9 * values.1 / nu + values.2 : ℝ) : ℂ) * Complex.I)

/-- The conjugate solution, GainCal.cc:801-808, of a fitted phase. -/
private theorem conj_exp (x : ℝ) : (starRingEnd ℂ) (Complex.exp (x * Complex.I)) = Complex.exp (((-x : ℝ) : ℂ) * Complex.I) := by
  rw [← Complex.exp_conj]
  congr 1
  rw [map_mul, Complex.conj_ofReal, Complex.conj_I]
  push_cast
  ring

theorem station_get (tecAndPhase : Bool) (beta0 : ℝ) (cells : List Cell)
    (hn : 1 < (cells.filter fun c => c.value.isSome).length) (i : Nat) (c : Cell) (hc : cells[i]? = some c)
    (hb : tecAndPhase = false → beta0 = 0) :
    ∃ x : ℝ, (fitStation tecAndPhase beta0 cells).2[i]? = some (Complex.exp (x * Complex.I)) ∧
      SamePhase x ((fitStation tecAndPhase beta0 cells).1.1 / c.nu + (fitStation tecAndPhase beta0 cells).1.2) := by
  have hnu : (cellChan c).nu = c.nu := by
    unfold cellChan
    split <;> rfl
  unfold fitStation
  rw [if_pos hn]
  simp only
  cases tecAndPhase with
  | false =>
    refine ⟨wrapped1 c.nu (fit1 (cells.map cellChan) defaultAccuracy), ?_, ?_⟩
    · simp only [Bool.false_eq_true, if_false, fitData1]
      rw [List.getElem?_map, List.getElem?_map, List.getElem?_map, hc]
      simp [hnu]
    · simp only [Bool.false_eq_true, if_false, fitData1]
      rw [hb rfl, add_zero]
      exact fmod_samePhase _
  | true =>
    refine ⟨func2 c.nu (fit2 (cells.map cellChan) defaultAccuracy beta0).1 (fit2 (cells.map cellChan) defaultAccuracy beta0).2, ?_, ?_⟩
    · simp only [if_true, fitData2]
      rw [List.getElem?_map, List.getElem?_map, List.getElem?_map, hc]
      simp [hnu]
    · simp only [if_true, fitData2]
      exact same_refl _

/-- C108: the TEC and the phase in a ParmDB describe the solutions, which are the conjugates of what is fitted, for stations
with at least two usable frequency cells. -/
theorem parmdb_describes (tecAndPhase : Bool) (beta0 : ℝ) (cells : List Cell)
    (hn : 1 < (cells.filter fun c => c.value.isSome).length) (i : Nat) (c : Cell) (hc : cells[i]? = some c)
    (hb : tecAndPhase = false → beta0 = 0) :
    ∃ z, (fitStation tecAndPhase beta0 cells).2[i]? = some z ∧
      Describes (parmdbValues (fitStation tecAndPhase beta0 cells).1) c.nu ((starRingEnd ℂ) z) := by
  obtain ⟨x, h1, h2⟩ := station_get tecAndPhase beta0 cells hn i c hc hb
  refine ⟨_, h1, ?_⟩
  unfold Describes parmdbValues
  rw [conj_exp]
  apply exp_same
  obtain ⟨k, hk⟩ := h2
  refine ⟨-k, ?_⟩
  rw [hk]
  push_cast
  ring

/-- C108: the same holds for the TEC in an H5Parm if only the TEC is fitted. -/
theorem h5_describes_tec (cells : List Cell)
    (hn : 1 < (cells.filter fun c => c.value.isSome).length) (i : Nat) (c : Cell) (hc : cells[i]? = some c) :
    ∃ z, (fitStation false 0 cells).2[i]? = some z ∧
      Describes ((h5Values (fitStation false 0 cells).1).1, 0) c.nu ((starRingEnd ℂ) z) := by
  obtain ⟨x, h1, h2⟩ := station_get false 0 cells hn i c hc fun _ => rfl
  refine ⟨_, h1, ?_⟩
  have hb : (fitStation false 0 cells).1.2 = 0 := by
    unfold fitStation
    rw [if_pos hn]
    rfl
  unfold Describes h5Values
  rw [conj_exp]
  apply exp_same
  obtain ⟨k, hk⟩ := h2
  refine ⟨-k, ?_⟩
  rw [hk, hb]
  push_cast
  ring

/-- C108: if TEC and phase are fitted, the values in the H5Parm describe the solutions only if alpha and beta are the same
phase: the phase that is written is minus alpha. -/
theorem h5_describes_iff (beta0 : ℝ) (cells : List Cell)
    (hn : 1 < (cells.filter fun c => c.value.isSome).length) (i : Nat) (c : Cell) (hc : cells[i]? = some c) :
    ∃ z, (fitStation true beta0 cells).2[i]? = some z ∧
      (Describes (h5Values (fitStation true beta0 cells).1) c.nu ((starRingEnd ℂ) z) ↔
        SamePhase (fitStation true beta0 cells).1.1 (fitStation true beta0 cells).1.2) := by
  obtain ⟨x, h1, k, hk⟩ := station_get true beta0 cells hn i c hc (by simp)
  refine ⟨_, h1, ?_⟩
  unfold Describes h5Values
  rw [conj_exp]
  simp only
  constructor
  · intro h
    obtain ⟨n, hn⟩ := Complex.exp_eq_exp_iff_exists_int.mp h
    refine ⟨k + n, ?_⟩
    have h3 : ((-x : ℝ) : ℂ) * Complex.I =
        ((-8.44797245e9 * ((fitStation true beta0 cells).1.1 / 8.44797245e9) / c.nu + -(fitStation true beta0 cells).1.1 +
          2 * π * n : ℝ) : ℂ) * Complex.I := by
      rw [hn]; push_cast; ring
    have h4 : -x = -8.44797245e9 * ((fitStation true beta0 cells).1.1 / 8.44797245e9) / c.nu +
        -(fitStation true beta0 cells).1.1 + 2 * π * n := by
      exact_mod_cast mul_right_cancel₀ Complex.I_ne_zero h3
    rw [hk] at h4
    push_cast
    have h5 : -8.44797245e9 * ((fitStation true beta0 cells).1.1 / 8.44797245e9) / c.nu =
        -((fitStation true beta0 cells).1.1 / c.nu) := by ring
    rw [h5] at h4
    linarith
  · rintro ⟨n, hn⟩
    apply exp_same
    refine ⟨n - k, ?_⟩
    rw [hk]
    push_cast
    have h5 : -8.44797245e9 * ((fitStation true beta0 cells).1.1 / 8.44797245e9) / c.nu =
        -((fitStation true beta0 cells).1.1 / c.nu) := by ring
    rw [h5]
    linarith

/-- Two frequency cells with the phases of alpha = -4e10. -/
noncomputable def exCells : List Cell :=
  [⟨150e6, some (Complex.exp ((-40000e6 / 150e6 : ℝ) * Complex.I), 1), 1⟩,
    ⟨200e6, some (Complex.exp ((-40000e6 / 200e6 : ℝ) * Complex.I), 1), 1⟩]

private theorem arg_same (x : ℝ) : SamePhase (Complex.arg (Complex.exp (x * Complex.I))) x := by
  have h : Complex.exp (Complex.arg (Complex.exp (x * Complex.I)) * Complex.I) = Complex.exp (x * Complex.I) := by
    have := Complex.norm_mul_exp_arg_mul_I (Complex.exp (x * Complex.I))
    rwa [Complex.norm_exp_ofReal_mul_I, Complex.ofReal_one, one_mul] at this
  obtain ⟨n, hn⟩ := Complex.exp_eq_exp_iff_exists_int.mp h
  refine ⟨n, ?_⟩
  have h3 : ((Complex.arg (Complex.exp (x * Complex.I)) : ℝ) : ℂ) * Complex.I = ((x + 2 * π * n : ℝ) : ℂ) * Complex.I := by
    rw [hn]; push_cast; ring
  exact_mod_cast mul_right_cancel₀ Complex.I_ne_zero h3

/-- C108, not met: with TEC and phase the values in the H5Parm do not describe the solutions. For a station with alpha = -4e10 and
beta = 0 the phase in the H5Parm is 4e10. -/
theorem h5_wrong : ∃ z, (fitStation true 0 exCells).2[0]? = some z ∧
    ¬ Describes (h5Values (fitStation true 0 exCells).1) 150e6 ((starRingEnd ℂ) z) := by
  have hp := Real.two_le_pi
  have hn : 1 < (exCells.filter fun c => c.value.isSome).length := by simp [exCells]
  obtain ⟨z, h1, h2⟩ := h5_describes_iff 0 exCells hn 0 _ rfl
  refine ⟨z, h1, fun h => ?_⟩
  have hs := h2.mp h
  set data := exCells.map cellChan with hdata
  have hd : data = [⟨150e6, Complex.arg (Complex.exp ((-40000e6 / 150e6 : ℝ) * Complex.I)), 1⟩,
      ⟨200e6, Complex.arg (Complex.exp ((-40000e6 / 200e6 : ℝ) * Complex.I)), 1⟩] := rfl
  have hex : ∀ c ∈ data, c.weight ≠ 0 → SamePhase c.phase (-40000e6 / c.nu + 0) := by
    intro c hc _
    rw [add_zero]
    rw [hd] at hc
    simp only [List.mem_cons, List.not_mem_nil, or_false] at hc
    rcases hc with rfl | rfl <;> exact arg_same _
  have hw : ∀ c ∈ data, 0 ≤ c.weight := by rw [hd]; simp
  have hW : 0 < (data.map Chan.weight).sum := by rw [hd]; simp
  obtain ⟨b1, b2⟩ := best2_first data hw hW 0 0 hex (by rw [sub_zero]; exact not_pi)
  have hmean : meanInv data = 7 / 1200e6 := by
    rw [hd]
    simp [meanInv, total]
    norm_num
  have hfit := fit2_grid data defaultAccuracy 0 (-40000e6) 0 (by unfold defaultAccuracy; norm_num) (ne_of_gt hW) hex
    (by
      intro c hc _
      rw [hmean]
      rw [hd] at hc
      simp only [List.mem_cons, List.not_mem_nil, or_false] at hc
      rcases hc with rfl | rfl
      · norm_num; linarith
      · norm_num; linarith) (by rw [b1, grid_eq]; simp) b2
  have hst : (fitStation true 0 exCells).1 = fit2 data defaultAccuracy 0 := by
    unfold fitStation
    rw [if_pos hn]
    rfl
  rw [hst, hfit.1] at hs
  obtain ⟨k, hk⟩ := same_trans hs hfit.2
  have hk0 : (k : ℝ) ≠ 0 := by
    intro h0
    rw [h0] at hk
    norm_num at hk
  apply irrational_pi
  refine ⟨-40000000000 / (2 * k), ?_⟩
  push_cast
  field_simp
  norm_num at hk
  linarith

/-- C108: flagged and failed frequency cells have no influence on the TEC and phase of a station. -/
theorem station_ignores (tecAndPhase : Bool) (beta0 : ℝ) (cells : List Cell) :
    (fitStation tecAndPhase beta0 cells).1 = (fitStation tecAndPhase beta0 (cells.filter fun c => c.value.isSome)).1 := by
  have hs : SameData (cells.map cellChan) ((cells.filter fun c => c.value.isSome).map cellChan) := by
    intro f hf
    induction cells with
    | nil => rfl
    | cons c l ih =>
      cases hc : c.value with
      | none =>
        rw [List.filter_cons_of_neg (by rw [hc]; simp), List.map_cons, List.map_cons, List.sum_cons, ih,
          hf (cellChan c) (by simp [cellChan, hc]), zero_add]
      | some z =>
        rw [List.filter_cons_of_pos (by rw [hc]; simp), List.map_cons, List.map_cons, List.sum_cons, ih, List.map_cons,
          List.map_cons, List.sum_cons]
  obtain ⟨h1, h2, -, -⟩ := fit_ignores _ _ hs defaultAccuracy beta0
  unfold fitStation
  rw [show ((cells.filter fun c => c.value.isSome).filter fun c => c.value.isSome) = cells.filter fun c => c.value.isSome by
    rw [List.filter_filter]; simp]
  by_cases hn : 1 < (cells.filter fun c => c.value.isSome).length
  · rw [if_pos hn, if_pos hn]
    cases tecAndPhase with
    | false => simp only [Bool.false_eq_true, if_false, fitData1]; rw [h1]
    | true => simp only [if_true, fitData2]; rw [h2]
  · rw [if_neg hn, if_neg hn]

example : (fitStation true 0 (⟨100e6, none, 5⟩ :: exCells)).1 = (fitStation true 0 exCells).1 :=
  station_ignores true 0 (⟨100e6, none, 5⟩ :: exCells)

/-- C108: a station with at most one usable frequency cell has no TEC and keeps its solutions. -/
theorem station_few (tecAndPhase : Bool) (beta0 : ℝ) (cells : List Cell)
    (hn : (cells.filter fun c => c.value.isSome).length ≤ 1) :
    (fitStation tecAndPhase beta0 cells).1 = (0, 0) ∧ (fitStation tecAndPhase beta0 cells).2 = cells.map Cell.solution := by
  unfold fitStation
  rw [if_neg (by omega)]
  exact ⟨rfl, rfl⟩

/-- C108, not met: the values of such a station do not describe its solution if that is not one. -/
theorem station_few_wrong : ∃ cells : List Cell, (cells.filter fun c => c.value.isSome).length ≤ 1 ∧
    ∃ z, (fitStation true 0 cells).2[0]? = some z ∧
      ¬ Describes (parmdbValues (fitStation true 0 cells).1) 150e6 ((starRingEnd ℂ) z) := by
  refine ⟨[⟨150e6, some (-1, 1), -1⟩], by simp, -1, by simp [fitStation], ?_⟩
  rw [(station_few true 0 [⟨150e6, some (-1, 1), -1⟩] (by simp)).1]
  unfold Describes parmdbValues
  simp
  norm_num

end DP3.Tec
