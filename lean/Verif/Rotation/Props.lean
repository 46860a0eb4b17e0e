import Verif.Rotation.Antenna
import Mathlib.Data.List.Nodup
import Mathlib.Data.List.Induction
import Mathlib.Tactic.Push

/-!
# The rotation and diagonal constraint on all solutions (C102, C103)
-/

namespace DP3.Rotation

open Real

set_option linter.unusedSectionVars false
set_option linter.unusedSimpArgs false

/-! ## Indices -/

/-- The part of an array of `p` values per point that belongs to point `i`. -/
def Block (i p k : Nat) : Prop := i * p ≤ k ∧ k < i * p + p

/-- C102, C103. The indices are within the array of shape (antennas, sub-solutions, channel blocks) and differ. -/
theorem index_spec (c : Config) (ant sub ch ant' sub' ch' : Nat) (hs : sub < c.nSub) (hc : ch < c.nCh) (hs' : sub' < c.nSub)
    (hc' : ch' < c.nCh) :
    (ant < c.nAnt → index c ant sub ch < c.nAnt * c.nSub * c.nCh) ∧
    (index c ant sub ch = index c ant' sub' ch' → ant = ant' ∧ sub = sub' ∧ ch = ch') := by
  unfold index
  constructor
  · intro ha
    have h1 : ant * c.nSub + sub + 1 ≤ c.nAnt * c.nSub := by
      calc ant * c.nSub + sub + 1 ≤ ant * c.nSub + c.nSub := by omega
        _ = (ant + 1) * c.nSub := (Nat.succ_mul _ _).symm
        _ ≤ c.nAnt * c.nSub := Nat.mul_le_mul_right _ ha
    calc (ant * c.nSub + sub) * c.nCh + ch < (ant * c.nSub + sub) * c.nCh + c.nCh := by omega
      _ = (ant * c.nSub + sub + 1) * c.nCh := (Nat.succ_mul _ _).symm
      _ ≤ c.nAnt * c.nSub * c.nCh := Nat.mul_le_mul_right _ h1
  · intro h
    have key : ∀ n a b x y : Nat, x < n → y < n → a * n + x = b * n + y → a = b ∧ x = y := by
      intro n a b x y hx hy he
      have hn : 0 < n := by omega
      have h1 := congrArg (· / n) he
      have h2 := congrArg (· % n) he
      simp only [Nat.mul_comm _ n, Nat.mul_add_div hn, Nat.div_eq_of_lt hx, Nat.div_eq_of_lt hy, Nat.mul_add_mod,
        Nat.mod_eq_of_lt hx, Nat.mod_eq_of_lt hy] at h1 h2
      omega
    obtain ⟨h1, h2⟩ := key _ _ _ _ _ hc hc' h
    obtain ⟨h3, h4⟩ := key _ _ _ _ _ hs hs' h1
    exact ⟨h3, h4, h2⟩

private theorem block_eq {i i' p k : Nat} (h : Block i p k) (h' : Block i' p k) : i = i' := by
  unfold Block at h h'
  rcases Nat.lt_trichotomy i i' with hl | hl | hl
  · have : (i + 1) * p ≤ i' * p := Nat.mul_le_mul_right _ hl
    rw [Nat.succ_mul] at this
    omega
  · exact hl
  · have : (i' + 1) * p ≤ i * p := Nat.mul_le_mul_right _ hl
    rw [Nat.succ_mul] at this
    omega

/-! ## Weights -/

private def Upd (cond : Nat → Prop) (old new : Nat → ℝ) : Prop :=
  ∀ k, (cond k → new k = -1) ∧ (¬ cond k → new k = old k)

private theorem Upd.trans {c1 c2 : Nat → Prop} {w1 w2 w3 : Nat → ℝ} (h1 : Upd c1 w1 w2) (h2 : Upd c2 w2 w3) :
    Upd (fun k => c1 k ∨ c2 k) w1 w3 := by
  intro k
  constructor
  · intro h
    by_cases hk : c2 k
    · exact (h2 k).1 hk
    · rw [(h2 k).2 hk]
      exact (h1 k).1 (h.resolve_right hk)
  · intro h
    rw [not_or] at h
    rw [(h2 k).2 h.2, (h1 k).2 h.1]

private theorem Upd.congr {c1 c2 : Nat → Prop} {w1 w2 : Nat → ℝ} (h1 : Upd c1 w1 w2) (h : ∀ k, c1 k ↔ c2 k) :
    Upd c2 w1 w2 := by
  have : c1 = c2 := funext fun k => propext (h k)
  rwa [this] at h1

private theorem upd_negative (p i : Nat) (w : Nat → ℝ) : Upd (Block i p) w (negative p i w) := by
  intro k
  unfold negative Block
  exact ⟨fun h => if_pos h, fun h => if_neg h⟩

private theorem upd_channel (c : Config) (p ch : Nat) (w : Nat → ℝ) :
    Upd (fun k => ∃ ant < c.nAnt, Block (ant * c.nCh + ch) p k) w (setChannelWeights c p ch w) := by
  unfold setChannelWeights
  generalize c.nAnt = n
  induction n with
  | zero => intro k; simp
  | succ n ih =>
    rw [List.range_succ, List.foldl_append, List.foldl_cons, List.foldl_nil]
    refine (ih.trans (upd_negative p (n * c.nCh + ch) _)).congr fun k => ⟨?_, ?_⟩
    · rintro (⟨a, ha, h⟩ | h)
      · exact ⟨a, by omega, h⟩
      · exact ⟨n, by omega, h⟩
    · rintro ⟨a, ha, h⟩
      rcases Nat.lt_succ_iff_lt_or_eq.mp ha with h1 | h1
      · exact .inl ⟨a, h1, h⟩
      · subst h1; exact .inr h

/-- The changes of the weights of all results, for a condition on the number of polarizations and the index. -/
private structure UpdAll (c : Config) (cond : Nat → Nat → Prop) (s s' : State) : Prop where
  rot : Upd (cond 1) s.rotation.weights s'.rotation.weights
  amp : hasAmplitude c.mode = true → Upd (cond (nPol c.mode)) s.amplitude.weights s'.amplitude.weights
  phase : hasPhase c.mode = true → Upd (cond (nPol c.mode)) s.phase.weights s'.phase.weights

private theorem UpdAll.refl (c : Config) (s : State) : UpdAll c (fun _ _ => False) s s :=
  ⟨fun k => by simp, fun _ k => by simp, fun _ k => by simp⟩

private theorem UpdAll.trans {c : Config} {c1 c2 : Nat → Nat → Prop} {s1 s2 s3 : State} (h1 : UpdAll c c1 s1 s2)
    (h2 : UpdAll c c2 s2 s3) : UpdAll c (fun p k => c1 p k ∨ c2 p k) s1 s3 :=
  ⟨h1.rot.trans h2.rot, fun h => (h1.amp h).trans (h2.amp h), fun h => (h1.phase h).trans (h2.phase h)⟩

private theorem UpdAll.congr {c : Config} {c1 c2 : Nat → Nat → Prop} {s1 s2 : State} (h1 : UpdAll c c1 s1 s2)
    (h : ∀ p k, c1 p k ↔ c2 p k) : UpdAll c c2 s1 s2 :=
  ⟨h1.rot.congr (h 1), fun hh => (h1.amp hh).congr (h _), fun hh => (h1.phase hh).congr (h _)⟩

private theorem UpdAll.map (c : Config) (cond : Nat → Nat → Prop) (f : Nat → (Nat → ℝ) → Nat → ℝ)
    (h : ∀ p w, Upd (cond p) w (f p w)) (s : State) : UpdAll c cond s (mapWeights c f s) := by
  refine ⟨h 1 _, fun hh => ?_, fun hh => ?_⟩
  · simp only [mapWeights, hh, if_true]; exact h _ _
  · simp only [mapWeights, hh, if_true]; exact h _ _

/-! ## Values -/

/-- The first or the second of a diagonal. -/
def comp (p : Nat) (d : ℂ × ℂ) : ℂ := if p = 0 then d.1 else d.2

private theorem store_block (mode : Mode) (i : Nat) (f : ℂ → ℝ) (d : ℂ × ℂ) (vals : Nat → ℝ) (p : Nat) (hp : p < nPol mode) :
    store mode i f d vals (i * nPol mode + p) = f (comp p d) := by
  unfold store
  have h2 : nPol mode = 2 ∨ nPol mode = 1 := by cases mode <;> simp [nPol]
  rcases h2 with h2 | h2
  · rw [if_pos h2, h2]
    rw [h2] at hp
    have : p = 0 ∨ p = 1 := by omega
    rcases this with rfl | rfl
    · rw [Function.update_of_ne (by omega), Nat.add_zero, Function.update_self]; rfl
    · rw [Function.update_self]; rfl
  · rw [if_neg (by omega), h2]
    have : p = 0 := by omega
    subst this
    rw [Nat.mul_one, Nat.add_zero, Function.update_self]; rfl

private theorem store_frame (mode : Mode) (i : Nat) (f : ℂ → ℝ) (d : ℂ × ℂ) (vals : Nat → ℝ) (k : Nat)
    (h : ¬ Block i (nPol mode) k) : store mode i f d vals k = vals k := by
  unfold store
  unfold Block at h
  have h2 : nPol mode = 2 ∨ nPol mode = 1 := by cases mode <;> simp [nPol]
  rcases h2 with h2 | h2
  · rw [if_pos h2]
    rw [h2] at h
    rw [Function.update_of_ne (by omega), Function.update_of_ne (by omega)]
  · rw [if_neg (by omega)]
    rw [h2] at h
    rw [Function.update_of_ne (by omega)]

private theorem limited_fst (v : ℂ) (m o : ℝ) : (limited v m o).1 = v := by
  unfold limited
  split
  · obtain ⟨b, h, -⟩ := limit_spec 1 (by norm_num) v m 5
    rw [h]; rfl
  · rfl

/-- The amplitude is more than a factor five away from the mean. -/
def Out (mean : ℝ) (v : ℂ) : Prop := 0 < mean ∧ (‖v‖ < mean / 5 ∨ 5 * mean < ‖v‖)

private theorem limited_snd (v : ℂ) (m o : ℝ) : (limited v m o).2 = true ↔ 0 < o ∧ Out m v := by
  unfold limited
  split
  · rename_i h
    obtain ⟨b, hb, hi⟩ := limit_spec 1 (by norm_num) v m 5
    rw [hb]
    show b = true ↔ _
    rw [hi]
    exact ⟨fun x => ⟨h, x⟩, fun x => x.2⟩
  · rename_i h
    simp [h]

private noncomputable def refOf (col : Nat → Option J) (k : Nat) : Option ℝ := (List.range k).findSome? fun a => (col a).map fitAngle

private theorem refOf_succ (col : Nat → Option J) (k : Nat) :
    refOf col (k + 1) = (refOf col k).or ((col k).map fitAngle) := by
  unfold refOf
  rw [List.range_succ, List.findSome?_append]
  congr 1
  cases h : (col k).map fitAngle <;> simp [h]

private noncomputable def angleOf (c : Config) (col : Nat → Option J) (ant : Nat) (j : J) : ℝ :=
  referenced c (if c.reference then refOf col ant else none) (fitAngle j)

private noncomputable def newSol (c : Config) (col : Nat → Option J) (ant : Nat) : Option J :=
  (col ant).map fun j => rebuild (constrain c.mode (fitDiagonal j)) (angleOf c col ant j)

private theorem newSol_none (c : Config) (col : Nat → Option J) (ant : Nat) (h : col ant = none) : newSol c col ant = none := by
  unfold newSol; rw [h]; rfl

private theorem newSol_some (c : Config) (col : Nat → Option J) (ant : Nat) (j : J) (h : col ant = some j) :
    newSol c col ant = some (rebuild (constrain c.mode (fitDiagonal j)) (angleOf c col ant j)) := by
  unfold newSol; rw [h]; rfl

private structure Stored (c : Config) (col : Nat → Option J) (sub ch n : Nat) (f : ℂ → ℝ) (old new : Nat → ℝ) : Prop where
  val : ∀ ant < n, ∀ j, col ant = some j → ∀ p < nPol c.mode,
    new (index c ant sub ch * nPol c.mode + p) = f (comp p (constrain c.mode (fitDiagonal j)))
  frame : ∀ k, (∀ ant < n, ¬ Block (index c ant sub ch) (nPol c.mode) k) → new k = old k

/-- An antenna of this channel block and sub-solution makes it count as diverged. -/
def DivergedAt (c : Config) (col : Nat → Option J) (ant : Nat) : Prop :=
  ∃ j, col ant = some j ∧ (Out (meanAbs c Prod.fst col) (fitDiagonal j).1 ∨
    (0 < meanAbs c Prod.snd col ∧ Out (meanAbs c Prod.fst col) (fitDiagonal j).2))

private structure AInv (c : Config) (s : State) (col : Nat → Option J) (sub ch n : Nat) (l : Loop) : Prop where
  sol : ∀ ch' ant' sub', l.state.sol ch' ant' sub' =
    if ch' = ch ∧ sub' = sub ∧ ant' < n then newSol c col ant' else s.sol ch' ant' sub'
  angle0 : l.angle0 = if c.reference then refOf col n else none
  div : l.diverged = true ↔ ∃ ant < n, DivergedAt c col ant
  weights : UpdAll c (fun p k => ∃ ant < n, col ant = none ∧ Block (index c ant sub ch) p k) s l.state
  rot : ∀ ant < n, ∀ j, col ant = some j → l.state.rotation.vals (index c ant sub ch) = angleOf c col ant j
  rotF : ∀ k, (∀ ant < n, k ≠ index c ant sub ch) → l.state.rotation.vals k = s.rotation.vals k
  amp : hasAmplitude c.mode = true → Stored c col sub ch n (fun z => ‖z‖) s.amplitude.vals l.state.amplitude.vals
  phase : hasPhase c.mode = true → Stored c col sub ch n Complex.arg s.phase.vals l.state.phase.vals

private theorem Stored.none {c : Config} {col : Nat → Option J} {sub ch n : Nat} {f : ℂ → ℝ} {old new : Nat → ℝ}
    (h : Stored c col sub ch n f old new) (hn : col n = none) : Stored c col sub ch (n + 1) f old new := by
  refine ⟨fun ant ha j hj p hp => ?_, fun k hk => h.frame k fun ant ha => hk ant (by omega)⟩
  rcases Nat.lt_succ_iff_lt_or_eq.mp ha with h1 | h1
  · exact h.val ant h1 j hj p hp
  · subst h1; rw [hn] at hj; exact absurd hj (by simp)

private theorem Stored.some {c : Config} {col : Nat → Option J} {sub ch n : Nat} {f : ℂ → ℝ} {old new : Nat → ℝ}
    (h : Stored c col sub ch n f old new) (hs : sub < c.nSub) (hc : ch < c.nCh) (j : J) (hn : col n = some j) :
    Stored c col sub ch (n + 1) f old (store c.mode (index c n sub ch) f (constrain c.mode (fitDiagonal j)) new) := by
  refine ⟨fun ant ha j' hj p hp => ?_, fun k hk => ?_⟩
  · rcases Nat.lt_succ_iff_lt_or_eq.mp ha with h1 | h1
    · rw [store_frame]
      · exact h.val ant h1 j' hj p hp
      · intro hb
        have := block_eq hb (show Block (index c ant sub ch) _ _ from ⟨by omega, by omega⟩)
        have := ((index_spec c n sub ch ant sub ch hs hc hs hc).2 this).1
        omega
    · subst h1
      rw [hn] at hj
      cases hj
      exact store_block _ _ _ _ _ _ hp
  · rw [store_frame _ _ _ _ _ _ (hk n (by omega))]
    exact h.frame k fun ant ha => hk ant (by omega)

private theorem ainv (c : Config) (s : State) (sub ch : Nat) (hs : sub < c.nSub) (hc : ch < c.nCh)
    (col : Nat → Option J) (hcol : ∀ a, s.sol ch a sub = col a) (n : Nat) :
    AInv c s col sub ch n
      ((List.range n).foldl (applyAntenna c (meanAbs c Prod.fst col) (meanAbs c Prod.snd col) sub ch)
        ⟨s, none, false⟩) := by
  induction n with
  | zero =>
    refine ⟨fun _ _ _ => by simp, by simp [refOf], by simp, ?_, by simp, fun _ _ => rfl, fun _ => ⟨by simp, fun _ _ => rfl⟩,
      fun _ => ⟨by simp, fun _ _ => rfl⟩⟩
    exact (UpdAll.refl c s).congr fun p k => by simp
  | succ n ih =>
    rw [List.range_succ, List.foldl_append, List.foldl_cons, List.foldl_nil]
    generalize (List.range n).foldl (applyAntenna c (meanAbs c Prod.fst col)
        (meanAbs c Prod.snd col) sub ch) ⟨s, none, false⟩ = l at ih
    have hsol : l.state.sol ch n sub = col n := by rw [ih.sol, if_neg (by omega), hcol]
    cases hj : col n with
    | none =>
      simp only [applyAntenna, hsol, hj]
      refine ⟨fun ch' ant' sub' => ?_, ?_, ?_, ?_, ?_, ?_, fun hh => (ih.amp hh).none hj, fun hh => (ih.phase hh).none hj⟩
      · show l.state.sol ch' ant' sub' = _
        rw [ih.sol]
        by_cases h : ch' = ch ∧ sub' = sub ∧ ant' = n
        · obtain ⟨rfl, rfl, rfl⟩ := h
          rw [if_neg (by omega), if_pos ⟨rfl, rfl, by omega⟩, hcol, hj, newSol_none _ _ _ hj]
        · by_cases h2 : ch' = ch ∧ sub' = sub ∧ ant' < n
          · rw [if_pos h2, if_pos (by omega)]
          · rw [if_neg h2, if_neg (by omega)]
      · rw [refOf_succ]
        show l.angle0 = _
        rw [ih.angle0, hj]
        simp
      · show l.diverged = true ↔ _
        rw [ih.div]
        constructor
        · rintro ⟨a, ha, h⟩; exact ⟨a, by omega, h⟩
        · rintro ⟨a, ha, h⟩
          rcases Nat.lt_succ_iff_lt_or_eq.mp ha with h1 | h1
          · exact ⟨a, h1, h⟩
          · subst h1
            obtain ⟨j, h2, -⟩ := h
            rw [hj] at h2; exact absurd h2 (by simp)
      · refine (ih.weights.trans (UpdAll.map c (fun p => Block (index c n sub ch) p) _
          (fun p w => upd_negative p _ w) _)).congr fun p k => ⟨?_, ?_⟩
        · rintro (⟨a, ha, h⟩ | h)
          · exact ⟨a, by omega, h⟩
          · exact ⟨n, by omega, hj, h⟩
        · rintro ⟨a, ha, h⟩
          rcases Nat.lt_succ_iff_lt_or_eq.mp ha with h1 | h1
          · exact .inl ⟨a, h1, h⟩
          · subst h1; exact .inr h.2
      · intro a ha j h
        rcases Nat.lt_succ_iff_lt_or_eq.mp ha with h1 | h1
        · exact ih.rot a h1 j h
        · subst h1; rw [hj] at h; exact absurd h (by simp)
      · intro k hk
        exact ih.rotF k fun a ha => hk a (by omega)
    | some j =>
      simp only [applyAntenna, hsol, hj, limited_fst, ih.angle0]
      refine ⟨fun ch' ant' sub' => ?_, ?_, ?_, ?_, ?_, ?_, fun hh => ?_, fun hh => ?_⟩
      · show Function.update l.state.sol ch _ ch' ant' sub' = _
        by_cases h1 : ch' = ch
        · subst h1
          rw [Function.update_self]
          by_cases h2 : ant' = n
          · subst h2
            rw [Function.update_self]
            by_cases h3 : sub' = sub
            · subst h3
              rw [Function.update_self, if_pos (show ch' = ch' ∧ sub' = sub' ∧ ant' < ant' + 1 from ⟨rfl, rfl, by omega⟩),
                newSol_some _ _ _ _ hj]
              rfl
            · rw [Function.update_of_ne h3, ih.sol, if_neg (by omega), if_neg (by omega)]
          · rw [Function.update_of_ne h2, ih.sol]
            by_cases h3 : sub' = sub ∧ ant' < n
            · rw [if_pos (by omega), if_pos (by omega)]
            · rw [if_neg (by omega), if_neg (by omega)]
        · rw [Function.update_of_ne h1, ih.sol, if_neg (by omega), if_neg (by omega)]
      · rw [refOf_succ]
        unfold newAngle0
        cases c.reference
        · simp
        · simp only [if_true, hj]
          cases refOf col n <;> simp
      · show (l.diverged || _ || _) = true ↔ _
        rw [Bool.or_eq_true, Bool.or_eq_true, ih.div, limited_snd, limited_snd]
        constructor
        · rintro ((⟨a, ha, h⟩ | h) | h)
          · exact ⟨a, by omega, h⟩
          · exact ⟨n, by omega, j, hj, .inl h.2⟩
          · exact ⟨n, by omega, j, hj, .inr h⟩
        · rintro ⟨a, ha, h⟩
          rcases Nat.lt_succ_iff_lt_or_eq.mp ha with h1 | h1
          · exact .inl (.inl ⟨a, h1, h⟩)
          · subst h1
            obtain ⟨j', h2, h3⟩ := h
            rw [hj] at h2
            cases h2
            rcases h3 with h3 | h3
            · exact .inl (.inr ⟨h3.1, h3⟩)
            · exact .inr h3
      · have hw := ih.weights
        refine UpdAll.congr (c1 := fun p k => ∃ ant < n, col ant = none ∧ Block (index c ant sub ch) p k)
          ⟨hw.rot, hw.amp, hw.phase⟩ fun p k => ⟨?_, ?_⟩
        · rintro ⟨a, ha, h⟩; exact ⟨a, by omega, h⟩
        · rintro ⟨a, ha, h⟩
          rcases Nat.lt_succ_iff_lt_or_eq.mp ha with h1 | h1
          · exact ⟨a, h1, h⟩
          · subst h1; rw [hj] at h; exact absurd h.1 (by simp)
      · intro a ha j' h
        show Function.update l.state.rotation.vals _ _ _ = _
        rcases Nat.lt_succ_iff_lt_or_eq.mp ha with h1 | h1
        · rw [Function.update_of_ne]
          · exact ih.rot a h1 j' h
          · intro he
            have := ((index_spec c a sub ch n sub ch hs hc hs hc).2 he).1
            omega
        · subst h1
          rw [hj] at h
          cases h
          rw [Function.update_self]
          rfl
      · intro k hk
        show Function.update l.state.rotation.vals _ _ _ = _
        rw [Function.update_of_ne (hk n (by omega))]
        exact ih.rotF k fun a ha => hk a (by omega)
      · simp only [hh, if_true]
        exact (ih.amp hh).some hs hc j hj
      · simp only [hh, if_true]
        exact (ih.phase hh).some hs hc j hj

/-- A channel block of a sub-solution in which some antenna is out of range. -/
def Diverged (c : Config) (s : State) (sub ch : Nat) : Prop :=
  ∃ ant < c.nAnt, DivergedAt c (fun a => s.sol ch a sub) ant

private structure PInv (c : Config) (s : State) (done : List (Nat × Nat)) (t : State) : Prop where
  sol : ∀ ch ant sub, t.sol ch ant sub =
    open Classical in if (sub, ch) ∈ done ∧ ant < c.nAnt then newSol c (fun a => s.sol ch a sub) ant else s.sol ch ant sub
  weights : UpdAll c (fun p k => ∃ q ∈ done, (∃ ant < c.nAnt, s.sol q.2 ant q.1 = none ∧ Block (index c ant q.1 q.2) p k) ∨
    (Diverged c s q.1 q.2 ∧ ∃ ant < c.nAnt, Block (ant * c.nCh + q.2) p k)) s t
  rot : ∀ q ∈ done, ∀ ant < c.nAnt, ∀ j, s.sol q.2 ant q.1 = some j →
    t.rotation.vals (index c ant q.1 q.2) = angleOf c (fun a => s.sol q.2 a q.1) ant j
  amp : hasAmplitude c.mode = true → ∀ q ∈ done, ∀ ant < c.nAnt, ∀ j, s.sol q.2 ant q.1 = some j → ∀ p < nPol c.mode,
    t.amplitude.vals (index c ant q.1 q.2 * nPol c.mode + p) = ‖comp p (constrain c.mode (fitDiagonal j))‖
  phase : hasPhase c.mode = true → ∀ q ∈ done, ∀ ant < c.nAnt, ∀ j, s.sol q.2 ant q.1 = some j → ∀ p < nPol c.mode,
    t.phase.vals (index c ant q.1 q.2 * nPol c.mode + p) = Complex.arg (comp p (constrain c.mode (fitDiagonal j)))

private theorem pinv (c : Config) (s : State) (done : List (Nat × Nat)) (hnd : done.Nodup)
    (hb : ∀ q ∈ done, q.1 < c.nSub ∧ q.2 < c.nCh) : PInv c s done (done.foldl (applyChannel c) s) := by
  induction done using List.reverseRecOn with
  | nil =>
    refine ⟨fun _ _ _ => by simp, ?_, by simp, by simp, by simp⟩
    exact (UpdAll.refl c s).congr fun p k => by simp
  | append_singleton done q ih =>
    rw [List.foldl_append, List.foldl_cons, List.foldl_nil]
    have hq : q ∉ done := fun h => by
      rw [List.nodup_append] at hnd
      exact hnd.2.2 q h q (by simp) rfl
    have ih := ih (List.nodup_append.mp hnd).1 fun q hq => hb q (by simp [hq])
    have hbq := hb q (by simp)
    obtain ⟨sub, ch⟩ := q
    generalize done.foldl (applyChannel c) s = t at ih
    have hcol : (fun a => t.sol ch a sub) = fun a => s.sol ch a sub := by
      funext a
      rw [ih.sol, if_neg fun h => hq h.1]
    have hA := ainv c t sub ch hbq.1 hbq.2 (fun a => s.sol ch a sub) (fun a => congrFun hcol a) c.nAnt
    simp only [applyChannel, hcol]
    generalize (List.range c.nAnt).foldl (applyAntenna c (meanAbs c Prod.fst fun ant => s.sol ch ant sub)
        (meanAbs c Prod.snd fun ant => s.sol ch ant sub) sub ch) ⟨t, none, false⟩ = l at hA
    -- the state without the weights
    have hsame : ∀ u : State, u = (if l.diverged then mapWeights c (fun n => setChannelWeights c n ch) l.state else l.state) →
        u.sol = l.state.sol ∧ u.rotation.vals = l.state.rotation.vals ∧ u.amplitude.vals = l.state.amplitude.vals ∧
        u.phase.vals = l.state.phase.vals := by
      rintro u rfl
      split <;> exact ⟨rfl, rfl, rfl, rfl⟩
    have hW : UpdAll c (fun p k => (∃ ant < c.nAnt, s.sol ch ant sub = none ∧ Block (index c ant sub ch) p k) ∨
        (Diverged c s sub ch ∧ ∃ ant < c.nAnt, Block (ant * c.nCh + ch) p k)) t
        (if l.diverged then mapWeights c (fun n => setChannelWeights c n ch) l.state else l.state) := by
      by_cases hd : l.diverged = true
      · rw [if_pos hd]
        refine (hA.weights.trans (UpdAll.map c _ _ (fun p w => upd_channel c p ch w) l.state)).congr fun p k => ?_
        have hD : Diverged c s sub ch := hA.div.mp hd
        constructor
        · rintro (h | h)
          · exact .inl h
          · exact .inr ⟨hD, h⟩
        · rintro (h | h)
          · exact .inl h
          · exact .inr h.2
      · rw [if_neg hd]
        refine hA.weights.congr fun p k => ⟨.inl, ?_⟩
        rintro (h | h)
        · exact h
        · exact absurd (hA.div.mpr h.1) hd
    generalize hu : (if l.diverged then mapWeights c (fun n => setChannelWeights c n ch) l.state else l.state) = u at hW
    obtain ⟨e1, e2, e3, e4⟩ := hsame u hu.symm
    have hsplit : ∀ (P : Nat × Nat → Prop), (∀ q ∈ done, P q) → P (sub, ch) → ∀ q ∈ done ++ [(sub, ch)], P q := by
      intro P h1 h2 q hq
      rw [List.mem_append, List.mem_singleton] at hq
      rcases hq with h | h
      · exact h1 q h
      · subst h; exact h2
    have hne : ∀ q ∈ done, ∀ ant ant', index c ant q.1 q.2 ≠ index c ant' sub ch := by
      intro q hqd ant ant' he
      have hb' := hb q (by simp [hqd])
      obtain ⟨-, h2, h3⟩ := (index_spec c ant q.1 q.2 ant' sub ch hb'.1 hb'.2 hbq.1 hbq.2).2 he
      apply hq
      have : q = (sub, ch) := Prod.ext h2 h3
      rwa [this] at hqd
    refine ⟨?_, ?_, ?_, ?_, ?_⟩
    · intro ch' ant' sub'
      rw [e1, hA.sol, ih.sol]
      by_cases h1 : ch' = ch ∧ sub' = sub
      · obtain ⟨rfl, rfl⟩ := h1
        by_cases h2 : ant' < c.nAnt
        · rw [if_pos ⟨rfl, rfl, h2⟩, if_pos ⟨by simp, h2⟩]
        · rw [if_neg (by omega), if_neg (fun h => h2 h.2), if_neg (fun h => h2 h.2)]
      · rw [if_neg (fun h => h1 ⟨h.1, h.2.1⟩)]
        by_cases h2 : (sub', ch') ∈ done ∧ ant' < c.nAnt
        · rw [if_pos h2, if_pos ⟨by simp [h2.1], h2.2⟩]
        · rw [if_neg h2, if_neg]
          rintro ⟨h3, h4⟩
          rw [List.mem_append, List.mem_singleton, Prod.mk.injEq] at h3
          rcases h3 with h3 | h3
          · exact h2 ⟨h3, h4⟩
          · exact h1 ⟨h3.2, h3.1⟩
    · refine (ih.weights.trans hW).congr fun p k => ⟨?_, ?_⟩
      · rintro (⟨q, hqd, h⟩ | h)
        · exact ⟨q, by simp [hqd], h⟩
        · exact ⟨(sub, ch), by simp, h⟩
      · rintro ⟨q, hqd, h⟩
        rw [List.mem_append, List.mem_singleton] at hqd
        rcases hqd with h1 | h1
        · exact .inl ⟨q, h1, h⟩
        · subst h1; exact .inr h
    · refine hsplit _ (fun q hqd ant ha j hj => ?_) (fun ant ha j hj => ?_)
      · rw [e2, hA.rotF _ fun ant' _ => hne q hqd ant ant']
        exact ih.rot q hqd ant ha j hj
      · rw [e2]; exact hA.rot ant ha j hj
    · intro hh
      refine hsplit _ (fun q hqd ant ha j hj p hp => ?_) (fun ant ha j hj p hp => ?_)
      · rw [e3, (hA.amp hh).frame _ fun ant' _ hbl => hne q hqd ant ant' (block_eq ⟨by omega, by omega⟩ hbl)]
        exact ih.amp hh q hqd ant ha j hj p hp
      · rw [e3]; exact (hA.amp hh).val ant ha j hj p hp
    · intro hh
      refine hsplit _ (fun q hqd ant ha j hj p hp => ?_) (fun ant ha j hj p hp => ?_)
      · rw [e4, (hA.phase hh).frame _ fun ant' _ hbl => hne q hqd ant ant' (block_eq ⟨by omega, by omega⟩ hbl)]
        exact ih.phase hh q hqd ant ha j hj p hp
      · rw [e4]; exact (hA.phase hh).val ant ha j hj p hp

private theorem apply_pinv (c : Config) (s : State) :
    PInv c s ((List.range c.nSub).flatMap fun sub => (List.range c.nCh).map fun ch => (sub, ch)) (apply c s) := by
  refine pinv c s _ ?_ ?_
  · rw [List.nodup_flatMap]
    refine ⟨fun sub _ => List.Nodup.map (fun a b h => by simpa using h) List.nodup_range, ?_⟩
    refine List.Pairwise.imp ?_ (List.nodup_range (n := c.nSub))
    intro a b hab
    show List.Disjoint _ _
    intro x hx hy
    obtain ⟨c1, _, h1⟩ := List.mem_map.mp hx
    obtain ⟨c2, _, h2⟩ := List.mem_map.mp hy
    exact hab ((congrArg Prod.fst h1).trans (congrArg Prod.fst h2).symm)
  · intro q hq
    rw [List.mem_flatMap] at hq
    obtain ⟨sub, hs, hq⟩ := hq
    obtain ⟨ch, hc, rfl⟩ := List.mem_map.mp hq
    exact ⟨List.mem_range.mp hs, List.mem_range.mp hc⟩

private theorem mem_pairs (c : Config) (sub ch : Nat) :
    (sub, ch) ∈ ((List.range c.nSub).flatMap fun sub => (List.range c.nCh).map fun ch => (sub, ch)) ↔
      sub < c.nSub ∧ ch < c.nCh := by
  simp [List.mem_flatMap, and_comm]

private theorem refOf_first (col : Nat → Option J) (f ant : Nat) (jf : J) (hf : col f = some jf) (hb : ∀ f' < f, col f' = none) :
    (f < ant → refOf col ant = some (fitAngle jf)) ∧ (ant ≤ f → refOf col ant = none) := by
  have h0 : ∀ n, n ≤ f → refOf col n = none := by
    intro n
    induction n with
    | zero => intro _; rfl
    | succ n ih => intro hn; rw [refOf_succ, ih (by omega), hb n (by omega)]; rfl
  refine ⟨fun h => ?_, h0 ant⟩
  induction ant with
  | zero => omega
  | succ n ih =>
    rw [refOf_succ]
    rcases Nat.lt_succ_iff_lt_or_eq.mp h with h1 | h1
    · rw [ih h1]; rfl
    · subst h1; rw [h0 f (Nat.le_refl _), hf]; rfl

/-- C102. Every solution that is not NaN becomes its fitted diagonal, constrained to the mode, times a rotation by the
fitted angle; with a reference the angle of the first valid antenna becomes 0 and is subtracted from the other angles.
The stored results are the angle, and the amplitudes and phases of the diagonal. Solutions that are NaN stay. -/
theorem apply_spec (c : Config) (s : State) (ant sub ch : Nat) (ha : ant < c.nAnt) (hs : sub < c.nSub) (hc : ch < c.nCh) :
    (s.sol ch ant sub = none → (apply c s).sol ch ant sub = none) ∧
    ∀ j, s.sol ch ant sub = some j → ∃ angle,
      (apply c s).sol ch ant sub = some (rebuild (constrain c.mode (fitDiagonal j)) angle) ∧
      (apply c s).rotation.vals (index c ant sub ch) = angle ∧
      (hasAmplitude c.mode = true → ∀ p < nPol c.mode,
        (apply c s).amplitude.vals (index c ant sub ch * nPol c.mode + p) = ‖comp p (constrain c.mode (fitDiagonal j))‖) ∧
      (hasPhase c.mode = true → ∀ p < nPol c.mode,
        (apply c s).phase.vals (index c ant sub ch * nPol c.mode + p) =
          Complex.arg (comp p (constrain c.mode (fitDiagonal j)))) ∧
      (c.reference = false → angle = fitAngle j) ∧
      (c.reference = true → ∀ f jf, f ≤ ant → s.sol ch f sub = some jf → (∀ f' < f, s.sol ch f' sub = none) →
        (f = ant → angle = 0) ∧ (f < ant → angle = wrap (fitAngle j - fitAngle jf))) := by
  have h := apply_pinv c s
  have hm := (mem_pairs c sub ch).mpr ⟨hs, hc⟩
  constructor
  · intro hn
    rw [h.sol, if_pos ⟨hm, ha⟩]
    exact newSol_none _ _ _ hn
  · intro j hj
    refine ⟨angleOf c (fun a => s.sol ch a sub) ant j, ?_, h.rot _ hm ant ha j hj, fun hh => h.amp hh _ hm ant ha j hj,
      fun hh => h.phase hh _ hm ant ha j hj, ?_, ?_⟩
    · rw [h.sol, if_pos ⟨hm, ha⟩]
      exact newSol_some _ _ _ _ hj
    · intro hr
      simp [angleOf, referenced, hr]
    · intro hr f jf hf hjf hb
      obtain ⟨h1, h2⟩ := refOf_first (fun a => s.sol ch a sub) f ant jf hjf hb
      unfold angleOf referenced
      rw [if_pos hr, if_pos hr]
      refine ⟨fun he => ?_, fun hl => ?_⟩
      · rw [h2 (by omega)]
      · rw [h1 hl]

/-- The diagonal that the stored amplitudes and phases describe. -/
noncomputable def described (c : Config) (s : State) (i p : Nat) : ℂ :=
  ((if hasAmplitude c.mode then s.amplitude.vals (i * nPol c.mode + p) else 1 : ℝ) : ℂ) *
    Complex.exp (((if hasPhase c.mode then s.phase.vals (i * nPol c.mode + p) else 0 : ℝ) : ℂ) * Complex.I)

private theorem described_eq (mode : Mode) (z : ℂ × ℂ) (p : Nat) (h : Allowed mode z) :
    ((if hasAmplitude mode then ‖comp p z‖ else 1 : ℝ) : ℂ) *
      Complex.exp (((if hasPhase mode then Complex.arg (comp p z) else 0 : ℝ) : ℂ) * Complex.I) = comp p z := by
  have key := fun w : ℂ => Complex.norm_mul_exp_arg_mul_I w
  cases mode <;> simp only [hasAmplitude, hasPhase, if_true, Bool.false_eq_true, if_false, Allowed] at h ⊢
  · exact key _
  · obtain ⟨a, b, ha, hb, rfl⟩ := h
    unfold comp
    split <;> simp [abs_of_nonneg ha, abs_of_nonneg hb]
  · have h1 : ‖comp p z‖ = 1 := by unfold comp; split; exact h.1; exact h.2
    have := key (comp p z)
    rw [h1] at this
    exact_mod_cast this
  · exact key _
  · obtain ⟨a, ha, rfl⟩ := h
    unfold comp
    split <;> simp [abs_of_nonneg ha]
  · have h1 : ‖comp p z‖ = 1 := by unfold comp; split; exact h.2; rw [← h.1]; exact h.2
    have := key (comp p z)
    rw [h1] at this
    exact_mod_cast this

/-- C102. The stored results describe the constrained solutions: the solution is the rotation by the stored angle times
the diagonal of the stored amplitudes and phases, with the first used twice if there is only one. -/
theorem results_describe (c : Config) (s : State) (ant sub ch : Nat) (ha : ant < c.nAnt) (hs : sub < c.nSub) (hc : ch < c.nCh)
    (j : J) (hj : s.sol ch ant sub = some j) (hd : Defined c.mode (fitDiagonal j)) :
    (apply c s).sol ch ant sub = some (rebuild
      (described c (apply c s) (index c ant sub ch) 0, described c (apply c s) (index c ant sub ch) (nPol c.mode - 1))
      ((apply c s).rotation.vals (index c ant sub ch))) := by
  obtain ⟨angle, h1, h2, h3, h4, -, -⟩ := (apply_spec c s ant sub ch ha hs hc).2 j hj
  have hal := (constrain_spec c.mode _ hd).1
  have hpos : 0 < nPol c.mode := by cases c.mode <;> simp [nPol]
  have hdesc : ∀ p < nPol c.mode, described c (apply c s) (index c ant sub ch) p = comp p (constrain c.mode (fitDiagonal j)) := by
    intro p hp
    rw [← described_eq c.mode _ p hal]
    unfold described
    congr 2
    · by_cases hh : hasAmplitude c.mode = true
      · rw [if_pos hh, if_pos hh, h3 hh p hp]
      · rw [if_neg hh, if_neg hh]
    · congr 2
      by_cases hh : hasPhase c.mode = true
      · rw [if_pos hh, if_pos hh, h4 hh p hp]
      · rw [if_neg hh, if_neg hh]
  rw [h1, h2, hdesc 0 hpos, hdesc _ (by omega)]
  congr 2
  cases hmode : c.mode <;> simp only [nPol, comp, constrain] <;> rfl

/-- C102. Applying the constraint again changes nothing. -/
theorem apply_idempotent (c : Config) (s : State)
    (h : ∀ ch ant sub j, s.sol ch ant sub = some j → Defined c.mode (fitDiagonal j) ∧
      (constrain c.mode (fitDiagonal j)).1 + (constrain c.mode (fitDiagonal j)).2 ≠ 0) (ant sub ch : Nat)
    (ha : ant < c.nAnt) (hs : sub < c.nSub) (hc : ch < c.nCh) :
    (apply c (apply c s)).sol ch ant sub = (apply c s).sol ch ant sub := by
  have key : ∀ a < c.nAnt, ∀ j, s.sol ch a sub = some j → ∃ angle, -(π / 2) ≤ angle ∧ angle < π / 2 ∧
      (apply c s).sol ch a sub = some (rebuild (constrain c.mode (fitDiagonal j)) angle) ∧
      fitAngle (rebuild (constrain c.mode (fitDiagonal j)) angle) = angle ∧
      constrain c.mode (fitDiagonal (rebuild (constrain c.mode (fitDiagonal j)) angle)) =
        constrain c.mode (fitDiagonal j) ∧
      (c.reference = true → (∀ f' < a, s.sol ch f' sub = none) → angle = 0) := by
    intro a haa j hj
    obtain ⟨angle, h1, -, -, -, h5, h6⟩ := (apply_spec c s a sub ch haa hs hc).2 j hj
    have hrange : -(π / 2) ≤ angle ∧ angle < π / 2 := by
      have hpi := Real.pi_pos
      cases hr : c.reference
      · rw [h5 hr]
        exact ⟨(wrap_spec _).1, (wrap_spec _).2.1⟩
      · by_cases hfirst : ∀ f' < a, s.sol ch f' sub = none
        · rw [(h6 hr a j (Nat.le_refl _) hj hfirst).1 rfl]
          constructor <;> linarith
        · classical
          have hex : ∃ f, s.sol ch f sub ≠ none := ⟨a, by rw [hj]; simp⟩
          have hfs := Nat.find_spec hex
          have hmin : ∀ f' < Nat.find hex, s.sol ch f' sub = none := fun f' hf' => by
            have := Nat.find_min hex hf'
            rwa [not_not] at this
          have hlt : Nat.find hex < a := by
            push Not at hfirst
            obtain ⟨f', h1, h2⟩ := hfirst
            exact lt_of_le_of_lt (Nat.find_min' hex h2) h1
          obtain ⟨jf, hjf⟩ := Option.ne_none_iff_exists'.mp hfs
          rw [(h6 hr _ jf hlt.le hjf hmin).2 hlt]
          exact ⟨(wrap_spec _).1, (wrap_spec _).2.1⟩
    obtain ⟨hd, hsum⟩ := h ch a sub j hj
    obtain ⟨hfa, hfd⟩ := fit_rebuild _ angle hsum hrange.1 hrange.2
    have hal := (constrain_spec c.mode _ hd).1
    have hdef : Defined c.mode (constrain c.mode (fitDiagonal j)) := by
      cases hmode : c.mode <;> simp only [hmode, Defined, Allowed] at hal hsum ⊢
      · exact ⟨norm_ne_zero_iff.mp (by rw [hal.1]; norm_num), norm_ne_zero_iff.mp (by rw [hal.2]; norm_num)⟩
      · exact hsum
    refine ⟨angle, hrange.1, hrange.2, h1, hfa, ?_, fun hr hfirst => (h6 hr a j (Nat.le_refl _) hj hfirst).1 rfl⟩
    rw [hfd, (constrain_spec c.mode _ hdef).2 hal]
  cases hj : s.sol ch ant sub with
  | none =>
    have h1 := (apply_spec c s ant sub ch ha hs hc).1 hj
    rw [(apply_spec c (apply c s) ant sub ch ha hs hc).1 h1, h1]
  | some j =>
    obtain ⟨angle, hr1, hr2, h1, h2, h3, h4⟩ := key ant ha j hj
    obtain ⟨angle', g1, -, -, -, g5, g6⟩ := (apply_spec c (apply c s) ant sub ch ha hs hc).2 _ h1
    rw [g1, h1, h3]
    congr 2
    cases hr : c.reference
    · rw [g5 hr, h2]
    · classical
      have hex : ∃ f, s.sol ch f sub ≠ none := ⟨ant, by rw [hj]; simp⟩
      have hfs := Nat.find_spec hex
      have hmin : ∀ f' < Nat.find hex, s.sol ch f' sub = none := fun f' hf' => by
        have := Nat.find_min hex hf'
        rwa [not_not] at this
      have hle : Nat.find hex ≤ ant := Nat.find_min' hex (by rw [hj]; simp)
      obtain ⟨jf, hjf⟩ := Option.ne_none_iff_exists'.mp hfs
      obtain ⟨anglef, -, -, k1, k2, -, k4⟩ := key _ (lt_of_le_of_lt hle ha) jf hjf
      have hmin' : ∀ f' < Nat.find hex, (apply c s).sol ch f' sub = none := fun f' hf' =>
        (apply_spec c s f' sub ch (by omega) hs hc).1 (hmin f' hf')
      obtain ⟨u1, u2⟩ := g6 hr _ _ hle k1 hmin'
      rcases Nat.lt_or_eq_of_le hle with hlt | heq
      · rw [u2 hlt, h2, k2, k4 hr hmin]
        have := Real.pi_pos
        rw [sub_zero, ← h2]
        have h5 := h2
        unfold fitAngle at h5
        conv_rhs => rw [h2]
        rw [h2]
        exact wrap_eq angle angle 0 (by simp) hr1 hr2
      · rw [u1 heq, h4 hr (by rw [← heq]; exact hmin)]

/-! ## The weights of the results -/

/-- C103. Exactly these weights become -1: those of antennas with NaN, and, if in some sub-solution a channel block has
diverged, those at the places (antenna · channel blocks + channel block). All other weights stay. -/
theorem apply_weights (c : Config) (s : State) (k : Nat) :
    let Neg := fun p => ∃ sub < c.nSub, ∃ ch < c.nCh,
      (∃ ant < c.nAnt, s.sol ch ant sub = none ∧ Block (index c ant sub ch) p k) ∨
      (Diverged c s sub ch ∧ ∃ ant < c.nAnt, Block (ant * c.nCh + ch) p k)
    ((Neg 1 → (apply c s).rotation.weights k = -1) ∧
      (¬ Neg 1 → (apply c s).rotation.weights k = s.rotation.weights k)) ∧
    (hasAmplitude c.mode = true → (Neg (nPol c.mode) → (apply c s).amplitude.weights k = -1) ∧
      (¬ Neg (nPol c.mode) → (apply c s).amplitude.weights k = s.amplitude.weights k)) ∧
    (hasPhase c.mode = true → (Neg (nPol c.mode) → (apply c s).phase.weights k = -1) ∧
      (¬ Neg (nPol c.mode) → (apply c s).phase.weights k = s.phase.weights k)) := by
  have h := (apply_pinv c s).weights.congr (c2 := fun p k => ∃ sub < c.nSub, ∃ ch < c.nCh,
      (∃ ant < c.nAnt, s.sol ch ant sub = none ∧ Block (index c ant sub ch) p k) ∨
      (Diverged c s sub ch ∧ ∃ ant < c.nAnt, Block (ant * c.nCh + ch) p k)) fun p k => by
    constructor
    · rintro ⟨⟨sub, ch⟩, hq, h⟩
      obtain ⟨h1, h2⟩ := (mem_pairs c sub ch).mp hq
      exact ⟨sub, h1, ch, h2, h⟩
    · rintro ⟨sub, h1, ch, h2, h⟩
      exact ⟨(sub, ch), (mem_pairs c sub ch).mpr ⟨h1, h2⟩, h⟩
  exact ⟨h.rot k, fun hh => h.amp hh k, fun hh => h.phase hh k⟩

/-- C103. With a single sub-solution, the weight of an antenna becomes -1 iff it is NaN or its channel block has
diverged, and stays otherwise. -/
theorem weights_one_solution_partial (c : Config) (s : State) (h1 : c.nSub = 1) (ant ch : Nat) (ha : ant < c.nAnt)
    (hc : ch < c.nCh) :
    ((s.sol ch ant 0 = none ∨ Diverged c s 0 ch) → (apply c s).rotation.weights (index c ant 0 ch) = -1) ∧
    (¬ (s.sol ch ant 0 = none ∨ Diverged c s 0 ch) →
      (apply c s).rotation.weights (index c ant 0 ch) = s.rotation.weights (index c ant 0 ch)) ∧
    ∀ p < nPol c.mode,
      (hasAmplitude c.mode = true →
        ((s.sol ch ant 0 = none ∨ Diverged c s 0 ch) →
          (apply c s).amplitude.weights (index c ant 0 ch * nPol c.mode + p) = -1) ∧
        (¬ (s.sol ch ant 0 = none ∨ Diverged c s 0 ch) →
          (apply c s).amplitude.weights (index c ant 0 ch * nPol c.mode + p) =
            s.amplitude.weights (index c ant 0 ch * nPol c.mode + p))) ∧
      (hasPhase c.mode = true →
        ((s.sol ch ant 0 = none ∨ Diverged c s 0 ch) →
          (apply c s).phase.weights (index c ant 0 ch * nPol c.mode + p) = -1) ∧
        (¬ (s.sol ch ant 0 = none ∨ Diverged c s 0 ch) →
          (apply c s).phase.weights (index c ant 0 ch * nPol c.mode + p) =
            s.phase.weights (index c ant 0 ch * nPol c.mode + p))) := by
  have hidx : ∀ a x, index c a 0 x = a * c.nCh + x := by
    intro a x; unfold index; rw [h1, Nat.mul_one, Nat.add_zero]
  have key : ∀ p k, Block (index c ant 0 ch) p k →
      ((∃ sub < c.nSub, ∃ ch' < c.nCh, (∃ a < c.nAnt, s.sol ch' a sub = none ∧ Block (index c a sub ch') p k) ∨
        (Diverged c s sub ch' ∧ ∃ a < c.nAnt, Block (a * c.nCh + ch') p k)) ↔
      (s.sol ch ant 0 = none ∨ Diverged c s 0 ch)) := by
    intro p k hb
    constructor
    · rintro ⟨sub, hs, ch', hc', h⟩
      have : sub = 0 := by omega
      subst this
      rcases h with ⟨a, haa, hn, hb'⟩ | ⟨hd, a, haa, hb'⟩
      · obtain ⟨rfl, -, rfl⟩ := (index_spec c a 0 ch' ant 0 ch hs hc' hs hc).2 (block_eq hb' hb)
        exact .inl hn
      · rw [← hidx] at hb'
        obtain ⟨-, -, rfl⟩ := (index_spec c a 0 ch' ant 0 ch hs hc' hs hc).2 (block_eq hb' hb)
        exact .inr hd
    · intro h
      refine ⟨0, by omega, ch, hc, ?_⟩
      rcases h with h | h
      · exact .inl ⟨ant, ha, h, hb⟩
      · exact .inr ⟨h, ant, ha, by rw [← hidx]; exact hb⟩
  have hb1 : Block (index c ant 0 ch) 1 (index c ant 0 ch) := ⟨by omega, by omega⟩
  have hr := (apply_weights c s (index c ant 0 ch)).1
  simp only [key 1 _ hb1] at hr
  refine ⟨hr.1, hr.2, fun p hp => ?_⟩
  have hbp : Block (index c ant 0 ch) (nPol c.mode) (index c ant 0 ch * nPol c.mode + p) := ⟨by omega, by omega⟩
  have hr := (apply_weights c s (index c ant 0 ch * nPol c.mode + p)).2
  simp only [key _ _ hbp] at hr
  exact hr

/-- C103. A weight of -1 stays: a channel block that diverged in some iteration keeps its negative weights for the
rest of the solve. -/
theorem weights_sticky (c : Config) (s : State) (k : Nat) (h : s.rotation.weights k = -1) :
    (apply c s).rotation.weights k = -1 := by
  obtain ⟨⟨h1, h2⟩, -⟩ := apply_weights c s k
  by_cases hn : ∃ sub < c.nSub, ∃ ch < c.nCh,
      (∃ ant < c.nAnt, s.sol ch ant sub = none ∧ Block (index c ant sub ch) 1 k) ∨
      (Diverged c s sub ch ∧ ∃ ant < c.nAnt, Block (ant * c.nCh + ch) 1 k)
  · exact h1 hn
  · rw [h2 hn, h]

/-- C103. With two sub-solutions, one channel block and two antennas without NaN: if only the second sub-solution has
diverged, the weight of the second antenna for it stays, and the first antenna loses that of the first sub-solution. -/
theorem diverged_misplaced (c : Config) (s : State) (ha : c.nAnt = 2) (hs : c.nSub = 2) (hc : c.nCh = 1)
    (hv : ∀ ch ant sub, s.sol ch ant sub ≠ none) (hd : Diverged c s 1 0) :
    (apply c s).rotation.weights (index c 1 1 0) = s.rotation.weights (index c 1 1 0) ∧
    (apply c s).rotation.weights (index c 0 0 0) = -1 := by
  constructor
  · apply (apply_weights c s _).1.2
    rintro ⟨sub, h1, ch, h2, h⟩
    rcases h with ⟨a, -, hn, -⟩ | ⟨-, a, h3, h4⟩
    · exact hv _ _ _ hn
    · unfold Block index at h4
      rw [hs, hc] at h4
      omega
  · apply (apply_weights c s _).1.1
    refine ⟨1, by omega, 0, by omega, .inr ⟨hd, 0, by omega, ?_⟩⟩
    unfold Block index
    omega

/-- C103. `SetWeights` repeats the weights of all antennas for the rotation. -/
theorem rotationWeights_spec (c : Config) (weights old : Nat → ℝ) (k : Nat) (hk : k < c.nSub * (c.nAnt * c.nCh)) :
    rotationWeights c weights old k = weights (k % (c.nAnt * c.nCh)) := by
  unfold rotationWeights
  generalize c.nAnt * c.nCh = b at *
  have : ∀ n, (List.range n).foldl
    (fun w i k => if b * i ≤ k ∧ k < b * i + b then weights (k - b * i) else w k) old k =
      if k < n * b then weights (k % b) else old k := by
    intro n
    induction n with
    | zero => simp
    | succ n ih =>
      rw [List.range_succ, List.foldl_append, List.foldl_cons, List.foldl_nil, Nat.succ_mul]
      by_cases h : b * n ≤ k ∧ k < b * n + b
      · rw [if_pos h, if_pos (by rw [Nat.mul_comm n b]; exact h.2)]
        congr 1
        have : k = b * n + (k - b * n) := by omega
        conv_rhs => rw [this, Nat.mul_add_mod]
        rw [Nat.mod_eq_of_lt (by omega)]
      · rw [if_neg h, ih]
        rw [Nat.mul_comm n b]
        by_cases h2 : k < b * n
        · rw [if_pos h2, if_pos (by omega)]
        · rw [if_neg h2, if_neg (by omega)]
  rw [this, if_pos hk]

/-- C103. With a single sub-solution the weights of the rotation are those of its antenna and channel block. -/
theorem rotationWeights_one_partial (c : Config) (weights old : Nat → ℝ) (h1 : c.nSub = 1) (ant ch : Nat) (ha : ant < c.nAnt)
    (hc : ch < c.nCh) : rotationWeights c weights old (index c ant 0 ch) = weights (ant * c.nCh + ch) := by
  have hi := (index_spec c ant 0 ch ant 0 ch (by omega) hc (by omega) hc).1 ha
  rw [h1, Nat.mul_one] at hi
  rw [rotationWeights_spec _ _ _ _ (by rw [h1]; omega), Nat.mod_eq_of_lt hi]
  unfold index
  rw [h1, Nat.mul_one, Nat.add_zero]

/-- C103. With more sub-solutions they are in the wrong order: antenna 0 gets for its second sub-solution the weight of
antenna 1 (with one channel block). -/
theorem rotationWeights_wrong (c : Config) (weights old : Nat → ℝ) (ha : 2 ≤ c.nAnt) (hs : 2 ≤ c.nSub) (hc : c.nCh = 1) :
    rotationWeights c weights old (index c 0 1 0) = weights 1 := by
  have : index c 0 1 0 = 1 := by unfold index; rw [hc]; omega
  rw [rotationWeights_spec, this, hc, Nat.mul_one, Nat.mod_eq_of_lt (by omega)]
  rw [this, hc, Nat.mul_one]
  have := Nat.mul_le_mul hs ha
  omega

private def WInv (c : Config) (p : Nat) (weights : Nat → ℝ) (m : Nat) (s : (Nat → ℝ) × Nat) : Prop :=
  s.2 = m * c.nCh * p ∧ ∀ m' < m, ∀ ch < c.nCh, ∀ q < p, s.1 ((m' * c.nCh + ch) * p + q) = weights (m' / c.nSub * c.nCh + ch)

private theorem diagonalWeightsSub_spec (c : Config) (p : Nat) (weights : Nat → ℝ) (ant : Nat) (s : (Nat → ℝ) × Nat) :
    (diagonalWeightsSub c p weights ant s).2 = s.2 + c.nCh * p ∧
    (∀ ch < c.nCh, ∀ q < p, (diagonalWeightsSub c p weights ant s).1 (s.2 + ch * p + q) = weights (ant * c.nCh + ch)) ∧
    ∀ k < s.2, (diagonalWeightsSub c p weights ant s).1 k = s.1 k := by
  unfold diagonalWeightsSub
  simp only
  have : ∀ n, let r := (List.range n).foldl (fun s _ => diagonalWeightsChannel p weights s) (s.1, s.2, ant * c.nCh)
      r.2.1 = s.2 + n * p ∧ r.2.2 = ant * c.nCh + n ∧
      (∀ ch < n, ∀ q < p, r.1 (s.2 + ch * p + q) = weights (ant * c.nCh + ch)) ∧ ∀ k < s.2, r.1 k = s.1 k := by
    intro n
    induction n with
    | zero => simp
    | succ n ih =>
      rw [List.range_succ, List.foldl_append, List.foldl_cons, List.foldl_nil]
      generalize (List.range n).foldl (fun s _ => diagonalWeightsChannel p weights s) (s.1, s.2, ant * c.nCh) = r at ih
      obtain ⟨h1, h2, h3, h4⟩ := ih
      simp only [diagonalWeightsChannel]
      refine ⟨by rw [h1, Nat.succ_mul]; omega, by omega, fun ch hch q hq => ?_, fun k hk => ?_⟩
      · rcases Nat.lt_succ_iff_lt_or_eq.mp hch with h | h
        · have : (ch + 1) * p ≤ n * p := Nat.mul_le_mul_right _ h
          rw [Nat.succ_mul] at this
          rw [if_neg (by omega)]
          exact h3 ch h q hq
        · subst h
          rw [if_pos (by omega), h2]
      · rw [if_neg (by omega)]
        exact h4 k hk
  obtain ⟨h1, -, h3, h4⟩ := this c.nCh
  exact ⟨h1, h3, h4⟩

private theorem winv_step (c : Config) (p : Nat) (weights : Nat → ℝ) (m ant : Nat) (s : (Nat → ℝ) × Nat)
    (h : WInv c p weights m s) (hm : m / c.nSub = ant) : WInv c p weights (m + 1) (diagonalWeightsSub c p weights ant s) := by
  obtain ⟨h1, h2⟩ := h
  obtain ⟨g1, g2, g3⟩ := diagonalWeightsSub_spec c p weights ant s
  refine ⟨by rw [g1, h1, Nat.succ_mul, Nat.add_mul], fun m' hm' ch hch q hq => ?_⟩
  rcases Nat.lt_succ_iff_lt_or_eq.mp hm' with hl | hl
  · rw [g3]
    · exact h2 m' hl ch hch q hq
    · rw [h1]
      have a1 : m' * c.nCh + ch + 1 ≤ m * c.nCh := by
        have := Nat.mul_le_mul_right c.nCh hl
        rw [Nat.succ_mul] at this
        omega
      have a2 := Nat.mul_le_mul_right p a1
      rw [Nat.succ_mul] at a2
      omega
  · subst hl
    have : (m' * c.nCh + ch) * p + q = s.2 + ch * p + q := by rw [h1, Nat.add_mul]
    rw [this, g2 ch hch q hq, hm]

/-- C103. The weights of the amplitudes and phases are those of their antenna and channel block, for all
sub-solutions and polarizations. -/
theorem diagonalWeights_spec (c : Config) (weights old : Nat → ℝ) (ant sub ch p : Nat) (ha : ant < c.nAnt) (hs : sub < c.nSub)
    (hc : ch < c.nCh) (hp : p < nPol c.mode) :
    diagonalWeights c weights old (index c ant sub ch * nPol c.mode + p) = weights (ant * c.nCh + ch) := by
  have hpos : 0 < c.nSub := by omega
  have inner : ∀ a n, n ≤ c.nSub → ∀ s, WInv c (nPol c.mode) weights (a * c.nSub) s →
      WInv c (nPol c.mode) weights (a * c.nSub + n)
        ((List.range n).foldl (fun s _ => diagonalWeightsSub c (nPol c.mode) weights a s) s) := by
    intro a n
    induction n with
    | zero => intro _ s h; exact h
    | succ n ih =>
      intro hn s h
      rw [List.range_succ, List.foldl_append, List.foldl_cons, List.foldl_nil, ← Nat.add_assoc]
      refine winv_step c _ weights _ a _ (ih (by omega) s h) ?_
      rw [Nat.mul_comm, Nat.mul_add_div hpos, Nat.div_eq_of_lt (by omega), Nat.add_zero]
  have outer : ∀ n, WInv c (nPol c.mode) weights (n * c.nSub) ((List.range n).foldl
      (fun s ant => (List.range c.nSub).foldl (fun s _ => diagonalWeightsSub c (nPol c.mode) weights ant s) s) (old, 0)) := by
    intro n
    induction n with
    | zero => exact ⟨by simp, by simp⟩
    | succ n ih =>
      rw [List.range_succ, List.foldl_append, List.foldl_cons, List.foldl_nil, Nat.succ_mul]
      exact inner n c.nSub (Nat.le_refl _) _ ih
  have hlt : ant * c.nSub + sub < c.nAnt * c.nSub := by
    have := Nat.mul_le_mul_right c.nSub ha
    rw [Nat.succ_mul] at this
    omega
  have := (outer c.nAnt).2 (ant * c.nSub + sub) hlt ch hc p hp
  unfold diagonalWeights index
  rw [this, Nat.mul_comm ant, Nat.mul_add_div hpos, Nat.div_eq_of_lt hs, Nat.add_zero]

/-! ## The limit of the amplitudes -/

private theorem meanAbs_const (c : Config) (f : ℂ × ℂ → ℂ) (col : Nat → Option J) (j : J) (h : ∀ a < c.nAnt, col a = some j)
    (hn : 0 < c.nAnt) : meanAbs c f col = ‖f (fitDiagonal j)‖ := by
  have : ∀ n ≤ c.nAnt, (List.range n).foldl (fun m ant => addAbs f m (col ant)) 0 = n * ‖f (fitDiagonal j)‖ := by
    intro n
    induction n with
    | zero => intro _; simp
    | succ n ih =>
      intro hn
      rw [List.range_succ, List.foldl_append, List.foldl_cons, List.foldl_nil, ih (by omega), h n (by omega)]
      unfold addAbs
      push_cast
      ring
  unfold meanAbs
  rw [this _ (Nat.le_refl _)]
  have : (c.nAnt : ℝ) ≠ 0 := by exact_mod_cast hn.ne'
  field_simp

/-- C103. The second amplitude is compared with the mean of the first: antennas that all have the same solution diverge
if its two amplitudes differ by more than a factor five. -/
theorem equal_antennas_diverge (c : Config) (s : State) (sub ch : Nat) (j : J) (hn : 0 < c.nAnt)
    (h : ∀ a < c.nAnt, s.sol ch a sub = some j) (h1 : (fitDiagonal j).1 ≠ 0)
    (h2 : 5 * ‖(fitDiagonal j).1‖ < ‖(fitDiagonal j).2‖) : Diverged c s sub ch := by
  refine ⟨0, hn, j, h 0 hn, .inr ?_⟩
  rw [meanAbs_const c Prod.fst _ j h hn, meanAbs_const c Prod.snd _ j h hn]
  have := norm_pos_iff.mpr h1
  exact ⟨by linarith, this, .inr h2⟩

/-- C103. Antennas with NaN count as zero in the mean: with one valid antenna out of more than five, that antenna
always diverges. -/
theorem invalid_antennas_diverge (c : Config) (s : State) (sub ch : Nat) (j : J) (hn : 5 < c.nAnt)
    (h0 : s.sol ch 0 sub = some j) (h : ∀ a < c.nAnt, a ≠ 0 → s.sol ch a sub = none) (h1 : (fitDiagonal j).1 ≠ 0) :
    Diverged c s sub ch := by
  refine ⟨0, by omega, j, h0, .inl ?_⟩
  have hpos := norm_pos_iff.mpr h1
  have hsum : ∀ n, 0 < n → n ≤ c.nAnt →
      (List.range n).foldl (fun m ant => addAbs Prod.fst m (s.sol ch ant sub)) 0 = ‖(fitDiagonal j).1‖ := by
    intro n
    induction n with
    | zero => intro h; omega
    | succ n ih =>
      intro _ hle
      rw [List.range_succ, List.foldl_append, List.foldl_cons, List.foldl_nil]
      by_cases hz : n = 0
      · subst hz
        simp [addAbs, h0]
      · rw [ih (by omega) (by omega), h n (by omega) hz]
        rfl
  have hm : meanAbs c Prod.fst (fun a => s.sol ch a sub) = ‖(fitDiagonal j).1‖ / c.nAnt := by
    unfold meanAbs
    rw [hsum _ (by omega) (Nat.le_refl _)]
  rw [hm]
  have hN : (5 : ℝ) < c.nAnt := by exact_mod_cast hn
  refine ⟨by positivity, .inr ?_⟩
  rw [← mul_div_assoc, div_lt_iff₀ (by linarith)]
  nlinarith

/-! ## Examples -/

private noncomputable def exJ (a b : ℂ) : J := rebuild (a, b) 0

private theorem exJ_fit (a b : ℂ) (h : a + b ≠ 0) : fitDiagonal (exJ a b) = (a, b) := by
  have := Real.pi_pos
  exact (fit_rebuild (a, b) 0 h (by linarith) (by linarith)).2

private noncomputable def exState (sol : Nat → Nat → Nat → Option J) : State :=
  ⟨sol, ⟨fun _ => 0, fun _ => 1⟩, ⟨fun _ => 0, fun _ => 1⟩, ⟨fun _ => 0, fun _ => 1⟩⟩

/-- Of `apply_spec`, `apply_idempotent`, `results_describe` and `equal_antennas_diverge`: three antennas with gains 1
and 10. -/
example : let s := exState fun _ _ _ => some (exJ 1 10)
    let c : Config := ⟨3, 1, 2, .diagonalPhase, true⟩
    (∀ ch ant sub j, s.sol ch ant sub = some j → Defined c.mode (fitDiagonal j) ∧
      (constrain c.mode (fitDiagonal j)).1 + (constrain c.mode (fitDiagonal j)).2 ≠ 0) ∧ Diverged c s 0 1 := by
  have hf := exJ_fit 1 10 (by norm_num)
  refine ⟨?_, ?_⟩
  · intro ch ant sub j hj
    simp only [exState, Option.some.injEq] at hj
    subst hj
    rw [hf]
    refine ⟨⟨by norm_num, by norm_num⟩, ?_⟩
    norm_num [constrain]
  · refine equal_antennas_diverge _ _ 0 1 (exJ 1 10) (by norm_num) (fun _ _ => rfl) ?_ ?_ <;> rw [hf] <;> norm_num

/-- Of `apply_weights`, `weights_one_solution_partial` and `invalid_antennas_diverge`: six antennas of which five are NaN. -/
example : Diverged ⟨6, 1, 1, .diagonal, false⟩ (exState fun _ a _ => if a = 0 then some (exJ 1 1) else none) 0 0 := by
  have hf := exJ_fit 1 1 (by norm_num)
  refine invalid_antennas_diverge _ _ 0 0 (exJ 1 1) (by norm_num) rfl (fun a _ ha => ?_) (by rw [hf]; norm_num)
  simp [exState, ha]

/-- Of `diverged_misplaced`, `weights_sticky` and `rotationWeights_wrong`: the second sub-solution diverges. -/
example : let s := exState fun _ _ sub => some (if sub = 0 then exJ 1 1 else exJ 1 10)
    let c : Config := ⟨2, 2, 1, .scalar, false⟩
    (∀ ch ant sub, s.sol ch ant sub ≠ none) ∧ Diverged c s 1 0 ∧ ¬ Diverged c s 0 0 ∧
    (apply c s).rotation.weights (index c 0 0 0) = -1 := by
  intro s c
  have hf := exJ_fit 1 10 (by norm_num)
  have hf1 := exJ_fit 1 1 (by norm_num)
  have hv : ∀ ch ant sub, s.sol ch ant sub ≠ none := by intro ch ant sub; simp [s, exState]
  have hd : Diverged c s 1 0 := by
    refine equal_antennas_diverge _ _ 1 0 (exJ 1 10) (by simp [c]) (fun _ _ => by simp [s, exState]) ?_ ?_ <;>
      rw [hf] <;> norm_num
  refine ⟨hv, hd, ?_, (diverged_misplaced c s rfl rfl rfl hv hd).2⟩
  rintro ⟨a, ha, j, hj, h⟩
  have hcol : ∀ a < c.nAnt, (fun a => s.sol 0 a 0) a = some (exJ 1 1) := fun a _ => by simp [s, exState]
  rw [meanAbs_const c Prod.fst _ _ hcol (by simp [c]), meanAbs_const c Prod.snd _ _ hcol (by simp [c])] at h
  have hj' : j = exJ 1 1 := by
    have := hcol a ha
    rw [hj] at this
    simpa using this
  rw [hj', hf1] at h
  unfold Out at h
  norm_num at h

end DP3.Rotation
