import Verif.GainCal.Props

/-!
# C110: the steps of GainCal for full Jones matrices
-/

namespace DP3.GainCal

open Complex Finset

set_option linter.unusedSimpArgs false

/-! ## Least squares with two unknowns -/

/-- The squared residual of equations in two unknowns. -/
noncomputable def sq2 {ι : Type} (S : Finset ι) (A B V : ι → ℂ) (x y : ℂ) : ℝ := ∑ k ∈ S, normSq (V k - (A k * x + B k * y))

/-- The sums of the normal equations. -/
noncomputable def dot {ι : Type} (S : Finset ι) (A B : ι → ℂ) : ℂ := ∑ k ∈ S, (starRingEnd ℂ) (A k) * B k

theorem dot_comb {ι : Type} (S : Finset ι) (A P Q : ι → ℂ) (x y : ℂ) :
    dot S A (fun k => P k * x + Q k * y) = dot S A P * x + dot S A Q * y := by
  unfold dot
  rw [Finset.sum_mul, Finset.sum_mul, ← Finset.sum_add_distrib]
  exact Finset.sum_congr rfl fun k _ => by ring

theorem dot_conj {ι : Type} (S : Finset ι) (A B : ι → ℂ) : (starRingEnd ℂ) (dot S A B) = dot S B A := by
  unfold dot
  rw [map_sum]
  exact Finset.sum_congr rfl fun k _ => by simp only [map_mul, Complex.conj_conj]; ring

theorem sq2_shift {ι : Type} (S : Finset ι) (A B V : ι → ℂ) (x y d e : ℂ)
    (hA : dot S A V = dot S A A * x + dot S A B * y) (hB : dot S B V = dot S B A * x + dot S B B * y) :
    sq2 S A B V (x + d) (y + e) = sq2 S A B V x y + ∑ k ∈ S, normSq (A k * d + B k * e) := by
  have hre : (∑ k ∈ S, (starRingEnd ℂ) (A k * d + B k * e) * (V k - (A k * x + B k * y))) = 0 := by
    have : (∑ k ∈ S, (starRingEnd ℂ) (A k * d + B k * e) * (V k - (A k * x + B k * y))) =
        (starRingEnd ℂ) d * (dot S A V - (dot S A A * x + dot S A B * y)) +
        (starRingEnd ℂ) e * (dot S B V - (dot S B A * x + dot S B B * y)) := by
      unfold dot
      simp only [Finset.mul_sum, Finset.sum_mul, ← Finset.sum_add_distrib, ← Finset.sum_sub_distrib]
      exact Finset.sum_congr rfl fun k _ => by simp only [map_add, map_mul]; ring
    rw [this, hA, hB, sub_self, sub_self, mul_zero, mul_zero, add_zero]
  have hterm : ∀ k, normSq (V k - (A k * (x + d) + B k * (y + e))) = normSq (V k - (A k * x + B k * y)) +
      normSq (A k * d + B k * e) - 2 * ((starRingEnd ℂ) (A k * d + B k * e) * (V k - (A k * x + B k * y))).re := by
    intro k
    have : V k - (A k * (x + d) + B k * (y + e)) = (V k - (A k * x + B k * y)) - (A k * d + B k * e) := by ring
    rw [this, normSq_sub, mul_comm ((starRingEnd ℂ) (A k * d + B k * e))]
  unfold sq2
  rw [Finset.sum_congr rfl fun k _ => hterm k, Finset.sum_sub_distrib, Finset.sum_add_distrib, ← Finset.mul_sum,
    ← Complex.re_sum, hre]
  simp

/-- The residual in two unknowns has one minimum if the normal equations are regular. -/
theorem sq2_best {ι : Type} (S : Finset ι) (A B V : ι → ℂ) (x y : ℂ)
    (hdet : dot S A A * dot S B B - dot S A B * dot S B A ≠ 0)
    (hA : dot S A V = dot S A A * x + dot S A B * y) (hB : dot S B V = dot S B A * x + dot S B B * y) (u v : ℂ) :
    sq2 S A B V x y ≤ sq2 S A B V u v ∧ (sq2 S A B V u v ≤ sq2 S A B V x y → u = x ∧ v = y) := by
  have h := sq2_shift S A B V x y (u - x) (v - y) hA hB
  rw [add_sub_cancel, add_sub_cancel] at h
  have h0 : 0 ≤ ∑ k ∈ S, normSq (A k * (u - x) + B k * (v - y)) := Finset.sum_nonneg fun _ _ => normSq_nonneg _
  refine ⟨by rw [h]; linarith, ?_⟩
  intro hle
  rw [h] at hle
  have hz : ∑ k ∈ S, normSq (A k * (u - x) + B k * (v - y)) = 0 := by linarith
  rw [Finset.sum_eq_zero_iff_of_nonneg fun _ _ => normSq_nonneg _] at hz
  have hz' : ∀ C : ι → ℂ, dot S C A * (u - x) + dot S C B * (v - y) = 0 := by
    intro C
    rw [← dot_comb]
    unfold dot
    exact Finset.sum_eq_zero fun k hk => by simp only [normSq_eq_zero.mp (hz k hk), mul_zero]
  have e1 := hz' A
  have e2 := hz' B
  have f1 : (dot S A A * dot S B B - dot S A B * dot S B A) * (u - x) = 0 := by linear_combination dot S B B * e1 - dot S A B * e2
  have f2 : (dot S A A * dot S B B - dot S A B * dot S B A) * (v - y) = 0 := by linear_combination dot S A A * e2 - dot S B A * e1
  exact ⟨sub_eq_zero.mp ((mul_eq_zero.mp f1).resolve_left hdet), sub_eq_zero.mp ((mul_eq_zero.mp f2).resolve_left hdet)⟩

/-! ## The sums of the code -/

/-- All times, channels and stations. -/
def cellSet (c : Cfg) : Finset (Nat × Nat × Nat) := range c.solInt ×ˢ range c.nChan ×ˢ range c.nSt

theorem foldl_mat {α : Type} (f : α → Mat) (l : List α) (r : Mat) :
    l.foldl (fun (r : Mat) x => r.add (f x)) r =
      ⟨r.a + (l.map fun x => (f x).a).sum, r.b + (l.map fun x => (f x).b).sum, r.c + (l.map fun x => (f x).c).sum,
       r.d + (l.map fun x => (f x).d).sum⟩ := by
  induction l generalizing r with
  | nil => simp
  | cons x l ih =>
    rw [List.foldl_cons, ih]
    simp only [List.map_cons, List.sum_cons, Mat.add, add_assoc]

theorem sum_cells {M : Type} [AddCommMonoid M] (c : Cfg) (f : Nat × Nat × Nat → M) :
    ((cells c).map f).sum = ∑ x ∈ cellSet c, f x := by
  have hr : ∀ (n : Nat) (h : Nat → M), ((List.range n).map h).sum = ∑ i ∈ range n, h i := by
    intro n h
    induction n with
    | zero => simp
    | succ n ih => rw [List.range_succ, List.map_append, List.sum_append, ih, Finset.sum_range_succ]; simp
  have hf : ∀ {α β : Type} (l : List α) (h : α → List β) (k : β → M),
      ((l.flatMap h).map k).sum = (l.map fun x => ((h x).map k).sum).sum := by
    intro α β l h k
    induction l with
    | nil => simp
    | cons x l ih => rw [List.flatMap_cons, List.map_append, List.sum_append, ih, List.map_cons, List.sum_cons]
  unfold cells cellSet
  rw [hf, hr, Finset.sum_product]
  refine Finset.sum_congr rfl fun t _ => ?_
  rw [hf, hr, Finset.sum_product]
  refine Finset.sum_congr rfl fun ch _ => ?_
  rw [List.map_map, hr]
  rfl

/-- The equations of a station: for each cell and each polarization of the other station. -/
def eqSet (c : Cfg) : Finset ((Nat × Nat × Nat) × Nat) := cellSet c ×ˢ range 2

/-- The matrix product of the conjugate transposed gains g of the other station with the model, row p2 and column p1. -/
noncomputable def predicted (c : Cfg) (mvis : Nat → ℂ) (g : Nat → Mat) (st1 : Nat) (p1 : Nat) (k : (Nat × Nat × Nat) × Nat) : ℂ :=
  if k.2 = 0 then
    (starRingEnd ℂ) (g k.1.2.2).a * block c mvis st1 k.1 0 p1 + (starRingEnd ℂ) (g k.1.2.2).c * block c mvis st1 k.1 1 p1
  else
    (starRingEnd ℂ) (g k.1.2.2).b * block c mvis st1 k.1 0 p1 + (starRingEnd ℂ) (g k.1.2.2).d * block c mvis st1 k.1 1 p1

/-- The squared residual of a station with gains x, for the gains g of the others. -/
noncomputable def costFull (c : Cfg) (vis mvis : Nat → ℂ) (g : Nat → Mat) (st1 : Nat) (x : Mat) : ℝ :=
  ∑ k ∈ eqSet c,
    (normSq (block c vis st1 k.1 k.2 0 - (predicted c mvis g st1 0 k * x.a + predicted c mvis g st1 1 k * x.c)) +
     normSq (block c vis st1 k.1 k.2 1 - (predicted c mvis g st1 0 k * x.b + predicted c mvis g st1 1 k * x.d)))

theorem sum_eqSet (c : Cfg) (f : (Nat × Nat × Nat) × Nat → ℂ) :
    ∑ k ∈ eqSet c, f k = ∑ x ∈ cellSet c, (f (x, 0) + f (x, 1)) := by
  unfold eqSet
  rw [Finset.sum_product]
  exact Finset.sum_congr rfl fun x _ => by rw [Finset.sum_range_succ, Finset.sum_range_one]

theorem wSum_eq (c : Cfg) (mvis : Nat → ℂ) (g : Nat → Mat) (st1 : Nat) :
    wSum c mvis (fun st => (g st).conj) st1 =
      ⟨dot (eqSet c) (predicted c mvis g st1 0) (predicted c mvis g st1 0),
       dot (eqSet c) (predicted c mvis g st1 0) (predicted c mvis g st1 1),
       dot (eqSet c) (predicted c mvis g st1 1) (predicted c mvis g st1 0),
       dot (eqSet c) (predicted c mvis g st1 1) (predicted c mvis g st1 1)⟩ := by
  have hb : ∑ x ∈ cellSet c, (wOf (zOf (g x.2.2).conj (block c mvis st1 x))).b =
      dot (eqSet c) (predicted c mvis g st1 0) (predicted c mvis g st1 1) := by
    unfold dot
    rw [sum_eqSet]
    rfl
  unfold wSum
  simp only
  rw [foldl_mat]
  simp only [sum_cells, zero_add]
  rw [hb, dot_conj]
  congr 1
  · unfold dot; rw [sum_eqSet]; rfl
  · unfold dot; rw [sum_eqSet]; rfl

theorem tSum_eq (c : Cfg) (vis mvis : Nat → ℂ) (g : Nat → Mat) (st1 : Nat) :
    tSum c vis mvis (fun st => (g st).conj) st1 =
      ⟨dot (eqSet c) (predicted c mvis g st1 0) (fun k => block c vis st1 k.1 k.2 0),
       dot (eqSet c) (predicted c mvis g st1 0) (fun k => block c vis st1 k.1 k.2 1),
       dot (eqSet c) (predicted c mvis g st1 1) (fun k => block c vis st1 k.1 k.2 0),
       dot (eqSet c) (predicted c mvis g st1 1) (fun k => block c vis st1 k.1 k.2 1)⟩ := by
  unfold tSum
  rw [foldl_mat]
  simp only [sum_cells, zero_add]
  congr 1 <;> (unfold dot; rw [sum_eqSet]; rfl)

/-- The determinant of the normal equations of a station. -/
noncomputable def detFull (c : Cfg) (mvis : Nat → ℂ) (g : Nat → Mat) (st1 : Nat) : ℂ :=
  dot (eqSet c) (predicted c mvis g st1 0) (predicted c mvis g st1 0) *
    dot (eqSet c) (predicted c mvis g st1 1) (predicted c mvis g st1 1) -
  dot (eqSet c) (predicted c mvis g st1 0) (predicted c mvis g st1 1) *
    dot (eqSet c) (predicted c mvis g st1 1) (predicted c mvis g st1 0)

theorem costFull_split (c : Cfg) (vis mvis : Nat → ℂ) (g : Nat → Mat) (st1 : Nat) (x : Mat) :
    costFull c vis mvis g st1 x =
      sq2 (eqSet c) (predicted c mvis g st1 0) (predicted c mvis g st1 1) (fun k => block c vis st1 k.1 k.2 0) x.a x.c +
      sq2 (eqSet c) (predicted c mvis g st1 0) (predicted c mvis g st1 1) (fun k => block c vis st1 k.1 k.2 1) x.b x.d := by
  unfold costFull sq2
  rw [Finset.sum_add_distrib]

theorem full_value (c : Cfg) (vis mvis : Nat → ℂ) (g : Nat → Mat) (flagged : Nat → Bool) (st : Nat) (hs : st < c.nSt)
    (hf : flagged st = false) (hd : detFull c mvis g st ≠ 0) :
    (stepPolarized c vis mvis g flagged).1 st =
      solve2 (wSum c mvis (fun st => (g st).conj) st) (tSum c vis mvis (fun st => (g st).conj) st) := by
  unfold stepPolarized
  simp only
  rw [if_pos ⟨hs, hf⟩, if_neg]
  rw [wSum_eq]
  exact hd

/-- C110: a step gives each unflagged station the one Jones matrix with the smallest residual for the given gains of the other
stations, if its normal equations are regular. -/
theorem full_best (c : Cfg) (vis mvis : Nat → ℂ) (g : Nat → Mat) (flagged : Nat → Bool) (st : Nat) (hs : st < c.nSt)
    (hf : flagged st = false) (hd : detFull c mvis g st ≠ 0) (x : Mat) :
    costFull c vis mvis g st ((stepPolarized c vis mvis g flagged).1 st) ≤ costFull c vis mvis g st x ∧
    (costFull c vis mvis g st x ≤ costFull c vis mvis g st ((stepPolarized c vis mvis g flagged).1 st) →
      x = (stepPolarized c vis mvis g flagged).1 st) := by
  rw [full_value c vis mvis g flagged st hs hf hd, wSum_eq, tSum_eq, costFull_split, costFull_split]
  simp only [solve2]
  unfold detFull at hd
  set P := predicted c mvis g st 0
  set Q := predicted c mvis g st 1
  set S := eqSet c
  set V0 : (Nat × Nat × Nat) × Nat → ℂ := fun k => block c vis st k.1 k.2 0
  set V1 : (Nat × Nat × Nat) × Nat → ℂ := fun k => block c vis st k.1 k.2 1
  set D := dot S P P * dot S Q Q - dot S P Q * dot S Q P with hD
  have key : ∀ (V : (Nat × Nat × Nat) × Nat → ℂ) (u v : ℂ),
      sq2 S P Q V (1 / D * (dot S Q Q * dot S P V - dot S P Q * dot S Q V))
        (1 / D * (dot S P P * dot S Q V - dot S Q P * dot S P V)) ≤ sq2 S P Q V u v ∧
      (sq2 S P Q V u v ≤ sq2 S P Q V (1 / D * (dot S Q Q * dot S P V - dot S P Q * dot S Q V))
        (1 / D * (dot S P P * dot S Q V - dot S Q P * dot S P V)) →
        u = 1 / D * (dot S Q Q * dot S P V - dot S P Q * dot S Q V) ∧
        v = 1 / D * (dot S P P * dot S Q V - dot S Q P * dot S P V)) := by
    intro V u v
    apply sq2_best S P Q V _ _ hd
    · have : dot S P P * (1 / D * (dot S Q Q * dot S P V - dot S P Q * dot S Q V)) +
          dot S P Q * (1 / D * (dot S P P * dot S Q V - dot S Q P * dot S P V)) = (1 / D) * D * dot S P V := by
        rw [hD]; ring
      rw [this, one_div, inv_mul_cancel₀ hd, one_mul]
    · have : dot S Q P * (1 / D * (dot S Q Q * dot S P V - dot S P Q * dot S Q V)) +
          dot S Q Q * (1 / D * (dot S P P * dot S Q V - dot S Q P * dot S P V)) = (1 / D) * D * dot S Q V := by
        rw [hD]; ring
      rw [this, one_div, inv_mul_cancel₀ hd, one_mul]
  have k0 := key V0 x.a x.c
  have k1 := key V1 x.b x.d
  refine ⟨add_le_add k0.1 k1.1, ?_⟩
  intro h
  obtain ⟨e1, e2⟩ := k0.2 (by linarith [k1.1])
  obtain ⟨e3, e4⟩ := k1.2 (by linarith [k0.1])
  cases x
  simp only at e1 e2 e3 e4
  rw [e1, e2, e3, e4]

/-- The gains explain the visibilities of a station: each is the product of the conjugate transposed gains of the one station, the
model and the gains of the other. -/
def ExplainsFull (c : Cfg) (vis mvis : Nat → ℂ) (g : Nat → Mat) (st : Nat) : Prop :=
  ∀ k ∈ eqSet c,
    block c vis st k.1 k.2 0 = predicted c mvis g st 0 k * (g st).a + predicted c mvis g st 1 k * (g st).c ∧
    block c vis st k.1 k.2 1 = predicted c mvis g st 0 k * (g st).b + predicted c mvis g st 1 k * (g st).d

/-- C110: Jones matrices that explain the visibilities stay as they are, and so do the flags. -/
theorem full_fixed (c : Cfg) (vis mvis : Nat → ℂ) (g : Nat → Mat) (flagged : Nat → Bool)
    (h : ∀ st, st < c.nSt → flagged st = true ∨ (ExplainsFull c vis mvis g st ∧ detFull c mvis g st ≠ 0)) :
    (stepPolarized c vis mvis g flagged).1 = g ∧ (stepPolarized c vis mvis g flagged).2 = flagged := by
  constructor
  · funext st
    by_cases hs : st < c.nSt
    · rcases h st hs with hf | ⟨he, hd⟩
      · unfold stepPolarized
        simp only
        rw [if_neg (by rw [hf]; simp)]
      · by_cases hf : flagged st = true
        · unfold stepPolarized
          simp only
          rw [if_neg (by rw [hf]; simp)]
        · have hf' : flagged st = false := by simpa using hf
          refine ((full_best c vis mvis g flagged st hs hf' hd (g st)).2 ?_).symm
          have h0 : costFull c vis mvis g st (g st) = 0 := by
            unfold costFull
            refine Finset.sum_eq_zero fun k hk => ?_
            rw [(he k hk).1, (he k hk).2, sub_self, sub_self, map_zero, add_zero]
          rw [h0]
          exact Finset.sum_nonneg fun k _ => add_nonneg (normSq_nonneg _) (normSq_nonneg _)
    · unfold stepPolarized
      simp only
      rw [if_neg (by rintro ⟨h, -⟩; exact hs h)]
  · funext st
    unfold stepPolarized
    simp only
    by_cases hf : flagged st = true
    · rw [hf]; rfl
    · classical
      rw [Bool.or_eq_left_iff_imp]
      intro hd
      exfalso
      revert hd
      rw [decide_eq_true_iff]
      rintro ⟨hs, hd⟩
      rcases h st hs with h1 | ⟨-, h1⟩
      · exact hf h1
      · rw [wSum_eq] at hd
        exact h1 hd

/-- C110: a step flags exactly the stations with singular normal equations, in addition to those that are flagged. -/
theorem full_flag (c : Cfg) (vis mvis : Nat → ℂ) (g : Nat → Mat) (flagged : Nat → Bool) (st : Nat) :
    (stepPolarized c vis mvis g flagged).2 st = true ↔ flagged st = true ∨ (st < c.nSt ∧ detFull c mvis g st = 0) := by
  unfold stepPolarized
  simp only
  classical
  rw [Bool.or_eq_true, decide_eq_true_iff, wSum_eq]
  rfl

/-- C110: a common phase of all Jones matrices does not change the residual of any station, so the phase of the solutions comes from
the start. -/
theorem full_phase (c : Cfg) (mvis : Nat → ℂ) (g : Nat → Mat) (k : ℂ) (hk : ‖k‖ = 1) (vis : Nat → ℂ) (st : Nat) (x : Mat) :
    costFull c vis mvis (fun s => ⟨k * (g s).a, k * (g s).b, k * (g s).c, k * (g s).d⟩) st ⟨k * x.a, k * x.b, k * x.c, k * x.d⟩ =
      costFull c vis mvis g st x := by
  have h1 : (starRingEnd ℂ) k * k = 1 := by
    rw [← normSq_eq_conj_mul_self, normSq_eq_norm_sq, hk]; norm_num
  unfold costFull
  refine Finset.sum_congr rfl fun e _ => ?_
  have hp : ∀ p : Nat, predicted c mvis (fun s => ⟨k * (g s).a, k * (g s).b, k * (g s).c, k * (g s).d⟩) st p e =
      (starRingEnd ℂ) k * predicted c mvis g st p e := by
    intro p
    unfold predicted
    split <;> (simp only [map_mul]; ring)
  simp only [hp]
  have e1 : ∀ u v : ℂ, (starRingEnd ℂ) k * predicted c mvis g st 0 e * (k * u) + (starRingEnd ℂ) k * predicted c mvis g st 1 e * (k * v) =
      predicted c mvis g st 0 e * u + predicted c mvis g st 1 e * v := by
    intro u v
    linear_combination (predicted c mvis g st 0 e * u + predicted c mvis g st 1 e * v) * h1
  rw [e1, e1]

/-! ## Example -/

/-- A model with unit matrices for the crosscorrelations of two stations. -/
def exModelFull (a : Nat) : ℂ := if a % 2 = a / 8 then 0 else if a / 2 % 2 = a / 4 % 2 then 1 else 0

/-- True gains: a unit matrix, and a shear. -/
def exGainFull (st : Nat) : Mat := if st = 1 then ⟨1, 1, 0, 1⟩ else ⟨1, 0, 0, 1⟩

/-- The visibilities: the shear for station 1, and its transpose for station 0. -/
def exVisFull (a : Nat) : ℂ :=
  if a % 2 = a / 8 then 0
  else if a / 8 = 1 then (if a / 2 % 2 = 1 ∧ a / 4 % 2 = 0 then 0 else 1)
  else (if a / 2 % 2 = 0 ∧ a / 4 % 2 = 1 then 0 else 1)

/-- Example: the hypotheses of the theorems hold for these gains. -/
theorem ex_full (st : Nat) (hs : st < 2) :
    ExplainsFull (exCfg .fullJones) exVisFull exModelFull exGainFull st ∧
    detFull (exCfg .fullJones) exModelFull exGainFull st ≠ 0 := by
  have h : st = 0 ∨ st = 1 := by omega
  constructor
  · rintro ⟨⟨t, ch, st2⟩, p2⟩ hk
    simp only [eqSet, cellSet, exCfg, Finset.mem_product, Finset.mem_range] at hk
    obtain ⟨⟨ht, hc, h2⟩, hp⟩ := hk
    have ht' : t = 0 := by omega
    have hc' : ch = 0 := by omega
    have h2' : st2 = 0 ∨ st2 = 1 := by omega
    have hp' : p2 = 0 ∨ p2 = 1 := by omega
    subst ht' hc'
    rcases h with rfl | rfl <;> rcases h2' with rfl | rfl <;> rcases hp' with rfl | rfl <;>
      simp [predicted, block, offset, exCfg, exVisFull, exModelFull, exGainFull]
  · unfold detFull dot
    rcases h with rfl | rfl <;>
      simp [sum_eqSet, cellSet, Finset.sum_product, Finset.sum_range_succ, predicted, block, offset, exCfg, exModelFull, exGainFull]

end DP3.GainCal
