import Verif.IterSolver.Spec
import Mathlib.Algebra.BigOperators.Group.List.Basic
import Mathlib.Algebra.Order.Field.Basic
import Mathlib.Tactic.Abel

/-!
# Lemmas about the iterative solvers
-/

namespace DP3.IterSolver

open DP3.StringTools

set_option linter.unusedSectionVars false

section Sums

variable {V S N D O : Type} [AddCommGroup V] [AddCommMonoid N] [AddCommMonoid D]

/-- What a visibility adds to element `i` of the numerators. -/
def numAt (k : Kernel V S N D O) (nSub nDir first : Nat) (s : Nat → S) (d i : Nat) (x : Vis V × V) : N :=
  (if i = x.1.ant1 * nDir + (x.1.sol d - first) then
    k.num1 x.2 (x.1.model d) (s (x.1.ant2 * nSub + x.1.sol d)) else 0) +
  (if i = x.1.ant2 * nDir + (x.1.sol d - first) then
    k.num2 x.2 (x.1.model d) (s (x.1.ant1 * nSub + x.1.sol d)) else 0)

/-- What a visibility adds to element `i` of the denominators. -/
def denAt (k : Kernel V S N D O) (nSub nDir first : Nat) (s : Nat → S) (d i : Nat) (x : Vis V × V) : D :=
  (if i = x.1.ant1 * nDir + (x.1.sol d - first) then
    k.den1 (x.1.model d) (s (x.1.ant2 * nSub + x.1.sol d)) else 0) +
  (if i = x.1.ant2 * nDir + (x.1.sol d - first) then
    k.den2 (x.1.model d) (s (x.1.ant1 * nSub + x.1.sol d)) else 0)

theorem bump_eq {X : Type} [AddCommMonoid X] (i j : Nat) (x : X) (f : Nat → X) :
    bump i x f j = f j + (if j = i then x else 0) := by
  simp only [bump]; split <;> simp

theorem addVis_num (k : Kernel V S N D O) (nSub nDir first : Nat) (s : Nat → S) (d i : Nat) (acc : Sums N D)
    (x : Vis V × V) :
    (addVis k nSub nDir first s d acc x).num i = acc.num i + numAt k nSub nDir first s d i x := by
  simp only [addVis, bump_eq, numAt, add_assoc]

theorem addVis_den (k : Kernel V S N D O) (nSub nDir first : Nat) (s : Nat → S) (d i : Nat) (acc : Sums N D)
    (x : Vis V × V) :
    (addVis k nSub nDir first s d acc x).den i = acc.den i + denAt k nSub nDir first s d i x := by
  simp only [addVis, bump_eq, denAt, add_assoc]

theorem part_sums (k : Kernel V S N D O) (nSub nDir first : Nat) (s : Nat → S) (d i : Nat)
    (part : List (Vis V × V)) : ∀ acc : Sums N D,
    (part.foldl (addVis k nSub nDir first s d) acc).num i =
      acc.num i + (part.map (numAt k nSub nDir first s d i)).sum ∧
    (part.foldl (addVis k nSub nDir first s d) acc).den i =
      acc.den i + (part.map (denAt k nSub nDir first s d i)).sum := by
  induction part with
  | nil => intro acc; simp
  | cons x xs ih =>
    intro acc
    obtain ⟨h1, h2⟩ := ih (addVis k nSub nDir first s d acc x)
    simp only [List.foldl_cons, List.map_cons, List.sum_cons]
    rw [h1, h2, addVis_num, addVis_den, add_assoc, add_assoc]
    exact ⟨rfl, rfl⟩

theorem parts_sums (k : Kernel V S N D O) (nSub nDir first : Nat) (s : Nat → S) (d i : Nat)
    (parts : List (List (Vis V × V))) : ∀ acc : Sums N D,
    (parts.foldl (addPart k nSub nDir first s d) acc).num i =
      acc.num i + (parts.flatten.map (numAt k nSub nDir first s d i)).sum ∧
    (parts.foldl (addPart k nSub nDir first s d) acc).den i =
      acc.den i + (parts.flatten.map (denAt k nSub nDir first s d i)).sum := by
  induction parts with
  | nil => intro acc; simp
  | cons p ps ih =>
    intro acc
    obtain ⟨h1, h2⟩ := ih (addPart k nSub nDir first s d acc p)
    obtain ⟨h3, h4⟩ := part_sums k nSub nDir first s d i p Sums.zero
    simp only [List.foldl_cons, List.flatten_cons, List.map_append, List.sum_append]
    rw [h1, h2]
    simp only [addPart]
    rw [h3, h4]
    simp [Sums.zero, add_assoc]

/-- The residual of a visibility with a direction added back. -/
def base (k : Kernel V S N D O) (nSub nDirs : Nat) (s : Nat → S) (d : Nat) (v : Vis V) : V :=
  v.data - ((List.range nDirs).map fun e => term k nSub s e v).sum + term k nSub s d v

theorem zipWith_map_right' {A B C : Type} (f : A → B → C) (g : A → B) (l : List A) :
    List.zipWith f l (l.map g) = l.map fun x => f x (g x) := by
  induction l with
  | nil => rfl
  | cons x xs ih => simp [ih]

theorem residual_eq (k : Kernel V S N D O) (nSub : Nat) (s : Nat → S) (vs : List (Vis V)) (n : Nat) :
    (List.range n).foldl (fun r d => subtractDirection k nSub s d vs r) (vs.map Vis.data) =
      vs.map fun v => v.data - ((List.range n).map fun e => term k nSub s e v).sum := by
  induction n with
  | zero => simp
  | succ n ih =>
    rw [List.range_succ, List.foldl_append, ih]
    simp only [List.foldl_cons, List.foldl_nil, subtractDirection, zipWith_map_right', List.map_append,
      List.sum_append, List.map_cons, List.map_nil, List.sum_cons, List.sum_nil]
    refine List.map_congr_left fun v _ => ?_
    abel

theorem zip_base (k : Kernel V S N D O) (nSub nDirs : Nat) (s : Nat → S) (d : Nat) (vs : List (Vis V)) :
    vs.zip (addDirection k nSub s d vs
      ((List.range nDirs).foldl (fun r d => subtractDirection k nSub s d vs r) (vs.map Vis.data))) =
      vs.map fun v => (v, base k nSub nDirs s d v) := by
  rw [residual_eq, addDirection, zipWith_map_right', List.zip, zipWith_map_right']
  rfl

/-! ## The solution indices -/

theorem firstSol_succ (nSol : Nat → Nat) (d : Nat) : firstSol nSol (d + 1) = firstSol nSol d + nSol d := by
  simp [firstSol, List.range_succ]

theorem firstSol_mono (nSol : Nat → Nat) {d e : Nat} (h : d ≤ e) : firstSol nSol d ≤ firstSol nSol e := by
  induction e with
  | zero => simp_all
  | succ e ih =>
    rcases Nat.lt_or_ge d (e + 1) with h' | h'
    · have := ih (by omega); rw [firstSol_succ]; omega
    · have : d = e + 1 := by omega
      rw [this]

theorem firstSol_disjoint (nSol : Nat → Nat) {d e j : Nat} (hd : firstSol nSol d ≤ j ∧ j < firstSol nSol d + nSol d)
    (he : firstSol nSol e ≤ j ∧ j < firstSol nSol e + nSol e) : d = e := by
  rcases Nat.lt_trichotomy d e with h | h | h
  · have := firstSol_mono nSol (Nat.succ_le_of_lt h); rw [Nat.succ_eq_add_one, firstSol_succ] at this; omega
  · exact h
  · have := firstSol_mono nSol (Nat.succ_le_of_lt h); rw [Nat.succ_eq_add_one, firstSol_succ] at this; omega

theorem index_inj {n a b j l : Nat} (hj : j < n) (hl : l < n) : a * n + j = b * n + l ↔ a = b ∧ j = l := by
  constructor
  · intro h
    have hn : 0 < n := by omega
    have h1 : (a * n + j) / n = a := by rw [Nat.mul_comm, Nat.mul_add_div hn, Nat.div_eq_of_lt hj]; rfl
    have h2 : (b * n + l) / n = b := by rw [Nat.mul_comm, Nat.mul_add_div hn, Nat.div_eq_of_lt hl]; rfl
    have hab : a = b := by rw [← h1, h, h2]
    subst hab
    exact ⟨rfl, by omega⟩
  · rintro ⟨rfl, rfl⟩; rfl

/-! ## The result of an iteration -/

/-- The new solution, from sums over all visibilities. -/
def solved (k : Kernel V S N D O) (nSub nDirs nDir first : Nat) (s : Nat → S) (d : Nat) (vs : List (Vis V))
    (a j : Nat) : O :=
  k.finish
    ((vs.map fun v => numAt k nSub nDir first s d (a * nDir + (j - first)) (v, base k nSub nDirs s d v)).sum)
    ((vs.map fun v => denAt k nSub nDir first s d (a * nDir + (j - first)) (v, base k nSub nDirs s d v)).sum)

/-- The loop over directions, after `n` of them. -/
theorem iterate_eq (k : Kernel V S N D O) (split : List (Vis V × V) → List (List (Vis V × V)))
    (hsplit : ∀ l, (split l).flatten.Perm l) {nAnt nSub nDirs : Nat} {nSol : Nat → Nat} {vs : List (Vis V)}
    (hl : Layout nAnt nSub nDirs nSol vs) (hne : vs ≠ []) (s : Nat → S) (next : Nat → Nat → O) :
    ∀ n ≤ nDirs, ∃ next',
      (List.range n).foldl (iterateDirection k split nAnt nSub nSol s vs
        ((List.range nDirs).foldl (fun r d => subtractDirection k nSub s d vs r) (vs.map Vis.data)))
        (.ok next) = .ok next' ∧
      (∀ a < nAnt, ∀ d < n, ∀ j, firstSol nSol d ≤ j → j < firstSol nSol d + nSol d →
        next' a j = solved k nSub nDirs (nSol d) (firstSol nSol d) s d vs a j) ∧
      (∀ a j, (a ≥ nAnt ∨ j ≥ firstSol nSol n) → next' a j = next a j) := by
  intro n
  induction n with
  | zero => intro _; exact ⟨next, rfl, by intro _ _ d hd; omega, fun _ _ _ => rfl⟩
  | succ n ih =>
    intro hn
    obtain ⟨nx, hnx, hval, hrest⟩ := ih (by omega)
    obtain ⟨v0, w, rfl⟩ : ∃ v0 w, vs = v0 :: w := by
      cases vs with
      | nil => exact absurd rfl hne
      | cons v0 w => exact ⟨v0, w, rfl⟩
    have hfirst : v0.sol n = firstSol nSol n := hl.first v0 rfl n (by omega)
    rw [List.range_succ, List.foldl_append, hnx]
    simp only [List.foldl_cons, List.foldl_nil]
    rw [iterateDirection, solveDirection]
    simp only [hfirst, zip_base]
    refine ⟨_, rfl, ?_, ?_⟩
    · intro a ha d hd j hj1 hj2
      rcases Nat.lt_or_ge d n with h | h
      · have hm := firstSol_mono nSol (Nat.succ_le_of_lt h)
        rw [Nat.succ_eq_add_one, firstSol_succ] at hm
        rw [if_neg (by omega)]
        exact hval a ha d h j hj1 hj2
      · have : d = n := by omega
        subst this
        rw [if_pos ⟨ha, hj1, hj2⟩]
        rw [(parts_sums k nSub _ _ s d _ _ _).1, (parts_sums k nSub _ _ s d _ _ _).2]
        rw [((hsplit _).map _).sum_eq, ((hsplit _).map _).sum_eq, List.map_map, List.map_map]
        simp only [Sums.zero, zero_add]
        rfl
    · intro a j h
      have hm := firstSol_succ nSol n
      rw [if_neg (by omega)]
      exact hrest a j (by omega)

end Sums

/-! ## Laws of a solver -/

section Law

variable {K V S N D O : Type} [Field K] [LinearOrder K] [IsStrictOrderedRing K]
variable [AddCommGroup V] [AddCommMonoid N] [AddCommMonoid D]

/-- What makes the formulas of a solver those of a least squares problem. -/
structure Law (k : Kernel V S N D O) (embV : V → M2 K) (embS : S → M2 K) (fill : O → S → S)
    (lin : N → S → K) (quad : D → S → K) (good : D → Prop) : Prop where
  embV_add : ∀ u v, embV (u + v) = embV u + embV v
  contribution : ∀ m s1 s2, embV (k.contribution m s1 s2) = embS s1 * embV m * (embS s2).herm
  exp1 : ∀ b m s2 y, (embV b - embS y * embV m * (embS s2).herm).norm =
    (embV b).norm - lin (k.num1 b m s2) y + quad (k.den1 m s2) y
  exp2 : ∀ b m s1 y, (embV b - embS s1 * embV m * (embS y).herm).norm =
    (embV b).norm - lin (k.num2 b m s1) y + quad (k.den2 m s1) y
  lin_zero : ∀ y, lin 0 y = 0
  lin_add : ∀ n n' y, lin (n + n') y = lin n y + lin n' y
  quad_zero : ∀ y, quad 0 y = 0
  quad_add : ∀ d d' y, quad (d + d') y = quad d y + quad d' y
  good_zero : good 0
  good_add : ∀ d d', good d → good d' → good (d + d')
  good1 : ∀ m s2, good (k.den1 m s2)
  good2 : ∀ m s1, good (k.den2 m s1)
  minimal : ∀ n d, good d → ∀ y, quad d (fill (k.finish n d) y) - lin n (fill (k.finish n d) y) ≤
    quad d y - lin n y
  strict : ∀ n d, good d → ∀ y, quad d y - lin n y ≤
    quad d (fill (k.finish n d) y) - lin n (fill (k.finish n d) y) → fill (k.finish n d) y = y

variable {k : Kernel V S N D O} {embV : V → M2 K} {embS : S → M2 K} {fill : O → S → S}
  {lin : N → S → K} {quad : D → S → K} {good : D → Prop}

theorem Law.embV_zero (h : Law k embV embS fill lin quad good) : embV 0 = 0 := by
  have := h.embV_add 0 0
  rw [add_zero] at this
  exact left_eq_add.mp this

theorem Law.embV_sub (h : Law k embV embS fill lin quad good) (u v : V) : embV (u - v) = embV u - embV v := by
  have := h.embV_add (u - v) v
  rw [sub_add_cancel] at this
  rw [this, add_sub_cancel_right]

theorem Law.embV_sum (h : Law k embV embS fill lin quad good) (l : List V) :
    embV l.sum = (l.map embV).sum := by
  induction l with
  | nil => simpa using h.embV_zero
  | cons x xs ih => simp [h.embV_add, ih]

/-- Sums over a range that differ in one term. -/
theorem sum_range_update {G : Type} [AddCommGroup G] (f g : Nat → G) (d n : Nat) (hd : d < n)
    (hfg : ∀ e < n, e ≠ d → g e = f e) :
    ((List.range n).map g).sum = ((List.range n).map f).sum - f d + g d := by
  induction n with
  | zero => omega
  | succ n ih =>
    simp only [List.range_succ, List.map_append, List.sum_append, List.map_cons, List.map_nil, List.sum_cons,
      List.sum_nil, add_zero]
    rcases Nat.lt_or_ge d n with h | h
    · rw [ih h fun e he => hfg e (by omega), hfg n (by omega) (by omega)]; abel
    · have : d = n := by omega
      subst this
      have : (List.range d).map g = (List.range d).map f :=
        List.map_congr_left fun e he => hfg e (by have := List.mem_range.mp he; omega)
          (by have := List.mem_range.mp he; omega)
      rw [this]; abel

theorem embV_base (h : Law k embV embS fill lin quad good) (nSub nDirs : Nat) (s : Nat → S) (d : Nat)
    (v : Vis V) :
    embV (base k nSub nDirs s d v) = embV v.data - predicted embV embS nSub nDirs s v +
      embS (s (v.ant1 * nSub + v.sol d)) * embV (v.model d) * (embS (s (v.ant2 * nSub + v.sol d))).herm := by
  rw [base, h.embV_add, h.embV_sub, h.embV_sum, term, h.contribution, List.map_map]
  have : (embV ∘ fun e => term k nSub s e v) = fun e =>
      embS (s (v.ant1 * nSub + v.sol e)) * embV (v.model e) * (embS (s (v.ant2 * nSub + v.sol e))).herm := by
    funext e; simp only [Function.comp, term, h.contribution]
  rw [this]; rfl

/-- The squared difference of one visibility, as function of one solution. -/
theorem vis_quadratic (h : Law k embV embS fill lin quad good) {nAnt nSub nDirs : Nat} {nSol : Nat → Nat}
    {vs : List (Vis V)} (hl : Layout nAnt nSub nDirs nSol vs) (s : Nat → S) {a d j : Nat}
    (hd : d < nDirs) (hj : firstSol nSol d ≤ j ∧ j < firstSol nSol d + nSol d) {v : Vis V} (hv : v ∈ vs) :
    ∃ P, ∀ y, (embV v.data - predicted embV embS nSub nDirs (replace s nSub a j y) v).norm =
      P - lin (numAt k nSub (nSol d) (firstSol nSol d) s d (a * nSol d + (j - firstSol nSol d))
            (v, base k nSub nDirs s d v)) y +
        quad (denAt k nSub (nSol d) (firstSol nSol d) s d (a * nSol d + (j - firstSol nSol d))
            (v, base k nSub nDirs s d v)) y := by
  obtain ⟨-, -, hne⟩ := hl.ants v hv
  have hsol := hl.sols v hv
  have hlt : ∀ e < nDirs, v.sol e < nSub := by
    intro e he
    have := firstSol_mono nSol (Nat.succ_le_of_lt he)
    rw [Nat.succ_eq_add_one, firstSol_succ, hl.total] at this
    have := hsol e he; omega
  have hjlt : j < nSub := by
    have := firstSol_mono nSol (Nat.succ_le_of_lt hd)
    rw [Nat.succ_eq_add_one, firstSol_succ, hl.total] at this
    omega
  have hrep : ∀ b e, e < nDirs → ∀ y, replace s nSub a j y (b * nSub + v.sol e) =
      if b = a ∧ v.sol e = j then y else s (b * nSub + v.sol e) := by
    intro b e he y
    simp only [replace, index_inj (hlt e he) hjlt]
  have hother : ∀ e < nDirs, e ≠ d → v.sol e ≠ j := by
    intro e he hed hc
    exact hed (firstSol_disjoint nSol (hc ▸ hsol e he) hj)
  have hpred : ∀ y, predicted embV embS nSub nDirs (replace s nSub a j y) v =
      predicted embV embS nSub nDirs s v -
        embS (s (v.ant1 * nSub + v.sol d)) * embV (v.model d) * (embS (s (v.ant2 * nSub + v.sol d))).herm +
        embS (replace s nSub a j y (v.ant1 * nSub + v.sol d)) * embV (v.model d) *
          (embS (replace s nSub a j y (v.ant2 * nSub + v.sol d))).herm := by
    intro y
    refine sum_range_update _ _ d nDirs hd fun e he hed => ?_
    rw [hrep _ e he, hrep _ e he, if_neg (fun c => hother e he hed c.2), if_neg (fun c => hother e he hed c.2)]
  have hdiff : ∀ y, embV v.data - predicted embV embS nSub nDirs (replace s nSub a j y) v =
      embV (base k nSub nDirs s d v) -
        embS (replace s nSub a j y (v.ant1 * nSub + v.sol d)) * embV (v.model d) *
          (embS (replace s nSub a j y (v.ant2 * nSub + v.sol d))).herm := by
    intro y; rw [hpred, embV_base h]; abel
  have hsd := hsol d hd
  have hidx : ∀ b, (a * nSol d + (j - firstSol nSol d) = b * nSol d + (v.sol d - firstSol nSol d)) ↔
      (a = b ∧ v.sol d = j) := by
    intro b
    rw [index_inj (by omega) (by omega)]
    exact ⟨fun ⟨x, y⟩ => ⟨x, by omega⟩, fun ⟨x, y⟩ => ⟨x, by omega⟩⟩
  simp only [hdiff, hrep _ d hd, numAt, denAt, hidx]
  by_cases hsj : v.sol d = j
  · by_cases h1 : v.ant1 = a
    · have h2 : ¬ v.ant2 = a := fun c => hne (h1.trans c.symm)
      refine ⟨(embV (base k nSub nDirs s d v)).norm, fun y => ?_⟩
      rw [if_pos ⟨h1, hsj⟩, if_neg (fun c => h2 c.1), if_pos ⟨h1.symm, hsj⟩, if_neg (fun c => h2 c.1.symm),
        if_pos ⟨h1.symm, hsj⟩, if_neg (fun c => h2 c.1.symm), add_zero, add_zero, h.exp1]
    · by_cases h2 : v.ant2 = a
      · refine ⟨(embV (base k nSub nDirs s d v)).norm, fun y => ?_⟩
        rw [if_neg (fun c => h1 c.1), if_pos ⟨h2, hsj⟩, if_neg (fun c => h1 c.1.symm), if_pos ⟨h2.symm, hsj⟩,
          if_neg (fun c => h1 c.1.symm), if_pos ⟨h2.symm, hsj⟩, zero_add, zero_add, h.exp2]
      · refine ⟨(embV (base k nSub nDirs s d v) - embS (s (v.ant1 * nSub + v.sol d)) * embV (v.model d) *
          (embS (s (v.ant2 * nSub + v.sol d))).herm).norm, fun y => ?_⟩
        rw [if_neg (fun c => h1 c.1), if_neg (fun c => h2 c.1), if_neg (fun c => h1 c.1.symm),
          if_neg (fun c => h2 c.1.symm), if_neg (fun c => h1 c.1.symm), if_neg (fun c => h2 c.1.symm), add_zero,
          add_zero, h.lin_zero, h.quad_zero, sub_zero, add_zero]
  · refine ⟨(embV (base k nSub nDirs s d v) - embS (s (v.ant1 * nSub + v.sol d)) * embV (v.model d) *
          (embS (s (v.ant2 * nSub + v.sol d))).herm).norm, fun y => ?_⟩
    rw [if_neg (fun c => hsj c.2), if_neg (fun c => hsj c.2), if_neg (fun c => hsj c.2),
      if_neg (fun c => hsj c.2), if_neg (fun c => hsj c.2), if_neg (fun c => hsj c.2), add_zero,
      add_zero, h.lin_zero, h.quad_zero, sub_zero, add_zero]

theorem sum_quadratic (h : Law k embV embS fill lin quad good) {A : Type} (f : A → S → K) (n : A → N) (q : A → D)
    (l : List A) (hq : ∀ x ∈ l, ∃ P, ∀ y, f x y = P - lin (n x) y + quad (q x) y) :
    ∃ P, ∀ y, (l.map fun x => f x y).sum = P - lin ((l.map n).sum) y + quad ((l.map q).sum) y := by
  induction l with
  | nil => exact ⟨0, fun y => by simp [h.lin_zero, h.quad_zero]⟩
  | cons x xs ih =>
    obtain ⟨P, hP⟩ := ih fun z hz => hq z (List.mem_cons_of_mem _ hz)
    obtain ⟨Q, hQ⟩ := hq x List.mem_cons_self
    refine ⟨Q + P, fun y => ?_⟩
    simp only [List.map_cons, List.sum_cons]
    rw [hP, hQ, h.lin_add, h.quad_add]; ring

theorem denAt_good (h : Law k embV embS fill lin quad good) (nSub nDir first : Nat) (s : Nat → S) (d i : Nat)
    (x : Vis V × V) : good (denAt k nSub nDir first s d i x) := by
  refine h.good_add _ _ ?_ ?_
  · split
    · exact h.good1 _ _
    · exact h.good_zero
  · split
    · exact h.good2 _ _
    · exact h.good_zero

theorem good_sum (h : Law k embV embS fill lin quad good) (l : List D) (hl : ∀ x ∈ l, good x) : good l.sum := by
  induction l with
  | nil => exact h.good_zero
  | cons x xs ih =>
    rw [List.sum_cons]
    exact h.good_add _ _ (hl x List.mem_cons_self) (ih fun z hz => hl z (List.mem_cons_of_mem _ hz))

/-- The misfit as function of one solution, with the sums of the solver as coefficients. -/
theorem misfit_quadratic (h : Law k embV embS fill lin quad good) {nAnt nSub nDirs : Nat} {nSol : Nat → Nat}
    {vs : List (Vis V)} (hl : Layout nAnt nSub nDirs nSol vs) (s : Nat → S) {a d j : Nat}
    (hd : d < nDirs) (hj : firstSol nSol d ≤ j ∧ j < firstSol nSol d + nSol d) :
    ∃ P n q, good q ∧ solved k nSub nDirs (nSol d) (firstSol nSol d) s d vs a j = k.finish n q ∧
      ∀ y, misfit embV embS nSub nDirs (replace s nSub a j y) vs = P - lin n y + quad q y := by
  obtain ⟨P, hP⟩ := sum_quadratic h
    (fun v y => (embV v.data - predicted embV embS nSub nDirs (replace s nSub a j y) v).norm)
    (fun v => numAt k nSub (nSol d) (firstSol nSol d) s d (a * nSol d + (j - firstSol nSol d))
            (v, base k nSub nDirs s d v))
    (fun v => denAt k nSub (nSol d) (firstSol nSol d) s d (a * nSol d + (j - firstSol nSol d))
            (v, base k nSub nDirs s d v)) vs
    (fun v hv => vis_quadratic h hl s hd hj hv)
  refine ⟨P, _, _, good_sum h _ ?_, rfl, hP⟩
  intro x hx
  obtain ⟨v, -, rfl⟩ := List.mem_map.mp hx
  exact denAt_good h _ _ _ _ _ _ _

end Law

end DP3.IterSolver
