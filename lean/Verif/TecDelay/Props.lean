import Verif.TecDelay.Model
import Mathlib.Algebra.Order.BigOperators.Group.Finset
import Mathlib.Analysis.Real.Pi.Bounds
import Mathlib.Tactic.FieldSimp
import Mathlib.Tactic.Linarith
import Mathlib.Tactic.Ring
import Mathlib.Tactic.FinCases

/-!
# Properties of the fit of TEC, offset and delay
-/

namespace DP3.TecDelay

set_option linter.unusedSimpArgs false
set_option linter.unusedSectionVars false

variable {K : Type} [Field K] [LinearOrder K] [IsStrictOrderedRing K] [FloorRing K] {n : Nat}

/-! ## C179: wrapping -/

theorem fmod_range (x m : K) (hm : 0 < m) : -m < fmod x m ∧ fmod x m < m := by
  unfold fmod trunc
  have hx : x = m * (x / m) := by field_simp
  split
  · have h1 := Int.floor_le (x / m)
    have h2 := Int.lt_floor_add_one (x / m)
    constructor
    · nlinarith
    · nlinarith
  · have h1 := Int.le_ceil (x / m)
    have h2 := Int.ceil_lt_add_one (x / m)
    constructor
    · nlinarith
    · nlinarith

/-- **C179.** `Wrap` gives a phase in `[-π, π)` that differs from its argument by whole turns. -/
theorem wrap_spec (pi x : K) (hpi : 0 < pi) :
    -pi ≤ wrap pi x ∧ wrap pi x < pi ∧ ∃ k : Int, wrap pi x = x + 2 * pi * k := by
  obtain ⟨h1, h2⟩ := fmod_range x (2 * pi) (by linarith)
  have hk : fmod x (2 * pi) = x + 2 * pi * ((-trunc (x / (2 * pi)) : Int) : K) := by
    unfold fmod
    push_cast
    ring
  unfold wrap
  dsimp only
  split
  · rename_i h
    refine ⟨by linarith, by linarith, -trunc (x / (2 * pi)) - 1, ?_⟩
    rw [hk]; push_cast; ring
  · rename_i h
    split
    · rename_i h'
      refine ⟨by linarith, by linarith, -trunc (x / (2 * pi)) + 1, ?_⟩
      rw [hk]; push_cast; ring
    · rename_i h'
      exact ⟨not_lt.1 h', not_le.1 h, _, hk⟩

/-- **C179.** A phase in the range is not changed. -/
theorem wrap_id (pi x : K) (hpi : 0 < pi) (h1 : -pi ≤ x) (h2 : x < pi) : wrap pi x = x := by
  obtain ⟨h3, h4, k, hk⟩ := wrap_spec pi x hpi
  have hk0 : k = 0 := by
    by_contra hne
    rcases lt_or_gt_of_ne hne with h | h
    · have : (k : K) ≤ -1 := by exact_mod_cast Int.le_sub_one_of_lt h
      nlinarith
    · have : (1 : K) ≤ k := by exact_mod_cast h
      nlinarith
  rw [hk, hk0]
  simp

example : wrap (1 : ℚ) (5 / 2) = 1 / 2 ∧ wrap (1 : ℚ) 1 = -1 ∧ wrap (1 : ℚ) (-5 / 2) = -1 / 2 := by
  refine ⟨by decide +kernel, by decide +kernel, by decide +kernel⟩

/-! ## C180: the grid search -/

/-- The cost of the state is the cost of its fit. -/
def Good (costOf : Fit K → K) (s : Best K) : Prop := ∀ k, s.cost = some k → k = costOf s.fit

theorem offer_good (costOf : Fit K → K) (s : Best K) (h : Good costOf s) (o : Option (Fit K)) :
    Good costOf (s.offer costOf o) := by
  cases o with
  | none => exact h
  | some f =>
    unfold Best.offer
    cases hc : s.cost with
    | none =>
      intro k hk
      exact (Option.some.inj hk).symm
    | some c =>
      dsimp only
      split
      · intro k hk
        exact (Option.some.inj hk).symm
      · exact h

/-- A state is at most a cost. -/
def AtMost (s : Best K) (v : K) : Prop := ∃ k, s.cost = some k ∧ k ≤ v

theorem offer_mono (costOf : Fit K → K) (s : Best K) (o : Option (Fit K)) (v : K)
    (h : AtMost s v) : AtMost (s.offer costOf o) v := by
  obtain ⟨k, hk, hv⟩ := h
  cases o with
  | none => exact ⟨k, hk, hv⟩
  | some f =>
    unfold Best.offer
    rw [hk]
    dsimp only
    split
    · rename_i hlt
      exact ⟨_, rfl, le_trans (le_of_lt hlt) hv⟩
    · exact ⟨k, hk, hv⟩

theorem offer_new (costOf : Fit K → K) (s : Best K) (f : Fit K) :
    AtMost (s.offer costOf (some f)) (costOf f) := by
  unfold Best.offer
  cases hc : s.cost with
  | none => exact ⟨_, rfl, le_rfl⟩
  | some k =>
    dsimp only
    split
    · exact ⟨_, rfl, le_rfl⟩
    · rename_i h
      exact ⟨k, hc, not_lt.1 h⟩

theorem refine_mono (solve : (Fin n → K) → Option (Fit K)) (costOf : Fit K → K) (pi : K)
    (x y : Fin n → K) (k : Nat) (s : Best K) (v : K) (h : AtMost s v) :
    AtMost (refine solve costOf pi x y k s) v := by
  induction k generalizing s with
  | zero => exact h
  | succ k ih => exact ih _ (offer_mono _ _ _ _ h)

theorem refine_good (solve : (Fin n → K) → Option (Fit K)) (costOf : Fit K → K) (pi : K)
    (x y : Fin n → K) (k : Nat) (s : Best K) (h : Good costOf s) :
    Good costOf (refine solve costOf pi x y k s) := by
  induction k generalizing s with
  | zero => exact h
  | succ k ih => exact ih _ (offer_good _ _ h _)

theorem foldl_good (solve : (Fin n → K) → Option (Fit K)) (costOf : Fit K → K) (pi : K)
    (x y : Fin n → K) (gs : List (Fit K)) (s : Best K) (h : Good costOf s) :
    Good costOf (gs.foldl (fun s g => s.offer costOf (fitFrom solve pi x y g)) s) := by
  induction gs generalizing s with
  | nil => exact h
  | cons g gs ih => exact ih _ (offer_good _ _ h _)

theorem foldl_mono (solve : (Fin n → K) → Option (Fit K)) (costOf : Fit K → K) (pi : K)
    (x y : Fin n → K) (gs : List (Fit K)) (s : Best K) (v : K) (h : AtMost s v) :
    AtMost (gs.foldl (fun s g => s.offer costOf (fitFrom solve pi x y g)) s) v := by
  induction gs generalizing s with
  | nil => exact h
  | cons g gs ih => exact ih _ (offer_mono _ _ _ _ h)

theorem foldl_new (solve : (Fin n → K) → Option (Fit K)) (costOf : Fit K → K) (pi : K)
    (x y : Fin n → K) (gs : List (Fit K)) (s : Best K) (g f : Fit K) (hg : g ∈ gs)
    (hf : fitFrom solve pi x y g = some f) :
    AtMost (gs.foldl (fun s g => s.offer costOf (fitFrom solve pi x y g)) s) (costOf f) := by
  induction gs generalizing s with
  | nil => cases hg
  | cons g' gs ih =>
    rcases List.mem_cons.1 hg with rfl | hg
    · rw [List.foldl_cons, hf]
      exact foldl_mono solve costOf pi x y gs _ _ (offer_new costOf s f)
    · exact ih _ hg

/-- **C180 (partial).** The result costs at most as much as the fit for any grid point. -/
theorem search_best (solve : (Fin n → K) → Option (Fit K)) (cos : K → K) (pi : K)
    (x y w : Fin n → K) (front back : K) (wraps : Nat) (g f : Fit K)
    (hg : g ∈ grid pi front back wraps) (hf : fitFrom solve pi x y g = some f) :
    cost cos x y w (gridSearch solve cos pi x y w front back wraps) ≤ cost cos x y w f := by
  have hgood : Good (cost cos x y w) (refine solve (cost cos x y w) pi x y 5
      (search solve (cost cos x y w) pi x y (grid pi front back wraps))) := by
    apply refine_good
    apply foldl_good
    intro k hk
    cases hk
  have hat : AtMost (refine solve (cost cos x y w) pi x y 5
      (search solve (cost cos x y w) pi x y (grid pi front back wraps))) (cost cos x y w f) :=
    refine_mono _ _ _ _ _ _ _ _ (foldl_new _ _ _ _ _ _ _ g f hg hf)
  obtain ⟨k, hk, hle⟩ := hat
  have := hgood k hk
  unfold gridSearch
  rw [← this]
  exact hle

/-- What is used of the cosine: at most one, and one for whole turns only. -/
def IsCos (pi : K) (cos : K → K) : Prop := ∀ r, cos r ≤ 1 ∧ (cos r = 1 ↔ ∃ k : Int, r = 2 * pi * k)

/-- The phases of a fit are those of the data in all channels that have a weight. -/
def Perfect (pi : K) (x y w : Fin n → K) (f : Fit K) : Prop :=
  ∀ i, w i ≠ 0 → ∃ k : Int, y i - model f (x i) = 2 * pi * k

/-- A fit has the least possible cost exactly when it is perfect. -/
theorem perfect_iff (cos : K → K) (pi : K) (hcos : IsCos pi cos) (x y w : Fin n → K)
    (hw : ∀ i, 0 ≤ w i) (f : Fit K) :
    (∑ i, (1 - w i)) ≤ cost cos x y w f ∧
      (cost cos x y w f = ∑ i, (1 - w i) ↔ Perfect pi x y w f) := by
  have hterm : ∀ i, 1 - w i ≤ 1 - cos (y i - model f (x i)) * w i := by
    intro i
    have := mul_le_mul_of_nonneg_right (hcos (y i - model f (x i))).1 (hw i)
    linarith
  refine ⟨Finset.sum_le_sum fun i _ => hterm i, ?_⟩
  constructor
  · intro h i hi
    have heq := (Finset.sum_eq_sum_iff_of_le (s := Finset.univ) fun i _ => hterm i).1 h.symm i
      (Finset.mem_univ i)
    have hc : cos (y i - model f (x i)) = 1 := by
      have : cos (y i - model f (x i)) * w i = 1 * w i := by linarith
      exact mul_right_cancel₀ hi this
    exact (hcos _).2.1 hc
  · intro h
    apply Finset.sum_congr rfl
    intro i _
    by_cases hi : w i = 0
    · rw [hi]; ring
    · rw [(hcos _).2.2 (h i hi)]; ring

/-- What is asked of a fit for data without noise: if a triple (with `b = 0` if no offset is fitted)
gives the data in all channels with a weight, the fit gives these data.  A weighted least squares
fit does. -/
def Exact (solve : (Fin n → K) → Option (Fit K)) (x w : Fin n → K) (includeB : Bool) : Prop :=
  ∀ y t, (includeB = false → t.b = 0) → (∀ i, w i ≠ 0 → y i = model t (x i)) →
    ∃ f, solve y = some f ∧ ∀ i, w i ≠ 0 → model f (x i) = y i

theorem model_add (f g : Fit K) (x : K) :
    model ⟨f.a + g.a, f.b + g.b, f.c + g.c⟩ x = model f x + model g x := by
  unfold model
  ring

/-- **C180 (partial).** Data without noise are fitted perfectly when for some grid point the
difference of the true function and the function of the grid point does not wrap, that is, stays in
one turn around some multiple of whole turns (a single multiple of zero if no offset is fitted). -/
theorem search_noiseless_partial (solve : (Fin n → K) → Option (Fit K)) (cos : K → K) (pi : K)
    (hpi : 0 < pi) (hcos : IsCos pi cos) (x y w : Fin n → K) (hw : ∀ i, 0 ≤ w i)
    (includeB : Bool) (hsolve : Exact solve x w includeB) (front back : K) (wraps : Nat)
    (t : Fit K) (htb : includeB = false → t.b = 0) (ht : Perfect pi x y w t) (g : Fit K)
    (hg : g ∈ grid pi front back wraps) (m : Int) (hm : includeB = false → m = 0)
    (hres : ∀ i, w i ≠ 0 → -pi ≤ model t (x i) - model g (x i) + 2 * pi * m ∧
      model t (x i) - model g (x i) + 2 * pi * m < pi) :
    Perfect pi x y w (gridSearch solve cos pi x y w front back wraps) := by
  have hgb : g.b = 0 := by
    unfold grid at hg
    obtain ⟨i, -, hg⟩ := List.mem_flatMap.1 hg
    obtain ⟨j, -, rfl⟩ := List.mem_map.1 hg
    rfl
  -- the residual is the difference
  have hwrap : ∀ i, w i ≠ 0 → wrap pi (y i - model g (x i)) =
      model ⟨t.a - g.a, t.b + 2 * pi * m, t.c - g.c⟩ (x i) := by
    intro i hi
    obtain ⟨k, hk⟩ := ht i hi
    obtain ⟨h1, h2⟩ := hres i hi
    obtain ⟨h3, h4, l, hl⟩ := wrap_spec pi (y i - model g (x i)) hpi
    have hmod : model ⟨t.a - g.a, t.b + 2 * pi * m, t.c - g.c⟩ (x i) =
        model t (x i) - model g (x i) + 2 * pi * m := by
      unfold model
      rw [hgb]
      ring
    rw [hmod]
    have he : y i - model g (x i) + 2 * pi * l =
        model t (x i) - model g (x i) + 2 * pi * m + 2 * pi * ((k + l - m : Int) : K) := by
      push_cast
      linear_combination hk
    have hz : k + l - m = 0 := by
      rw [hl, he] at h3 h4
      by_contra hne
      rcases lt_or_gt_of_ne hne with h | h
      · have : ((k + l - m : Int) : K) ≤ -1 := by exact_mod_cast Int.le_sub_one_of_lt h
        nlinarith
      · have : (1 : K) ≤ ((k + l - m : Int) : K) := by exact_mod_cast h
        nlinarith
    rw [hl, he, hz]
    simp
  obtain ⟨r, hr, hr2⟩ := hsolve (fun i => wrap pi (y i - model g (x i)))
    ⟨t.a - g.a, t.b + 2 * pi * m, t.c - g.c⟩
    (fun h => by simp [htb h, hm h]) hwrap
  have hfit : fitFrom solve pi x y g = some ⟨r.a + g.a, r.b + g.b, r.c + g.c⟩ := by
    unfold fitFrom
    rw [hr]
    rfl
  have hperf : Perfect pi x y w ⟨r.a + g.a, r.b + g.b, r.c + g.c⟩ := by
    intro i hi
    obtain ⟨-, -, l, hl⟩ := wrap_spec pi (y i - model g (x i)) hpi
    refine ⟨-l, ?_⟩
    rw [model_add, hr2 i hi, hl]
    push_cast
    ring
  have hle := search_best solve cos pi x y w front back wraps g _ hg hfit
  have h1 := (perfect_iff cos pi hcos x y w hw _).2.2 hperf
  have h2 := perfect_iff cos pi hcos x y w hw (gridSearch solve cos pi x y w front back wraps)
  exact h2.2.1 (le_antisymm (h1 ▸ hle) h2.1)

/-- **C180 (partial).** In particular, true values on the grid are found, with any offset. -/
theorem search_on_grid (solve : (Fin n → K) → Option (Fit K)) (cos : K → K) (pi : K)
    (hpi : 0 < pi) (hcos : IsCos pi cos) (x y w : Fin n → K) (hw : ∀ i, 0 ≤ w i)
    (hsolve : Exact solve x w true) (front back : K) (wraps : Nat) (i j : Nat) (offset : K)
    (hi : i < wraps * 4 + 2) (hj : j < wraps * 4 + 2)
    (ht : Perfect pi x y w ⟨position wraps i * maxA pi front back wraps, offset,
      position wraps j * maxC pi front back wraps⟩) :
    Perfect pi x y w (gridSearch solve cos pi x y w front back wraps) := by
  obtain ⟨h1, h2, m, hm⟩ := wrap_spec pi offset hpi
  refine search_noiseless_partial solve cos pi hpi hcos x y w hw true hsolve front back wraps _
    (by simp) ht ⟨position wraps i * maxA pi front back wraps, 0,
      position wraps j * maxC pi front back wraps⟩ ?_ m (by simp) ?_
  · unfold grid
    rw [List.mem_flatMap]
    exact ⟨i, List.mem_range.2 hi, List.mem_map.2 ⟨j, List.mem_range.2 hj, rfl⟩⟩
  · intro k _
    have : model ⟨position wraps i * maxA pi front back wraps, offset,
        position wraps j * maxC pi front back wraps⟩ (x k) -
        model ⟨position wraps i * maxA pi front back wraps, 0,
          position wraps j * maxC pi front back wraps⟩ (x k) + 2 * pi * m = wrap pi offset := by
      rw [hm]
      unfold model
      ring
    rw [this]
    exact ⟨h1, h2⟩

/-! ### Least squares -/

/-- The sum of squares of a fit. -/
def sse (x y w : Fin n → K) (f : Fit K) : K := ∑ i, w i * (y i - model f (x i)) ^ 2

/-- The equations of a least squares fit of `a` and `c`. -/
def Normal (x y w : Fin n → K) (f : Fit K) : Prop :=
  f.b = 0 ∧ ∑ i, w i * (y i - model f (x i)) * (1 / x i) = 0 ∧
    ∑ i, w i * (y i - model f (x i)) * x i = 0

/-- The solution of these equations is a least squares fit. -/
theorem normal_least (x y w : Fin n → K) (hw : ∀ i, 0 ≤ w i) (f : Fit K) (h : Normal x y w f)
    (g : Fit K) (hg : g.b = 0) : sse x y w f ≤ sse x y w g := by
  obtain ⟨hb, h1, h2⟩ := h
  have key : sse x y w g = sse x y w f + (∑ i, w i * (model f (x i) - model g (x i)) ^ 2) +
      2 * ((f.a - g.a) * ∑ i, w i * (y i - model f (x i)) * (1 / x i)) +
      2 * ((f.c - g.c) * ∑ i, w i * (y i - model f (x i)) * x i) := by
    unfold sse
    simp only [Finset.mul_sum, ← Finset.sum_add_distrib]
    apply Finset.sum_congr rfl
    intro i _
    unfold model
    rw [hb, hg]
    ring
  rw [key, h1, h2]
  have : 0 ≤ ∑ i, w i * (model f (x i) - model g (x i)) ^ 2 :=
    Finset.sum_nonneg fun i _ => mul_nonneg (hw i) (sq_nonneg _)
  linarith

/-! ### Without an offset the search can miss -/

/-- Three frequencies. -/
def exX : Fin 3 → ℚ := ![1, 4 / 3, 5 / 3]

/-- The phases of `a = -10/3` and `c = -2`, in half turns. -/
def exY : Fin 3 → ℚ := ![2 / 3, 5 / 6, 2 / 3]

/-- The solution of the equations for these frequencies. -/
def exSolve (y : Fin 3 → ℚ) : ℚ × ℚ :=
  let p := y 0 + y 1 * (3 / 4) + y 2 * (3 / 5)
  let q := y 0 + y 1 * (4 / 3) + y 2 * (5 / 3)
  ((p * (50 / 9) - q * 3) * (3600 / 6050), (q * (769 / 400) - p * 3) * (3600 / 6050))

/-- All fits that the search can reach. -/
def exReach : List (ℚ × ℚ) :=
  [(2822/363, 13558/3025), (3086/363, 6199/3025), (2630/363, 779/605), (2174/363, 1591/3025),
   (2822/363, -4592/3025), (3086/363, -11951/3025), (1262/363, 15133/3025), (1910/363, 358/121),
   (1982/363, 10078/3025), (1718/363, -713/3025), (1262/363, -3017/3025), (1910/363, -368/121),
   (1982/363, -8072/3025), (878/363, 13957/3025), (422/363, 11653/3025), (1070/363, 1094/605),
   (1334/363, -1889/3025), (878/363, -4193/3025), (422/363, -6497/3025), (-34/363, 9349/3025),
   (-490/363, 1409/605), (158/363, 862/3025), (-34/363, -8801/3025), (-754/363, 14404/3025),
   (-86/33, 431/275), (-1402/363, 2437/3025), (-754/363, -3746/3025), (-490/363, -2221/605),
   (-2314/363, 15979/3025), (-1666/363, 9796/3025), (-1858/363, 133/3025), (-2314/363, -2171/3025),
   (-1666/363, -8354/3025), (0, 0)]

/-- The fit for a guess without offset. -/
def exStep (g : ℚ × ℚ) : ℚ × ℚ :=
  let r := exSolve fun i => wrap 1 (exY i - model ⟨g.1, 0, g.2⟩ (exX i))
  (r.1 + g.1, r.2 + g.2)

theorem ex_normal (y : Fin 3 → ℚ) (f : Fit ℚ) (h : Normal exX y (fun _ => 1) f) :
    f = ⟨(exSolve y).1, 0, (exSolve y).2⟩ := by
  obtain ⟨hb, h1, h2⟩ := h
  obtain ⟨a, b, c⟩ := f
  simp only at hb
  subst hb
  simp only [Fin.sum_univ_three, model, exX, Matrix.cons_val_zero, Matrix.cons_val_one,
    Matrix.cons_val] at h1 h2
  norm_num at h1 h2
  have e1 : a = (exSolve y).1 := by
    unfold exSolve
    dsimp only
    linarith
  have e2 : c = (exSolve y).2 := by
    unfold exSolve
    dsimp only
    linarith
  rw [← e1, ← e2]

theorem ex_fitFrom (solve : (Fin 3 → ℚ) → Option (Fit ℚ))
    (hsolve : ∀ y, ∃ f, solve y = some f ∧ Normal exX y (fun _ => 1) f) (g : ℚ × ℚ) :
    fitFrom solve 1 exX exY ⟨g.1, 0, g.2⟩ = some ⟨(exStep g).1, 0, (exStep g).2⟩ := by
  obtain ⟨f, hf, hn⟩ := hsolve fun i => wrap 1 (exY i - model ⟨g.1, 0, g.2⟩ (exX i))
  unfold fitFrom
  rw [hf, ex_normal _ f hn]
  simp [exStep]

set_option maxRecDepth 100000 in
theorem exReach_grid : ∀ i < 6, ∀ j < 6, exStep ((position 1 i : ℚ) * maxA 1 1 (5 / 3) 1,
    (position 1 j : ℚ) * maxC 1 1 (5 / 3) 1) ∈ exReach := by
  decide +kernel

set_option maxRecDepth 100000 in
theorem exReach_step : ∀ g ∈ exReach, exStep g ∈ exReach := by
  decide +kernel

theorem exReach_bad : ∀ g ∈ exReach,
    ∃ i, ((exY i - model ⟨g.1, 0, g.2⟩ (exX i)) / 2).den ≠ 1 := by
  decide +kernel

/-- The fit of a state has been reached. -/
def ExIn (s : Best ℚ) : Prop := ∃ g ∈ exReach, s.fit = ⟨g.1, 0, g.2⟩

theorem ex_offer (costOf : Fit ℚ → ℚ) (s : Best ℚ) (h : ExIn s) (g : ℚ × ℚ) (hg : g ∈ exReach) :
    ExIn (s.offer costOf (some ⟨g.1, 0, g.2⟩)) := by
  unfold Best.offer
  cases s.cost with
  | none => exact ⟨g, hg, rfl⟩
  | some k =>
    dsimp only
    split
    · exact ⟨g, hg, rfl⟩
    · exact h

/-- **C180 (partial).** Without an offset the search can miss: there are phases without noise, of
values within the searched range, for which the least squares search does not give these phases, nor
any values with these phases. -/
theorem search_misses (solve : (Fin 3 → ℚ) → Option (Fit ℚ))
    (hsolve : ∀ y, ∃ f, solve y = some f ∧ Normal exX y (fun _ => 1) f) (cos : ℚ → ℚ) :
    Perfect 1 exX exY (fun _ => 1) ⟨-10 / 3, 0, -2⟩ ∧ |(-10 / 3 : ℚ)| ≤ maxA 1 1 (5 / 3) 1 ∧
      |(-2 : ℚ)| ≤ maxC 1 1 (5 / 3) 1 ∧
      ¬ Perfect 1 exX exY (fun _ => 1)
        (gridSearch solve cos 1 exX exY (fun _ => 1) 1 (5 / 3) 1) := by
  refine ⟨?_, by decide +kernel, by decide +kernel, ?_⟩
  · intro i _
    fin_cases i
    · exact ⟨3, by simp [exY, exX, model]; norm_num⟩
    · exact ⟨3, by simp [exY, exX, model]; norm_num⟩
    · exact ⟨3, by simp [exY, exX, model]; norm_num⟩
  · have hgrid : ∀ (gs : List (Fit ℚ)) (s : Best ℚ),
        (∀ g ∈ gs, g.b = 0 ∧ exStep (g.a, g.c) ∈ exReach) → ExIn s →
        ExIn (gs.foldl (fun s g => s.offer (cost cos exX exY fun _ => 1)
          (fitFrom solve 1 exX exY g)) s) := by
      intro gs
      induction gs with
      | nil => intro s _ h; exact h
      | cons g gs ih =>
        intro s hgs h
        refine ih _ (fun g' hg' => hgs g' (List.mem_cons_of_mem _ hg')) ?_
        obtain ⟨hb, hr⟩ := hgs g List.mem_cons_self
        have : g = ⟨(g.a, g.c).1, 0, (g.a, g.c).2⟩ := by
          rw [← hb]
        show ExIn (s.offer _ (fitFrom solve 1 exX exY g))
        rw [this, ex_fitFrom solve hsolve]
        exact ex_offer _ _ h _ hr
    have hrefine : ∀ (k : Nat) (s : Best ℚ), ExIn s →
        ExIn (refine solve (cost cos exX exY fun _ => 1) 1 exX exY k s) := by
      intro k
      induction k with
      | zero => intro s h; exact h
      | succ k ih =>
        intro s h
        apply ih
        obtain ⟨g, hg, hf⟩ := h
        rw [hf, ex_fitFrom solve hsolve]
        exact ex_offer _ _ ⟨g, hg, hf⟩ _ (exReach_step g hg)
    have hend : ExIn (refine solve (cost cos exX exY fun _ => 1) 1 exX exY 5
        (search solve (cost cos exX exY fun _ => 1) 1 exX exY (grid 1 1 (5 / 3) 1))) := by
      apply hrefine
      apply hgrid
      · intro g hg
        unfold grid at hg
        obtain ⟨i, hi, hg⟩ := List.mem_flatMap.1 hg
        obtain ⟨j, hj, rfl⟩ := List.mem_map.1 hg
        exact ⟨rfl, exReach_grid i (List.mem_range.1 hi) j (List.mem_range.1 hj)⟩
      · exact ⟨(0, 0), by decide +kernel, rfl⟩
    intro hp
    obtain ⟨g, hg, hf⟩ := hend
    unfold gridSearch at hp
    rw [hf] at hp
    obtain ⟨i, hi⟩ := exReach_bad g hg
    obtain ⟨k, hk⟩ := hp i (by norm_num)
    apply hi
    rw [hk]
    have : (2 * 1 * (k : ℚ)) / 2 = (k : ℚ) := by ring
    rw [this]
    exact Rat.den_intCast k

/-- The hypothesis about the fit can be met. -/
theorem ex_solver : ∀ y, ∃ f, (fun y => some (⟨(exSolve y).1, 0, (exSolve y).2⟩ : Fit ℚ)) y = some f ∧
    Normal exX y (fun _ => 1) f := by
  intro y
  refine ⟨_, rfl, rfl, ?_, ?_⟩
  · simp only [Fin.sum_univ_three, model, exX, Matrix.cons_val_zero, Matrix.cons_val_one,
      Matrix.cons_val, exSolve]
    ring
  · simp only [Fin.sum_univ_three, model, exX, Matrix.cons_val_zero, Matrix.cons_val_one,
      Matrix.cons_val, exSolve]
    ring

/-- The three frequencies of the example, with an offset: three values determine the triple. -/
def exSolve3 (y : Fin 3 → ℚ) : Option (Fit ℚ) :=
  let d := (y 0 - 2 * y 1 + y 2) / (1 / 10)
  let c := (y 2 - y 0 + d * (2 / 5)) * (3 / 2)
  some ⟨d, y 0 - d - c, c⟩

theorem exSolve3_exact : Exact exSolve3 exX (fun _ => 1) true := by
  intro y t _ hy
  refine ⟨_, rfl, ?_⟩
  have h0 := hy 0 (by norm_num)
  have h1 := hy 1 (by norm_num)
  have h2 := hy 2 (by norm_num)
  intro i _
  simp only [exX, model, Matrix.cons_val_zero, Matrix.cons_val_one, Matrix.cons_val] at h0 h1 h2
  fin_cases i <;>
    · simp [model, exX]
      ring_nf

/-- The real cosine meets the requirement. -/
theorem isCos_real : IsCos Real.pi Real.cos := by
  intro r
  refine ⟨Real.cos_le_one r, ?_⟩
  rw [Real.cos_eq_one_iff]
  constructor
  · rintro ⟨k, hk⟩
    exact ⟨k, by rw [← hk]; ring⟩
  · rintro ⟨k, hk⟩
    exact ⟨k, by rw [hk]; ring⟩

/-- A function on the rational numbers that meets the requirement, for half turns. -/
def ratCos (r : ℚ) : ℚ := if (r / 2).den = 1 then 1 else 0

theorem isCos_rat : IsCos 1 ratCos := by
  intro r
  unfold ratCos
  split
  · rename_i h
    refine ⟨le_rfl, fun _ => ⟨(r / 2).num, ?_⟩, fun _ => rfl⟩
    have := (Rat.den_eq_one_iff _).1 h
    linarith
  · rename_i h
    refine ⟨by norm_num, by norm_num, ?_⟩
    rintro ⟨k, rfl⟩
    exfalso
    apply h
    rw [show 2 * 1 * (k : ℚ) / 2 = (k : ℚ) by ring]
    exact Rat.den_intCast k

/-- The theorem for data without noise applies: the grid point `a = 5/2`, `c = 0` with offset 7/10. -/
example : Perfect 1 exX ![6 / 5, 23 / 40, 1 / 5] (fun _ => 1)
    (gridSearch exSolve3 ratCos 1 exX ![6 / 5, 23 / 40, 1 / 5] (fun _ => 1) 1 (5 / 3) 1) := by
  refine search_on_grid exSolve3 ratCos 1 (by norm_num) isCos_rat exX _ _ (fun _ => by norm_num)
    exSolve3_exact 1 (5 / 3) 1 3 2 (7 / 10) (by norm_num) (by norm_num) ?_
  intro i _
  fin_cases i
  · exact ⟨-1, by simp [exX, model, position, maxA, maxC]; norm_num⟩
  · exact ⟨-1, by simp [exX, model, position, maxA, maxC]; norm_num⟩
  · exact ⟨-1, by simp [exX, model, position, maxA, maxC]; norm_num⟩

/-! ## C181: the results of the constraint -/

/-- **C181 (partial).** The written solutions are, up to whole turns, the phases of the written TEC,
offset (zero when it is not fitted) and delay: `-8.448e9 TEC / ν + offset + 2 π ν delay`. -/
theorem results_describe (search : (Fin n → K) → (Fin n → K) → Fit K) (pi tecConst refFreq : K)
    (hpi : 0 < pi) (hc : tecConst ≠ 0) (hf : refFreq ≠ 0) (freqs : Fin n → K)
    (hfreq : ∀ ch, freqs ch ≠ 0) (includeOffset : Bool)
    (hsearch : includeOffset = false → ∀ p w, (search p w).b = 0) (phase : Fin n → Option K)
    (weights : Fin n → K) :
    let o := applyOne search pi tecConst refFreq freqs includeOffset phase weights
    ∀ ch, -pi ≤ o.phase ch ∧ o.phase ch < pi ∧ ∃ k : Int, o.phase ch =
      -tecConst * o.tec / freqs ch + o.offset.getD 0 + 2 * pi * freqs ch * o.delay + 2 * pi * k := by
  intro o ch
  obtain ⟨h1, h2, k, hk⟩ := wrap_spec pi
    (model (search (prepared phase weights).1 (prepared phase weights).2) (freqs ch / refFreq)) hpi
  refine ⟨h1, h2, k, ?_⟩
  show wrap pi (model (search (prepared phase weights).1 (prepared phase weights).2)
    (freqs ch / refFreq)) = _
  rw [hk]
  congr 1
  have hfc := hfreq ch
  have hoff : o.offset.getD 0 = (search (prepared phase weights).1 (prepared phase weights).2).b := by
    show (if includeOffset then
      some (search (prepared phase weights).1 (prepared phase weights).2).b else none).getD 0 = _
    cases includeOffset with
    | true => rfl
    | false => exact (hsearch rfl _ _).symm
  rw [hoff]
  show model (search (prepared phase weights).1 (prepared phase weights).2) (freqs ch / refFreq) =
    -tecConst * ((search (prepared phase weights).1 (prepared phase weights).2).a * refFreq /
      -tecConst) / freqs ch + _ + 2 * pi * freqs ch *
      ((search (prepared phase weights).1 (prepared phase weights).2).c / (refFreq * 2 * pi))
  unfold model
  have hpi' : pi ≠ 0 := ne_of_gt hpi
  field_simp

theorem offer_b (costOf : Fit K → K) (s : Best K) (h : s.fit.b = 0) (o : Option (Fit K))
    (ho : ∀ f, o = some f → f.b = 0) : (s.offer costOf o).fit.b = 0 := by
  cases o with
  | none => exact h
  | some f =>
    unfold Best.offer
    cases s.cost with
    | none => exact ho f rfl
    | some k =>
      dsimp only
      split
      · exact ho f rfl
      · exact h

theorem fitFrom_b (solve : (Fin n → K) → Option (Fit K)) (hb : ∀ y f, solve y = some f → f.b = 0)
    (pi : K) (x y : Fin n → K) (g : Fit K) (hg : g.b = 0) (f : Fit K)
    (h : fitFrom solve pi x y g = some f) : f.b = 0 := by
  unfold fitFrom at h
  cases hs : solve fun i => wrap pi (y i - model g (x i)) with
  | none => rw [hs] at h; cases h
  | some r =>
    rw [hs] at h
    obtain rfl := Option.some.inj h
    show r.b + g.b = 0
    rw [hb _ r hs, hg, add_zero]

/-- **C181.** The offset of the result is zero when the fit has none. -/
theorem search_no_offset (solve : (Fin n → K) → Option (Fit K))
    (hb : ∀ y f, solve y = some f → f.b = 0) (cos : K → K) (pi : K) (x y w : Fin n → K)
    (front back : K) (wraps : Nat) :
    (gridSearch solve cos pi x y w front back wraps).b = 0 := by
  have hr : ∀ (k : Nat) (s : Best K), s.fit.b = 0 →
      (refine solve (cost cos x y w) pi x y k s).fit.b = 0 := by
    intro k
    induction k with
    | zero => intro s h; exact h
    | succ k ih =>
      intro s h
      exact ih _ (offer_b _ _ h _ fun f hf => fitFrom_b solve hb pi x y s.fit h f hf)
  have hs : ∀ (gs : List (Fit K)) (s : Best K), (∀ g ∈ gs, g.b = 0) → s.fit.b = 0 →
      (gs.foldl (fun s g => s.offer (cost cos x y w) (fitFrom solve pi x y g)) s).fit.b = 0 := by
    intro gs
    induction gs with
    | nil => intro s _ h; exact h
    | cons g gs ih =>
      intro s hg h
      refine ih _ (fun g' hg' => hg g' (List.mem_cons_of_mem _ hg')) ?_
      exact offer_b _ _ h _ fun f hf =>
        fitFrom_b solve hb pi x y g (hg g List.mem_cons_self) f hf
  refine hr 5 _ (hs _ _ ?_ rfl)
  intro g hg
  unfold grid at hg
  obtain ⟨i, -, hg⟩ := List.mem_flatMap.1 hg
  obtain ⟨j, -, rfl⟩ := List.mem_map.1 hg
  rfl

/-- An example with three channels of which one is not finite. -/
def exOut : Out ℚ 3 :=
  applyOne (fun _ _ => ⟨1, 1 / 4, 2⟩) 1 8 100 ![100, 200, 400] true
    (![some (1 / 4), none, some 1]) (![2, 3, 5])

example : exOut.tec = -25 / 2 ∧ exOut.offset = some (1 / 4) ∧ exOut.delay = 1 / 100 ∧
    exOut.weight = 7 ∧ exOut.phase 0 = -3 / 4 := by
  refine ⟨by decide +kernel, by decide +kernel, by decide +kernel, by decide +kernel,
    by decide +kernel⟩

/-- **C181.** Channels whose solution is not finite have no weight in the fit, and the weight of the
results is the sum over the other channels. -/
theorem flagged_no_weight (phase : Fin n → Option K) (weights : Fin n → K)
    (search : (Fin n → K) → (Fin n → K) → Fit K) (pi tecConst refFreq : K) (freqs : Fin n → K)
    (includeOffset : Bool) :
    (∀ ch, phase ch = none → (prepared phase weights).2 ch = 0) ∧
      (∀ ch v, phase ch = some v → (prepared phase weights).1 ch = v ∧
        (prepared phase weights).2 ch = weights ch) ∧
      (applyOne search pi tecConst refFreq freqs includeOffset phase weights).weight =
        ∑ ch, (prepared phase weights).2 ch := by
  refine ⟨?_, ?_, rfl⟩
  · intro ch h
    simp [prepared, h]
  · intro ch v h
    simp [prepared, h]

/-- **C181 (partial).** If the search gives the phases of the finite solutions, these are not changed
by the constraint. -/
theorem perfect_kept (search : (Fin n → K) → (Fin n → K) → Fit K) (pi tecConst refFreq : K)
    (hpi : 0 < pi) (freqs : Fin n → K) (includeOffset : Bool) (phase : Fin n → Option K)
    (weights : Fin n → K) (hw : ∀ ch, weights ch ≠ 0)
    (hp : Perfect pi (fun ch => freqs ch / refFreq) (prepared phase weights).1
      (prepared phase weights).2 (search (prepared phase weights).1 (prepared phase weights).2))
    (ch : Fin n) (v : K) (hv : phase ch = some v) :
    ∃ k : Int, (applyOne search pi tecConst refFreq freqs includeOffset phase weights).phase ch =
      v + 2 * pi * k := by
  obtain ⟨-, h2, -⟩ := flagged_no_weight phase weights search pi tecConst refFreq freqs includeOffset
  obtain ⟨e1, e2⟩ := h2 ch v hv
  obtain ⟨k, hk⟩ := hp ch (by rw [e2]; exact hw ch)
  obtain ⟨-, -, l, hl⟩ := wrap_spec pi
    (model (search (prepared phase weights).1 (prepared phase weights).2) (freqs ch / refFreq)) hpi
  refine ⟨l - k, ?_⟩
  show wrap pi (model (search (prepared phase weights).1 (prepared phase weights).2)
    (freqs ch / refFreq)) = _
  rw [hl]
  rw [e1] at hk
  push_cast
  linear_combination -hk

end DP3.TecDelay
