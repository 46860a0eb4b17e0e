import Mathlib.Algebra.Order.Field.Basic
import Mathlib.Algebra.Order.Ring.Rat
import Mathlib.Data.Rat.Defs
import Mathlib.Tactic.Ring
import Mathlib.Tactic.Linarith
import Verif.SolveData.Props
import Verif.SolWriter.Model

/-!
# Solution files of DDECal: lemmas
-/

namespace DP3.SolWriter

open DP3.SolveData

set_option linter.unusedSimpArgs false
set_option linter.unusedSectionVars false

/-! ## Lists -/

/-- A `mapM` over a range that does not fail. -/
theorem mapM_range_some {A : Type} (n : Nat) (f : Nat → Option A)
    (h : ∀ i < n, (f i).isSome = true) :
    ∃ l, (List.range n).mapM f = some l ∧ l.length = n ∧ ∀ i < n, l[i]? = f i := by
  induction n with
  | zero => exact ⟨[], by simp, rfl, by intro i hi; omega⟩
  | succ n ih =>
    obtain ⟨l, hl, hlen, hg⟩ := ih (fun i hi => h i (by omega))
    obtain ⟨x, hx⟩ := Option.isSome_iff_exists.1 (h n (by omega))
    refine ⟨l ++ [x], ?_, by simp [hlen], ?_⟩
    · rw [List.range_succ, List.mapM_append]
      simp [hl, hx]
    · intro i hi
      by_cases hin : i < n
      · rw [List.getElem?_append_left (by omega), hg i hin]
      · have : i = n := by omega
        subst this
        rw [List.getElem?_append_right (by omega), hx, hlen]
        simp

/-- A `mapM` over a list that does not fail. -/
theorem mapM_some {A B : Type} (l : List A) (f : A → Option B)
    (h : ∀ x ∈ l, (f x).isSome = true) :
    ∃ r, l.mapM f = some r ∧ r.length = l.length ∧
      ∀ (i : Nat) (x : A), l[i]? = some x → r[i]? = f x := by
  induction l with
  | nil => exact ⟨[], by simp, rfl, by intro i x hx; simp at hx⟩
  | cons y l ih =>
    obtain ⟨r, hr, hlen, hg⟩ := ih (fun x hx => h x (List.mem_cons_of_mem _ hx))
    obtain ⟨z, hz⟩ := Option.isSome_iff_exists.1 (h y List.mem_cons_self)
    refine ⟨z :: r, by simp [List.mapM_cons, hz, hr], by simp [hlen], ?_⟩
    intro i x hx
    cases i with
    | zero => simp at hx; subst hx; simp [hz]
    | succ i => simp at hx ⊢; exact hg i x hx

/-- Elements of a concatenation of lists of the same length. -/
theorem flatten_get {A : Type} (l : List (List A)) (m : Nat) (h : ∀ x ∈ l, x.length = m)
    (i r : Nat) (hr : r < m) : (l.flatten)[i * m + r]? = (l[i]?).bind fun x => x[r]? := by
  induction l generalizing i with
  | nil => simp
  | cons x l ih =>
    have hx := h x List.mem_cons_self
    cases i with
    | zero =>
      rw [List.flatten_cons, List.getElem?_append_left (by omega)]
      simp
    | succ i =>
      rw [List.flatten_cons, List.getElem?_append_right (by rw [hx]; nlinarith)]
      rw [show (i + 1) * m + r - x.length = i * m + r by rw [hx, Nat.add_mul]; omega]
      rw [ih (fun y hy => h y (List.mem_cons_of_mem _ hy))]
      simp

theorem flatten_length {A : Type} (l : List (List A)) (m : Nat) (h : ∀ x ∈ l, x.length = m) :
    l.flatten.length = l.length * m := by
  induction l with
  | nil => simp
  | cons x l ih =>
    rw [List.flatten_cons, List.length_append, ih (fun y hy => h y (List.mem_cons_of_mem _ hy)),
      h x List.mem_cons_self, List.length_cons]
    ring

/-! ## Numbers of solutions -/

theorem sum_ge_length (l : List Nat) (h : ∀ v ∈ l, 0 < v) : l.length ≤ l.sum := by
  induction l with
  | nil => simp
  | cons x l ih =>
    have := h x List.mem_cons_self
    have := ih (fun v hv => h v (List.mem_cons_of_mem _ hv))
    simp only [List.length_cons, List.sum_cons]
    omega

theorem all_one (l : List Nat) (h : ∀ v ∈ l, 0 < v) (hs : l.sum = l.length) : ∀ v ∈ l, v = 1 := by
  induction l with
  | nil => simp
  | cons x l ih =>
    have hx := h x List.mem_cons_self
    have hge := sum_ge_length l (fun v hv => h v (List.mem_cons_of_mem _ hv))
    simp only [List.length_cons, List.sum_cons] at hs
    intro v hv
    rcases List.mem_cons.1 hv with rfl | hv
    · omega
    · exact ih (fun v hv => h v (List.mem_cons_of_mem _ hv)) (by omega) v hv

theorem acc_le_foldl_max (l : List Nat) (a : Nat) : a ≤ l.foldl max a := by
  induction l generalizing a with
  | nil => exact Nat.le_refl _
  | cons x l ih => exact Nat.le_trans (Nat.le_max_left a x) (ih (max a x))

theorem le_foldl_max (l : List Nat) (a v : Nat) (hv : v ∈ l) : v ≤ l.foldl max a := by
  induction l generalizing a with
  | nil => cases hv
  | cons x l ih =>
    rcases List.mem_cons.1 hv with rfl | hv
    · exact Nat.le_trans (Nat.le_max_right a v) (acc_le_foldl_max l _)
    · exact ih _ hv

theorem foldl_max_one (l : List Nat) (h : ∀ v ∈ l, v = 1) : l.foldl max 1 = 1 := by
  induction l with
  | nil => rfl
  | cons x l ih =>
    rw [List.foldl_cons, h x List.mem_cons_self]
    exact ih (fun v hv => h v (List.mem_cons_of_mem _ hv))

theorem nSubsteps_one (l : List Nat) (k : Nat) (hne : l ≠ []) (h : ∀ v ∈ l, v = 1) :
    nSubsteps l k = 1 := by
  have hm : l.foldl max 0 = 1 := by
    cases l with
    | nil => exact absurd rfl hne
    | cons x l =>
      rw [List.foldl_cons, h x List.mem_cons_self]
      exact foldl_max_one l (fun v hv => h v (List.mem_cons_of_mem _ hv))
  unfold nSubsteps
  simp only [hm]
  split_ifs with hc
  · obtain ⟨v, hv, hc⟩ := List.any_eq_true.1 hc
    rw [h v hv] at hc
    simp at hc
  · rfl

theorem take_sum_one (l : List Nat) (h : ∀ v ∈ l, v = 1) (d : Nat) (hd : d ≤ l.length) :
    (l.take d).sum = d := by
  induction l generalizing d with
  | nil => simp at hd; subst hd; simp
  | cons x l ih =>
    cases d with
    | zero => simp
    | succ d =>
      rw [List.take_succ_cons, List.sum_cons, h x List.mem_cons_self,
        ih (fun v hv => h v (List.mem_cons_of_mem _ hv)) d (by simpa using hd)]
      omega

theorem take_sum_add (l : List Nat) (d : Nat) (hd : d < l.length) :
    (l.take d).sum + l.getD d 0 ≤ l.sum := by
  induction l generalizing d with
  | nil => simp at hd
  | cons x l ih =>
    cases d with
    | zero => simp
    | succ d =>
      have := ih d (by simpa using hd)
      simp only [List.take_succ_cons, List.sum_cons, List.getD_cons_succ] at this ⊢
      omega

theorem getD_mem (l : List Nat) (d : Nat) (hd : d < l.length) : l.getD d 0 ∈ l := by
  rw [List.getD_eq_getElem?_getD, List.getElem?_eq_getElem hd]
  exact List.getElem_mem hd

/-- The index of the solution for slot `t` of an interval of `k` slots in direction `d`, among the
solutions of all directions: the solutions of a direction divide the interval evenly. -/
def slotSolution (nSol : List Nat) (k d t : Nat) : Nat :=
  (nSol.take d).sum + t * nSol.getD d 0 / k

theorem slotSolution_lt (nSol : List Nat) (k d t : Nat) (hd : d < nSol.length) (ht : t < k)
    (hpos : ∀ v ∈ nSol, 0 < v) : slotSolution nSol k d t < nSol.sum := by
  have h1 := take_sum_add nSol d hd
  have h0 := hpos _ (getD_mem nSol d hd)
  have h2 : t * nSol.getD d 0 / k < nSol.getD d 0 := by
    rw [Nat.div_lt_iff_lt_mul (by omega)]
    calc t * nSol.getD d 0 < k * nSol.getD d 0 := Nat.mul_lt_mul_of_pos_right ht h0
      _ = nSol.getD d 0 * k := Nat.mul_comm _ _
  unfold slotSolution
  omega

/-- The resampled solution of any substep is the one of the first slot of the substep. -/
theorem mapResampled_slot (nSol : List Nat) (k nP t a d p : Nat) (hd : d < nSol.length) (hk : 0 < k)
    (hdiv : ∀ v ∈ nSol, 0 < v ∧ v ∣ k) :
    mapResampled nSol k nP t a d p =
        (t / nSubsteps nSol k, (a * nSol.sum + slotSolution nSol k d
          (t % nSubsteps nSol k * (k / nSubsteps nSol k))) * nP + p) ∧
      constraintSub nSol k d (t % nSubsteps nSol k) =
        slotSolution nSol k d (t % nSubsteps nSol k * (k / nSubsteps nSol k)) ∧
      t % nSubsteps nSol k * (k / nSubsteps nSol k) < k := by
  have hne : nSol ≠ [] := by rintro rfl; simp at hd
  obtain ⟨h0, ⟨q, hq⟩, _⟩ := nSubsteps_spec nSol k hne hk hdiv
  have hq0 : 0 < q := by
    rcases Nat.eq_zero_or_pos q with h | h
    · subst h; omega
    · exact h
  have hkq : k / nSubsteps nSol k = q := Nat.div_eq_of_eq_mul_right h0 hq
  rw [hkq]
  have hm := Nat.mod_lt t h0
  have hlt : t % nSubsteps nSol k * q < k := by
    calc t % nSubsteps nSol k * q < nSubsteps nSol k * q := Nat.mul_lt_mul_of_pos_right hm hq0
      _ = k := hq.symm
  obtain ⟨_, h2, h3⟩ := resample_spec nSol k nP (t / nSubsteps nSol k)
    (t % nSubsteps nSol k * q) a d p hd hlt hdiv
  have hsub : t % nSubsteps nSol k * q / (k / nSubsteps nSol k) = t % nSubsteps nSol k := by
    rw [hkq]
    exact Nat.mul_div_cancel _ hq0
  have hlim : (nSol.map fun n => min n k) = nSol := by
    conv_rhs => rw [← List.map_id nSol]
    apply List.map_congr_left
    intro n hn
    exact Nat.min_eq_left (Nat.le_of_dvd hk (hdiv n hn).2)
  have hsol : solutionIndex ((nSol.map fun n => min n k).getD d 0)
      (((nSol.map fun n => min n k).take d).sum) k (t % nSubsteps nSol k * q) =
      slotSolution nSol k d (t % nSubsteps nSol k * q) := by
    rw [hlim, solutionIndex, slotSolution, Nat.add_comm]
  simp only [hsub, hsol] at h2 h3
  refine ⟨?_, h3, hlt⟩
  rw [← h2, Nat.mul_comm, Nat.div_add_mod]

/-- All slots of a substep have the same solution. -/
theorem slotSolution_substep (nSol : List Nat) (k d t : Nat) (hd : d < nSol.length) (ht : t < k)
    (hdiv : ∀ v ∈ nSol, 0 < v ∧ v ∣ k) :
    slotSolution nSol k d (t / (k / nSubsteps nSol k) * (k / nSubsteps nSol k)) =
      slotSolution nSol k d t := by
  have hk : 0 < k := by omega
  have hne : nSol ≠ [] := by rintro rfl; simp at hd
  obtain ⟨h0, hdvd, _⟩ := nSubsteps_spec nSol k hne hk hdiv
  have hq0 : 0 < k / nSubsteps nSol k := Nat.div_pos (Nat.le_of_dvd hk hdvd) h0
  have hlt : t / (k / nSubsteps nSol k) < nSubsteps nSol k := by
    rw [Nat.div_lt_iff_lt_mul hq0, Nat.mul_div_cancel' hdvd]
    exact ht
  obtain ⟨_, h2, h3⟩ := resample_spec nSol k 1 0 t 0 d 0 hd ht hdiv
  obtain ⟨_, h5, _⟩ := mapResampled_slot nSol k 1 (t / (k / nSubsteps nSol k)) 0 d 0 hd hk hdiv
  rw [Nat.mod_eq_of_lt hlt] at h5
  have hlim : (nSol.map fun n => min n k) = nSol := by
    conv_rhs => rw [← List.map_id nSol]
    apply List.map_congr_left
    intro n hn
    exact Nat.min_eq_left (Nat.le_of_dvd hk (hdiv n hn).2)
  simp only [hlim] at h3
  rw [← h5, h3, solutionIndex, slotSolution, Nat.add_comm]

/-- The index of the substep of a slot. -/
theorem substep_index (k m s : Nat) (hk : 0 < k) (hm : 0 < m) (hd : m ∣ k) :
    s / (k / m) = s / k * m + s % k / (k / m) := by
  obtain ⟨q, rfl⟩ := hd
  have hq : 0 < q := Nat.pos_of_mul_pos_left hk
  rw [Nat.mul_div_cancel_left _ hm]
  conv_lhs => rw [← Nat.div_add_mod s (m * q)]
  rw [show m * q * (s / (m * q)) + s % (m * q) = s % (m * q) + q * (s / (m * q) * m) by ring]
  rw [Nat.add_mul_div_left _ _ hq]
  omega

/-! ## Times -/

section Times

variable {F : Type} [Field F] [LinearOrder F] [IsStrictOrderedRing F]

/-- With the start and end that the callers give, the loop stops after the last substep that starts
before the end of the measurement set. -/
theorem timesFrom_eq (first dt : F) (n step m t : Nat) (hdt : 0 < dt) (hn : 0 < n)
    (hs : 0 < step) :
    timesFrom (first - dt / 2) (first + ((n : F) - 1) * dt) (dt * (step : F)) dt m t =
      (List.range (min m ((n + step - 1) / step - t))).map fun j =>
        first - dt / 2 + (((t + j : Nat) : F) + 1 / 2) * (dt * (step : F)) := by
  induction m generalizing t with
  | zero => simp [timesFrom]
  | succ m ih =>
    have hcut : (first - dt / 2 + (t : F) * (dt * (step : F)) >
        first + ((n : F) - 1) * dt - 1 / 2 * dt) ↔ n ≤ t * step := by
      have e : first - dt / 2 + (t : F) * (dt * (step : F)) -
          (first + ((n : F) - 1) * dt - 1 / 2 * dt) =
          (((t * step : Nat) : F) + 1 - (n : F)) * dt := by push_cast; ring
      constructor
      · intro h
        have h1 : 0 < (((t * step : Nat) : F) + 1 - (n : F)) * dt := by rw [← e]; linarith
        have h2 := pos_of_mul_pos_left h1 hdt.le
        have h3 : (n : F) < ((t * step + 1 : Nat) : F) := by push_cast at h2 ⊢; linarith
        have := Nat.cast_lt.1 h3
        omega
      · intro h
        have h3 : (n : F) < ((t * step + 1 : Nat) : F) := Nat.cast_lt.2 (by omega)
        have h2 : 0 < (((t * step : Nat) : F) + 1 - (n : F)) := by push_cast at h3 ⊢; linarith
        have := mul_pos h2 hdt
        rw [← e] at this
        linarith
    have hceil : n ≤ t * step ↔ (n + step - 1) / step ≤ t := by
      rw [← Nat.lt_succ_iff (n := t), Nat.div_lt_iff_lt_mul hs, Nat.succ_mul]
      omega
    unfold timesFrom
    by_cases hc : n ≤ t * step
    · rw [if_pos (hcut.2 hc)]
      rw [show (n + step - 1) / step - t = 0 by have := hceil.1 hc; omega]
      simp
    · rw [if_neg (fun h => hc (hcut.1 h)), ih]
      have hlt : t < (n + step - 1) / step := by
        by_contra h
        exact hc (hceil.2 (by omega))
      rw [show min (m + 1) ((n + step - 1) / step - t) =
        min m ((n + step - 1) / step - (t + 1)) + 1 by omega]
      rw [List.range_succ_eq_map, List.map_cons, List.map_map]
      congr 1
      apply List.map_congr_left
      intro j _
      simp only [Function.comp_apply]
      rw [show t + 1 + j = t + j.succ by omega]

theorem solutionTimes_eq (first dt : F) (n step m : Nat) (hdt : 0 < dt) (hn : 0 < n)
    (hs : 0 < step) :
    solutionTimes m (first - dt / 2) (first + ((n : F) - 1) * dt) (dt * (step : F)) dt =
      (List.range (min m ((n + step - 1) / step))).map fun j : Nat =>
        first - dt / 2 + ((j : F) + 1 / 2) * (dt * (step : F)) := by
  rw [solutionTimes, timesFrom_eq first dt n step m 0 hdt hn hs]
  simp

end Times

/-! ## Upsampling -/

/-- Solutions of `nB` blocks of `m` values. -/
def Shape {C : Type} (nB m : Nat) (sols : List (List (List C))) : Prop :=
  ∀ s ∈ sols, s.length = nB ∧ ∀ v ∈ s, v.length = m

/-- `upsample` gives every substep the solutions of its first slot. -/
theorem upsample_spec {C : Type} (nSol : List Nat) (k nA nP nB : Nat) (sols : List (List (List C)))
    (hne : nSol ≠ []) (hk : 0 < k) (hdiv : ∀ v ∈ nSol, 0 < v ∧ v ∣ k) (hP : 0 < nP)
    (hlen : 0 < sols.length) (hsh : Shape nB (nA * nSol.sum * nP) sols) :
    ∃ us, upsample nSol k nA nP sols = some us ∧ us.length = sols.length * nSubsteps nSol k ∧
      Shape nB (nA * nSol.length * nP) us ∧
      ∀ t < us.length, ∀ b < nB, ∀ a < nA, ∀ d < nSol.length, ∀ p < nP,
        ((us[t]?).bind fun (s : List (List C)) => (s[b]?).bind fun (v : List C) =>
          v[(a * nSol.length + d) * nP + p]?) =
        ((sols[t / nSubsteps nSol k]?).bind fun (s : List (List C)) =>
          (s[b]?).bind fun (v : List C) => v[(a * nSol.sum + slotSolution nSol k d
            (t % nSubsteps nSol k * (k / nSubsteps nSol k))) * nP + p]?) := by
  obtain ⟨h0, hdvd, hall⟩ := nSubsteps_spec nSol k hne hk hdiv
  have hD : 0 < nSol.length := List.length_pos_iff.2 hne
  have horig : ∀ t < sols.length * nSubsteps nSol k, ∀ b < nB, ∀ a < nA, ∀ d < nSol.length,
      ∀ p < nP, original nSol k nP sols t b a d p =
        ((sols[t / nSubsteps nSol k]?).bind fun (s : List (List C)) =>
          (s[b]?).bind fun (v : List C) => v[(a * nSol.sum + slotSolution nSol k d
            (t % nSubsteps nSol k * (k / nSubsteps nSol k))) * nP + p]?) ∧
        (original nSol k nP sols t b a d p).isSome = true := by
    intro t ht b hb a ha d hd p hp
    obtain ⟨h1, _, h3⟩ := mapResampled_slot nSol k nP t a d p hd hk hdiv
    have hdd := hdiv _ (getD_mem nSol d hd)
    have hnz : nSubsteps nSol k / nSol.getD d 0 ≠ 0 :=
      Nat.ne_of_gt (Nat.div_pos (Nat.le_of_dvd h0 (hall _ (getD_mem nSol d hd))) hdd.1)
    have he : original nSol k nP sols t b a d p =
        ((sols[t / nSubsteps nSol k]?).bind fun (s : List (List C)) =>
          (s[b]?).bind fun (v : List C) => v[(a * nSol.sum + slotSolution nSol k d
            (t % nSubsteps nSol k * (k / nSubsteps nSol k))) * nP + p]?) := by
      unfold original
      rw [if_neg hnz, h1]
    refine ⟨he, ?_⟩
    rw [he]
    have hti : t / nSubsteps nSol k < sols.length := by
      rw [Nat.div_lt_iff_lt_mul h0]; exact ht
    rw [List.getElem?_eq_getElem hti]
    obtain ⟨hs1, hs2⟩ := hsh _ (List.getElem_mem hti)
    simp only [Option.bind_some]
    have hb' : b < (sols[t / nSubsteps nSol k]).length := by omega
    rw [List.getElem?_eq_getElem hb']
    simp only [Option.bind_some]
    have hv := hs2 _ (List.getElem_mem hb')
    have hsl := slotSolution_lt nSol k d _ hd h3 (fun v hv => (hdiv v hv).1)
    have hx : (a * nSol.sum + slotSolution nSol k d
        (t % nSubsteps nSol k * (k / nSubsteps nSol k))) * nP + p < nA * nSol.sum * nP := by
      have g1 : a * nSol.sum + slotSolution nSol k d
          (t % nSubsteps nSol k * (k / nSubsteps nSol k)) + 1 ≤ nA * nSol.sum := by
        have : (a + 1) * nSol.sum ≤ nA * nSol.sum := Nat.mul_le_mul_right _ (by omega)
        rw [Nat.add_mul] at this
        omega
      have := Nat.mul_le_mul_right nP g1
      rw [Nat.add_mul] at this
      omega
    rw [List.getElem?_eq_getElem (by rw [hv]; exact hx)]
    rfl
  -- the indices of an offset
  have hoff : ∀ o < nA * nSol.length * nP, o / (nSol.length * nP) < nA ∧
      o / nP % nSol.length < nSol.length ∧ o % nP < nP := by
    intro o ho
    refine ⟨?_, Nat.mod_lt _ hD, Nat.mod_lt _ hP⟩
    rw [Nat.div_lt_iff_lt_mul (Nat.mul_pos hD hP)]
    calc o < nA * nSol.length * nP := ho
      _ = nA * (nSol.length * nP) := by ring
  have hidx : ∀ a < nA, ∀ d < nSol.length, ∀ p < nP,
      ((a * nSol.length + d) * nP + p) / (nSol.length * nP) = a ∧
      ((a * nSol.length + d) * nP + p) / nP % nSol.length = d ∧
      ((a * nSol.length + d) * nP + p) % nP = p ∧
      (a * nSol.length + d) * nP + p < nA * nSol.length * nP := by
    intro a ha d hd p hp
    have e1 : ((a * nSol.length + d) * nP + p) / nP = a * nSol.length + d := by
      rw [Nat.mul_comm, Nat.mul_add_div hP, Nat.div_eq_of_lt hp, Nat.add_zero]
    refine ⟨?_, ?_, ?_, ?_⟩
    · rw [Nat.mul_comm nSol.length nP, ← Nat.div_div_eq_div_mul, e1, Nat.mul_comm a,
        Nat.mul_add_div hD, Nat.div_eq_of_lt hd, Nat.add_zero]
    · rw [e1, Nat.mul_comm a, Nat.mul_add_mod, Nat.mod_eq_of_lt hd]
    · rw [Nat.mul_comm, Nat.mul_add_mod, Nat.mod_eq_of_lt hp]
    · have g1 : a * nSol.length + d + 1 ≤ nA * nSol.length := by
        have : (a + 1) * nSol.length ≤ nA * nSol.length := Nat.mul_le_mul_right _ (by omega)
        rw [Nat.add_mul] at this
        omega
      have := Nat.mul_le_mul_right nP g1
      rw [Nat.add_mul] at this
      omega
  -- the blocks
  have hblock : ∀ t < sols.length * nSubsteps nSol k, ∀ b < nB,
      ∃ v, ((List.range (nA * nSol.length * nP)).mapM fun o =>
          original nSol k nP sols t b (o / (nSol.length * nP)) (o / nP % nSol.length) (o % nP)) =
          some v ∧ v.length = nA * nSol.length * nP ∧
        ∀ o < nA * nSol.length * nP, v[o]? = original nSol k nP sols t b (o / (nSol.length * nP))
          (o / nP % nSol.length) (o % nP) := by
    intro t ht b hb
    apply mapM_range_some
    intro o ho
    obtain ⟨g1, g2, g3⟩ := hoff o ho
    exact (horig t ht b hb _ g1 _ g2 _ g3).2
  have htime : ∀ t < sols.length * nSubsteps nSol k,
      ∃ s, ((List.range nB).mapM fun b => (List.range (nA * nSol.length * nP)).mapM fun o =>
          original nSol k nP sols t b (o / (nSol.length * nP)) (o / nP % nSol.length) (o % nP)) =
          some s ∧ s.length = nB ∧
        ∀ b < nB, s[b]? = (List.range (nA * nSol.length * nP)).mapM fun o =>
          original nSol k nP sols t b (o / (nSol.length * nP)) (o / nP % nSol.length) (o % nP) := by
    intro t ht
    apply mapM_range_some
    intro b hb
    obtain ⟨v, hv, _⟩ := hblock t ht b hb
    rw [hv]
    rfl
  obtain ⟨us, hus, hul, hug⟩ := mapM_range_some (sols.length * nSubsteps nSol k)
    (fun t => (List.range nB).mapM fun b => (List.range (nA * nSol.length * nP)).mapM fun o =>
      original nSol k nP sols t b (o / (nSol.length * nP)) (o / nP % nSol.length) (o % nP))
    (fun t ht => by obtain ⟨s, hs, _⟩ := htime t ht; rw [hs]; rfl)
  refine ⟨us, ?_, hul, ?_, ?_⟩
  · unfold upsample
    rw [List.getElem?_eq_getElem hlen]
    simp only [Option.bind_some]
    rw [(hsh _ (List.getElem_mem hlen)).1]
    exact hus
  · intro s hs
    obtain ⟨t, ht, rfl⟩ := List.getElem_of_mem hs
    have h1 := hug t (by omega)
    obtain ⟨s', hs', hsl, hsg⟩ := htime t (by omega)
    rw [List.getElem?_eq_getElem ht, hs'] at h1
    cases h1
    refine ⟨hsl, ?_⟩
    intro v hv
    obtain ⟨b, hb, rfl⟩ := List.getElem_of_mem hv
    have h2 := hsg b (by omega)
    obtain ⟨v', hv', hvl, _⟩ := hblock t (by omega) b (by omega)
    rw [List.getElem?_eq_getElem hb, hv'] at h2
    cases h2
    exact hvl
  · intro t ht b hb a ha d hd p hp
    rw [hul] at ht
    obtain ⟨s', hs', _, hsg⟩ := htime t ht
    obtain ⟨v', hv', _, hvg⟩ := hblock t ht b hb
    obtain ⟨i1, i2, i3, i4⟩ := hidx a ha d hd p hp
    rw [hug t ht, hs']
    simp only [Option.bind_some]
    rw [hsg b hb, hv']
    simp only [Option.bind_some]
    rw [hvg _ i4, i1, i2, i3]
    exact (horig t ht b hb a ha d hd p hp).1

/-! ## Constraint results -/

/-- The result `y` of constraint `c` at time `t`. -/
def resAt {V : Type} (cons : List (List (List (Result V)))) (t c y : Nat) : Option (Result V) :=
  (cons[t]?).bind fun ci => (ci[c]?).bind fun cc => cc[y]?

/-- A result over antennas, `nS` solutions and other axes. -/
structure RShape {V : Type} (nA nS : Nat) (rest : List (String × Nat)) (r : Result V) : Prop where
  axes : r.axes = ("ant", nA) :: ("dir", nS) :: rest
  vals : r.vals.length = nA * nS * (rest.map Prod.snd).prod
  weights : r.weights.length = nA * nS * (rest.map Prod.snd).prod

/-- Results of `nC` constraints, with `nT c` results for constraint `c`. -/
structure CShape {V : Type} (nA nS nC : Nat) (nT : Nat → Nat)
    (rest : Nat → Nat → List (String × Nat)) (cons : List (List (List (Result V)))) : Prop where
  count : ∀ ci ∈ cons, ci.length = nC
  types : ∀ ci ∈ cons, ∀ (c : Nat) (cc : List (Result V)), ci[c]? = some cc → cc.length = nT c
  shape : ∀ (t c y : Nat) (r : Result V), resAt cons t c y = some r → RShape nA nS (rest c y) r

theorem CShape.get {V : Type} {nA nS nC : Nat} {nT : Nat → Nat}
    {rest : Nat → Nat → List (String × Nat)} {cons : List (List (List (Result V)))}
    (h : CShape nA nS nC nT rest cons) (t c y : Nat) (ht : t < cons.length) (hc : c < nC)
    (hy : y < nT c) : ∃ r, resAt cons t c y = some r ∧ RShape nA nS (rest c y) r := by
  have h1 := h.count _ (List.getElem_mem ht)
  have hc' : c < (cons[t]).length := by omega
  have h2 := h.types _ (List.getElem_mem ht) c _ (List.getElem?_eq_getElem hc')
  have hy' : y < (cons[t][c]).length := by omega
  have he : resAt cons t c y = some cons[t][c][y] := by
    unfold resAt
    rw [List.getElem?_eq_getElem ht, Option.bind_some, List.getElem?_eq_getElem hc',
      Option.bind_some, List.getElem?_eq_getElem hy']
  exact ⟨_, he, h.shape _ _ _ _ he⟩

theorem upsampleVals_spec {V : Type} [Zero V] (nSol : List Nat) (k sub nA res : Nat) (vals : List V)
    (hne : nSol ≠ []) (hpos : ∀ v ∈ nSol, 0 < v) (hA : 0 < nA) (hres : 0 < res)
    (hsub : ∀ d < nSol.length, constraintSub nSol k d sub < nSol.sum)
    (hlen : vals.length = nA * nSol.sum * res) :
    ∃ l, upsampleVals nSol k sub nA (nA * nSol.sum * res) vals = some l ∧
      l.length = nA * nSol.length * res ∧
      ∀ a < nA, ∀ d < nSol.length, ∀ r < res,
        l[(a * nSol.length + d) * res + r]? =
          vals[(a * nSol.sum + constraintSub nSol k d sub) * res + r]? ∧
        (l[(a * nSol.length + d) * res + r]?).isSome = true := by
  have hD : 0 < nSol.length := List.length_pos_iff.2 hne
  have hS : 0 < nSol.sum := Nat.lt_of_lt_of_le hD (sum_ge_length nSol hpos)
  have hAS : 0 < nA * nSol.sum := Nat.mul_pos hA hS
  have e1 : nA * nSol.sum * res / (nA * nSol.sum) = res := Nat.mul_div_cancel_left _ hAS
  have e2 : nA * nSol.sum * res * nSol.length / nSol.sum = nA * nSol.length * res := by
    rw [show nA * nSol.sum * res * nSol.length = nSol.sum * (nA * nSol.length * res) by ring,
      Nat.mul_div_cancel_left _ hS]
  unfold upsampleVals
  rw [if_neg (by omega)]
  simp only [e1, e2]
  have hin : ∀ a < nA, ∀ d < nSol.length, ∀ r < res,
      (a * nSol.sum + constraintSub nSol k d sub) * res + r < vals.length := by
    intro a ha d hd r hr
    rw [hlen]
    have := hsub d hd
    have g1 : a * nSol.sum + constraintSub nSol k d sub + 1 ≤ nA * nSol.sum := by
      have : (a + 1) * nSol.sum ≤ nA * nSol.sum := Nat.mul_le_mul_right _ (by omega)
      rw [Nat.add_mul] at this
      omega
    have := Nat.mul_le_mul_right res g1
    rw [Nat.add_mul] at this
    omega
  obtain ⟨l, hl, hll, hlg⟩ := mapM_range_some (nA * nSol.length * res)
    (fun o => if o < nA * nSol.length * res then
        vals[(o / (nSol.length * res) * nSol.sum +
          constraintSub nSol k (o / res % nSol.length) sub) * res + o % res]?
      else some 0) (by
      intro o ho
      rw [if_pos ho]
      rw [List.getElem?_eq_getElem (hin _ ?_ _ (Nat.mod_lt _ hD) _ (Nat.mod_lt _ hres))]
      · rfl
      · rw [Nat.div_lt_iff_lt_mul (Nat.mul_pos hD hres)]
        calc o < nA * nSol.length * res := ho
          _ = nA * (nSol.length * res) := by ring)
  refine ⟨l, hl, hll, ?_⟩
  intro a ha d hd r hr
  have g4 : (a * nSol.length + d) * res + r < nA * nSol.length * res := by
    have g1 : a * nSol.length + d + 1 ≤ nA * nSol.length := by
      have : (a + 1) * nSol.length ≤ nA * nSol.length := Nat.mul_le_mul_right _ (by omega)
      rw [Nat.add_mul] at this
      omega
    have := Nat.mul_le_mul_right res g1
    rw [Nat.add_mul] at this
    omega
  have q1 : ((a * nSol.length + d) * res + r) / res = a * nSol.length + d := by
    rw [Nat.mul_comm, Nat.mul_add_div hres, Nat.div_eq_of_lt hr, Nat.add_zero]
  have q2 : ((a * nSol.length + d) * res + r) / (nSol.length * res) = a := by
    rw [Nat.mul_comm nSol.length res, ← Nat.div_div_eq_div_mul, q1, Nat.mul_comm a,
      Nat.mul_add_div hD, Nat.div_eq_of_lt hd, Nat.add_zero]
  have q3 : ((a * nSol.length + d) * res + r) / res % nSol.length = d := by
    rw [q1, Nat.mul_comm a, Nat.mul_add_mod, Nat.mod_eq_of_lt hd]
  have q4 : ((a * nSol.length + d) * res + r) % res = r := by
    rw [Nat.mul_comm, Nat.mul_add_mod, Nat.mod_eq_of_lt hr]
  have h := hlg _ g4
  rw [if_pos g4, q2, q3, q4] at h
  refine ⟨h, ?_⟩
  rw [h, List.getElem?_eq_getElem (hin a ha d hd r hr)]
  rfl

/-- The upsampled results for a substep, compared with the original. -/
structure Upsampled {V : Type} (nSol : List Nat) (k sub nA : Nat) (rest : List (String × Nat))
    (r0 r : Result V) : Prop where
  name : r.name = r0.name
  shape : RShape nA nSol.length rest r
  vals : ∀ a < nA, ∀ d < nSol.length, ∀ x < (rest.map Prod.snd).prod,
    (r.vals[(a * nSol.length + d) * (rest.map Prod.snd).prod + x]? =
      r0.vals[(a * nSol.sum + slotSolution nSol k d (sub * (k / nSubsteps nSol k))) *
        (rest.map Prod.snd).prod + x]?) ∧
    (r.vals[(a * nSol.length + d) * (rest.map Prod.snd).prod + x]?).isSome = true
  weights : ∀ a < nA, ∀ d < nSol.length, ∀ x < (rest.map Prod.snd).prod,
    r.weights[(a * nSol.length + d) * (rest.map Prod.snd).prod + x]? =
      r0.weights[(a * nSol.sum + slotSolution nSol k d (sub * (k / nSubsteps nSol k))) *
        (rest.map Prod.snd).prod + x]?

theorem upsampleResult_spec {V : Type} [Zero V] (nSol : List Nat) (k sub nA : Nat)
    (rest : List (String × Nat)) (r0 : Result V) (hne : nSol ≠ []) (hk : 0 < k)
    (hdiv : ∀ v ∈ nSol, 0 < v ∧ v ∣ k) (hA : 0 < nA) (hres : 0 < (rest.map Prod.snd).prod)
    (hsub : sub < nSubsteps nSol k) (h : RShape nA nSol.sum rest r0) :
    ∃ r, upsampleResult nSol k sub r0 = some r ∧ Upsampled nSol k sub nA rest r0 r := by
  have hc : ∀ d < nSol.length, constraintSub nSol k d sub =
      slotSolution nSol k d (sub * (k / nSubsteps nSol k)) ∧
      constraintSub nSol k d sub < nSol.sum := by
    intro d hd
    obtain ⟨_, h2, h3⟩ := mapResampled_slot nSol k 1 sub 0 d 0 hd hk hdiv
    rw [Nat.mod_eq_of_lt hsub] at h2 h3
    refine ⟨h2, ?_⟩
    rw [h2]
    exact slotSolution_lt nSol k d _ hd h3 (fun v hv => (hdiv v hv).1)
  obtain ⟨lv, hv1, hv2, hv3⟩ := upsampleVals_spec nSol k sub nA _ r0.vals hne
    (fun v hv => (hdiv v hv).1) hA hres (fun d hd => (hc d hd).2) h.vals
  obtain ⟨lw, hw1, hw2, hw3⟩ := upsampleVals_spec nSol k sub nA _ r0.weights hne
    (fun v hv => (hdiv v hv).1) hA hres (fun d hd => (hc d hd).2) h.weights
  refine ⟨⟨r0.name, ("ant", nA) :: ("dir", nSol.length) :: rest, lv, lw⟩, ?_, ?_⟩
  · unfold upsampleResult
    rw [h.axes, h.vals]
    simp only [List.getElem?_cons_zero, List.getElem?_cons_succ, Option.bind_some, hv1, hw1]
    rfl
  · refine ⟨rfl, ⟨rfl, hv2, hw2⟩, ?_, ?_⟩
    · intro a ha d hd x hx
      rw [← (hc d hd).1]
      exact hv3 a ha d hd x hx
    · intro a ha d hd x hx
      rw [← (hc d hd).1]
      exact (hw3 a ha d hd x hx).1

/-- The constraint results that are given to `WriteDirect`, in both cases of `Write`. -/
theorem upsampleConstraints_spec {V : Type} [Zero V] (nSol : List Nat) (k nA nC : Nat)
    (nT : Nat → Nat) (rest : Nat → Nat → List (String × Nat)) (cons : List (List (List (Result V))))
    (hne : nSol ≠ []) (hk : 0 < k) (hdiv : ∀ v ∈ nSol, 0 < v ∧ v ∣ k) (hA : 0 < nA)
    (hL : 0 < cons.length) (hC : 0 < nC)
    (hres : ∀ c y, 0 < ((rest c y).map Prod.snd).prod)
    (hsame : nSol.sum ≠ nSol.length → ∀ c < nC, nT c = nT 0)
    (hsh : CShape nA nSol.sum nC nT rest cons) :
    ∃ uc, (if nSol.sum = nSol.length then some cons
        else if noConstraints cons then some [] else upsampleConstraints nSol k cons) = some uc ∧
      uc.length = cons.length * nSubsteps nSol k ∧
      CShape nA nSol.length nC nT rest uc ∧
      ∀ t < uc.length, ∀ c < nC, ∀ y < nT c, ∃ r0 r,
        resAt cons (t / nSubsteps nSol k) c y = some r0 ∧ resAt uc t c y = some r ∧
        Upsampled nSol k (t % nSubsteps nSol k) nA (rest c y) r0 r := by
  obtain ⟨h0, hdvd, _⟩ := nSubsteps_spec nSol k hne hk hdiv
  have hnc : noConstraints cons = false := by
    unfold noConstraints
    rw [List.headD_eq_head?_getD, List.head?_eq_getElem?, List.getElem?_eq_getElem hL,
      Option.getD_some, List.isEmpty_eq_false_iff, ← List.length_pos_iff,
      hsh.count _ (List.getElem_mem hL)]
    exact hC
  by_cases hone : nSol.sum = nSol.length
  · have h1 := all_one nSol (fun v hv => (hdiv v hv).1) hone
    have hs1 := nSubsteps_one nSol k hne h1
    refine ⟨cons, if_pos hone, by rw [hs1, Nat.mul_one], by rw [← hone]; exact hsh, ?_⟩
    intro t ht c hc y hy
    obtain ⟨r, hr, hrs⟩ := hsh.get t c y ht hc hy
    refine ⟨r, r, by rw [hs1, Nat.div_one]; exact hr, hr, rfl, by rw [← hone]; exact hrs, ?_, ?_⟩
    · intro a ha d hd x hx
      rw [hs1, Nat.mod_one, Nat.zero_mul, slotSolution, take_sum_one nSol h1 d (by omega),
        Nat.zero_mul, Nat.zero_div, Nat.add_zero, hone]
      refine ⟨rfl, ?_⟩
      rw [List.getElem?_eq_getElem]
      · rfl
      · rw [hrs.vals, hone]
        have g1 : a * nSol.length + d + 1 ≤ nA * nSol.length := by
          have : (a + 1) * nSol.length ≤ nA * nSol.length := Nat.mul_le_mul_right _ (by omega)
          rw [Nat.add_mul] at this
          omega
        have := Nat.mul_le_mul_right ((rest c y).map Prod.snd).prod g1
        rw [Nat.add_mul] at this
        omega
    · intro a ha d hd x hx
      rw [hs1, Nat.mod_one, Nat.zero_mul, slotSolution, take_sum_one nSol h1 d (by omega),
        Nat.zero_mul, Nat.zero_div, Nat.add_zero, hone]
  · rw [if_neg hone, if_neg (by rw [hnc]; simp)]
    have hsame := hsame hone
    have hcount : (cons.head?.map List.length).getD 0 = nC := by
      rw [List.head?_eq_getElem?, List.getElem?_eq_getElem hL]
      exact hsh.count _ (List.getElem_mem hL)
    have htypes : ((cons.head?.bind List.head?).map List.length).getD 0 = nT 0 := by
      rw [List.head?_eq_getElem?, List.getElem?_eq_getElem hL, Option.bind_some,
        List.head?_eq_getElem?]
      have h1 := hsh.count _ (List.getElem_mem hL)
      have hc' : 0 < (cons[0]).length := by omega
      rw [List.getElem?_eq_getElem hc']
      exact hsh.types _ (List.getElem_mem hL) 0 _ (List.getElem?_eq_getElem hc')
    have hcell : ∀ t < cons.length * nSubsteps nSol k, ∀ c < nC, ∀ y < nT 0,
        ∃ r0 r, resAt cons (t / nSubsteps nSol k) c y = some r0 ∧
          (resAt cons (t / nSubsteps nSol k) c y).bind
            (upsampleResult nSol k (t % nSubsteps nSol k)) = some r ∧
          Upsampled nSol k (t % nSubsteps nSol k) nA (rest c y) r0 r := by
      intro t ht c hc y hy
      have hti : t / nSubsteps nSol k < cons.length := by
        rw [Nat.div_lt_iff_lt_mul h0]; exact ht
      obtain ⟨r0, hr0, hrs⟩ := hsh.get _ c y hti hc (by rw [hsame c hc]; exact hy)
      obtain ⟨r, hr, hu⟩ := upsampleResult_spec nSol k (t % nSubsteps nSol k) nA (rest c y) r0 hne
        hk hdiv hA (hres c y) (Nat.mod_lt _ h0) hrs
      exact ⟨r0, r, hr0, by rw [hr0, Option.bind_some, hr], hu⟩
    have hrow : ∀ t < cons.length * nSubsteps nSol k, ∀ c < nC,
        ∃ cc, ((List.range (nT 0)).mapM fun y => (resAt cons (t / nSubsteps nSol k) c y).bind
            (upsampleResult nSol k (t % nSubsteps nSol k))) = some cc ∧ cc.length = nT 0 ∧
          ∀ y < nT 0, cc[y]? = (resAt cons (t / nSubsteps nSol k) c y).bind
            (upsampleResult nSol k (t % nSubsteps nSol k)) := by
      intro t ht c hc
      apply mapM_range_some
      intro y hy
      obtain ⟨r0, r, _, h2, _⟩ := hcell t ht c hc y hy
      rw [h2]
      rfl
    have htime : ∀ t < cons.length * nSubsteps nSol k,
        ∃ ci, ((List.range nC).mapM fun c => (List.range (nT 0)).mapM fun y =>
            (resAt cons (t / nSubsteps nSol k) c y).bind
            (upsampleResult nSol k (t % nSubsteps nSol k))) = some ci ∧ ci.length = nC ∧
          ∀ c < nC, ci[c]? = (List.range (nT 0)).mapM fun y =>
            (resAt cons (t / nSubsteps nSol k) c y).bind
            (upsampleResult nSol k (t % nSubsteps nSol k)) := by
      intro t ht
      apply mapM_range_some
      intro c hc
      obtain ⟨cc, h2, _⟩ := hrow t ht c hc
      rw [h2]
      rfl
    obtain ⟨uc, huc, hul, hug⟩ := mapM_range_some (cons.length * nSubsteps nSol k)
      (fun t => (List.range nC).mapM fun c => (List.range (nT 0)).mapM fun y =>
            (resAt cons (t / nSubsteps nSol k) c y).bind
            (upsampleResult nSol k (t % nSubsteps nSol k)))
      (fun t ht => by obtain ⟨ci, h2, _⟩ := htime t ht; rw [h2]; rfl)
    have hget : ∀ t < uc.length, ∀ c < nC, ∀ y < nT c, ∃ r0 r,
        resAt cons (t / nSubsteps nSol k) c y = some r0 ∧ resAt uc t c y = some r ∧
        Upsampled nSol k (t % nSubsteps nSol k) nA (rest c y) r0 r := by
      intro t ht c hc y hy
      rw [hsame c hc] at hy
      rw [hul] at ht
      obtain ⟨r0, r, g1, g2, g3⟩ := hcell t ht c hc y hy
      refine ⟨r0, r, g1, ?_, g3⟩
      obtain ⟨ci, k1, _, k3⟩ := htime t ht
      obtain ⟨cc, l1, _, l3⟩ := hrow t ht c hc
      unfold resAt
      rw [hug t ht, k1, Option.bind_some, k3 c hc, l1, Option.bind_some, l3 y hy]
      exact g2
    have hct : ∀ ci ∈ uc, ci.length = nC ∧ ∀ (c : Nat) (cc : List (Result V)),
        ci[c]? = some cc → cc.length = nT c := by
      intro ci hci
      obtain ⟨t, ht, rfl⟩ := List.getElem_of_mem hci
      have h1 := hug t (by omega)
      obtain ⟨ci', k1, k2, k3⟩ := htime t (by omega)
      rw [List.getElem?_eq_getElem ht, k1] at h1
      cases h1
      refine ⟨k2, ?_⟩
      intro c cc hcc
      have hc : c < nC := by
        by_contra hcon
        rw [List.getElem?_eq_none (by omega)] at hcc
        cases hcc
      obtain ⟨cc', l1, l2, _⟩ := hrow t (by omega) c hc
      have := k3 c hc
      rw [hcc, l1] at this
      cases this
      rw [l2, hsame c hc]
    refine ⟨uc, ?_, hul, ⟨fun ci hci => (hct ci hci).1, fun ci hci => (hct ci hci).2, ?_⟩, hget⟩
    · unfold upsampleConstraints
      rw [hcount, htypes]
      exact huc
    · intro t c y r hr
      have ht : t < uc.length := by
        by_contra hcon
        unfold resAt at hr
        rw [List.getElem?_eq_none (by omega)] at hr
        cases hr
      have hc : c < nC := by
        by_contra hcon
        unfold resAt at hr
        rw [List.getElem?_eq_getElem ht, Option.bind_some,
          List.getElem?_eq_none (by rw [(hct _ (List.getElem_mem ht)).1]; omega)] at hr
        cases hr
      have hcl := (hct _ (List.getElem_mem ht)).1
      have hc' : c < (uc[t]).length := by omega
      have htl := (hct _ (List.getElem_mem ht)).2 c _ (List.getElem?_eq_getElem hc')
      have hy : y < nT c := by
        by_contra hcon
        unfold resAt at hr
        rw [List.getElem?_eq_getElem ht, Option.bind_some, List.getElem?_eq_getElem hc',
          Option.bind_some, List.getElem?_eq_none (by omega)] at hr
        cases hr
      obtain ⟨r0, r', _, g2, g3⟩ := hget t ht c hc y hy
      rw [hr] at g2
      cases g2
      exact g3.shape

/-! ## Tables of constraints -/

/-- A `mapM` that does not throw. -/
theorem mapM_ok {A B E : Type} (l : List A) (f : A → Except E B) (h : ∀ x ∈ l, ∃ y, f x = .ok y) :
    ∃ r, l.mapM f = .ok r ∧ r.length = l.length ∧ ∀ x ∈ l, ∃ y ∈ r, f x = .ok y := by
  induction l with
  | nil => exact ⟨[], rfl, rfl, by simp⟩
  | cons a l ih =>
    obtain ⟨r, hr, hl, hg⟩ := ih (fun x hx => h x (List.mem_cons_of_mem _ hx))
    obtain ⟨y, hy⟩ := h a List.mem_cons_self
    refine ⟨y :: r, by rw [List.mapM_cons, hy, hr]; rfl, by simp [hl], ?_⟩
    intro x hx
    rcases List.mem_cons.1 hx with rfl | hx
    · exact ⟨y, List.mem_cons_self, hy⟩
    · obtain ⟨z, hz, hfz⟩ := hg x hx
      exact ⟨z, List.mem_cons_of_mem _ hz, hfz⟩

/-- The polarization axis, if there is one, has two or four elements. -/
def PolOk (rest : List (String × Nat)) : Prop :=
  ∀ n, (rest.find? fun a => a.1 = "pol").map Prod.snd = some n → n = 2 ∨ n = 4

section Tables

variable {V F : Type} [Field F] [LinearOrder F]

/-- The fields of a result, concatenated over time. -/
theorem column {V : Type} {nA nS nC : Nat} {nT : Nat → Nat}
    {rest : Nat → Nat → List (String × Nat)} {cons : List (List (List (Result V)))}
    (h : CShape nA nS nC nT rest cons) (c y m : Nat) (hc : c < nC) (hy : y < nT c)
    (field : Result V → List V)
    (hfield : ∀ t r, resAt cons t c y = some r → (field r).length = m) :
    ∃ vals, (cons.mapM fun (ci : List (List (Result V))) =>
        (ci[c]?).bind fun (cc : List (Result V)) => (cc[y]?).map field) = some vals ∧
      vals.flatten.length = cons.length * m ∧
      ∀ t < cons.length, ∀ x < m, vals.flatten[t * m + x]? =
        (resAt cons t c y).bind fun r => (field r)[x]? := by
  have hr : ∀ t < cons.length, ∀ ci, cons[t]? = some ci →
      ∃ r, resAt cons t c y = some r ∧ ((ci[c]?).bind fun (cc : List (Result V)) =>
        (cc[y]?).map field) = some (field r) := by
    intro t ht ci hci
    obtain ⟨r, hr, _⟩ := h.get t c y ht hc hy
    refine ⟨r, hr, ?_⟩
    unfold resAt at hr
    rw [hci, Option.bind_some] at hr
    cases hcc : ci[c]? with
    | none => rw [hcc] at hr; cases hr
    | some cc =>
      rw [hcc, Option.bind_some] at hr
      rw [Option.bind_some, hr]
      rfl
  obtain ⟨vals, hv, hvl, hvg⟩ := mapM_some cons (fun (ci : List (List (Result V))) =>
      (ci[c]?).bind fun (cc : List (Result V)) => (cc[y]?).map field) (by
    intro ci hci
    obtain ⟨t, ht, rfl⟩ := List.getElem_of_mem hci
    obtain ⟨r, _, h2⟩ := hr t ht _ (List.getElem?_eq_getElem ht)
    rw [h2]
    rfl)
  have hlen : ∀ v ∈ vals, v.length = m := by
    intro v hvm
    obtain ⟨t, ht, rfl⟩ := List.getElem_of_mem hvm
    have ht' : t < cons.length := by omega
    obtain ⟨r, h1, h2⟩ := hr t ht' _ (List.getElem?_eq_getElem ht')
    have := hvg t _ (List.getElem?_eq_getElem ht')
    rw [h2, List.getElem?_eq_getElem ht, Option.some.injEq] at this
    rw [this]
    exact hfield t r h1
  refine ⟨vals, hv, by rw [flatten_length _ _ hlen, hvl], ?_⟩
  intro t ht x hx
  rw [flatten_get _ _ hlen _ _ hx]
  obtain ⟨r, h1, h2⟩ := hr t ht _ (List.getElem?_eq_getElem ht)
  rw [hvg t _ (List.getElem?_eq_getElem ht), h2, h1]
  rfl

/-- One table of the results of constraints, when there is a time for every result. -/
theorem constraintTable_spec (info : Info F) {nA nS nC : Nat} {nT : Nat → Nat}
    {rest : Nat → Nat → List (String × Nat)} {cons : List (List (List (Result V)))} (times : List F)
    (h : CShape nA nS nC nT rest cons) (htimes : times.length = cons.length) (hL : 0 < cons.length)
    (c y : Nat) (hc : c < nC) (hy : y < nT c) (first : Result V)
    (hfirst : resAt cons 0 c y = some first) (hpol : PolOk (rest c y))
    (hM : 0 < nA * nS * ((rest c y).map Prod.snd).prod) :
    ∃ tb, constraintTable info cons times c y first = .ok tb ∧ tb.name = first.name ++ "000" ∧
      tb.axes = ("time", cons.length) :: ("ant", nA) :: ("dir", nS) :: rest c y ∧
      tb.values.length = cons.length * (nA * nS * ((rest c y).map Prod.snd).prod) ∧
      tb.weights.length = cons.length * (nA * nS * ((rest c y).map Prod.snd).prod) ∧
      (∀ t < cons.length, ∀ x < nA * nS * ((rest c y).map Prod.snd).prod,
        tb.values[t * (nA * nS * ((rest c y).map Prod.snd).prod) + x]? =
          ((resAt cons t c y).bind fun r => r.vals[x]?) ∧
        tb.weights[t * (nA * nS * ((rest c y).map Prod.snd).prod) + x]? =
          ((resAt cons t c y).bind fun r => r.weights[x]?)) ∧
      tb.times = times ∧
      tb.freqs = blockFreqs ((((rest c y).find? fun a => a.1 = "freq").map Prod.snd).getD 1)
        info.chanFreqs := by
  have hfs := h.shape _ _ _ _ hfirst
  obtain ⟨vals, hv1, hv2, hv3⟩ := column h c y (nA * nS * ((rest c y).map Prod.snd).prod) hc hy
    Result.vals (fun t r hr => (h.shape _ _ _ _ hr).vals)
  obtain ⟨ws, hw1, hw2, hw3⟩ := column h c y (nA * nS * ((rest c y).map Prod.snd).prod) hc hy
    Result.weights (fun t r hr => (h.shape _ _ _ _ hr).weights)
  have hemp : first.weights.isEmpty = false := by
    rw [List.isEmpty_eq_false_iff, ← List.length_pos_iff, hfs.weights]
    exact hM
  have hhead : (cons.headD []).length = nC := by
    rw [List.headD_eq_head?_getD, List.head?_eq_getElem?, List.getElem?_eq_getElem hL,
      Option.getD_some, h.count _ (List.getElem_mem hL)]
  have hany : ((cons.take times.length).any fun ci =>
      decide (ci.length ≠ (cons.headD []).length)) = false := by
    rw [hhead, List.any_eq_false]
    intro ci hci
    have := h.count ci (List.mem_of_mem_take hci)
    simp [this]
  have htake : cons.take times.length = cons := by rw [htimes, List.take_length]
  have hf1 : ((("time", cons.length) :: ("ant", nA) :: ("dir", nS) :: rest c y).find?
      fun a => a.1 = "pol") = (rest c y).find? fun a => a.1 = "pol" := by
    simp [List.find?_cons]
  have hf2 : ((("time", cons.length) :: ("ant", nA) :: ("dir", nS) :: rest c y).find?
      fun a => a.1 = "freq") = (rest c y).find? fun a => a.1 = "freq" := by
    simp [List.find?_cons]
  unfold constraintTable
  rw [hany, htake, hv1, hemp, hw1]
  simp only [Bool.false_eq_true, if_false, hfs.axes, hf1, hf2]
  cases hp : ((rest c y).find? fun a => a.1 = "pol").map Prod.snd with
  | none =>
    exact ⟨_, rfl, rfl, rfl, hv2, hw2, fun t ht x hx => ⟨hv3 t ht x hx, hw3 t ht x hx⟩, rfl, rfl⟩
  | some n =>
    rcases hpol n hp with rfl | rfl <;>
    exact ⟨_, rfl, rfl, rfl, hv2, hw2, fun t ht x hx => ⟨hv3 t ht x hx, hw3 t ht x hx⟩, rfl, rfl⟩

end Tables

end DP3.SolWriter
