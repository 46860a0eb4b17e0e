import Verif.SolveData.FillProps
import Mathlib.Algebra.Order.Floor.Ring
import Mathlib.Algebra.Order.Floor.Semiring
import Mathlib.Algebra.Field.Rat
import Mathlib.Algebra.Order.Ring.Rat
import Mathlib.Data.Rat.Floor
import Mathlib.Algebra.Order.Field.Basic
import Mathlib.Tactic.Linarith
import Mathlib.Tactic.Push
import Mathlib.Tactic.Ring

/-!
# Properties of SolveData, SolutionResampler and the channel blocks (C32, C33, C34, C66, C67)
-/

namespace DP3.SolveData

set_option linter.unusedSectionVars false

variable {V X W : Type}

/-! ## C32 -/

/-- **C32.**  Over all channel blocks, every time, cross-correlation and channel occurs exactly
once, and no autocorrelation occurs. -/
theorem regular_each_once (r : Regular V W) (hb : 0 < r.nBlocks) :
    ((List.range r.nBlocks).flatMap fun k =>
      (triples r).filter fun x => isCross r x.2.1 && inBlock r k x.2.2).Perm
    ((triples r).filter fun x => isCross r x.2.1) ∧
    ((triples r).filter fun x => isCross r x.2.1).Nodup := by
  have hnd : (triples r).Nodup := List.nodup_range.product (List.nodup_range.product List.nodup_range)
  have hpart := (channels_partition r.nCh r.nBlocks hb).2.2.2
  refine ⟨?_, hnd.filter _⟩
  rw [List.perm_ext_iff_of_nodup _ (hnd.filter _)]
  · rintro ⟨t, b, c⟩
    simp only [List.mem_flatMap, List.mem_range, List.mem_filter, Bool.and_eq_true]
    constructor
    · rintro ⟨k, _, h1, h2, _⟩
      exact ⟨h1, h2⟩
    · rintro ⟨h1, h2⟩
      have hc : c < r.nCh := by
        have := List.mem_product.1 h1
        exact List.mem_range.1 (List.mem_product.1 this.2).2
      obtain ⟨k, ⟨hk, h3, h4⟩, _⟩ := hpart c hc
      exact ⟨k, hk, h1, h2, by simp [inBlock, h3, h4]⟩
  · rw [List.nodup_flatMap]
    refine ⟨fun k _ => hnd.filter _, ?_⟩
    refine List.nodup_range.imp_of_mem ?_
    intro k j _ _ hne
    rw [Function.onFun, List.disjoint_left]
    rintro ⟨t, b, c⟩ h1 h2
    rw [List.mem_filter] at h1 h2
    have hc : c < r.nCh := by
      have := List.mem_product.1 h1.1
      exact List.mem_range.1 (List.mem_product.1 this.2).2
    obtain ⟨i, _, hu⟩ := hpart c hc
    simp only [Bool.and_eq_true, inBlock, decide_eq_true_eq] at h1 h2
    exact hne ((hu k h1.2.2.1 h1.2.2.2).trans (hu j h2.2.2.1 h2.2.2.2).symm)

/-- Two times, an autocorrelation and a cross-correlation, three channels in two blocks, two
directions with one and two solutions. -/
def small : Regular (Nat × Nat × Nat) Nat where
  nTimes := 2
  nBl := 2
  nCh := 3
  nBlocks := 2
  ants1 := [0, 0]
  ants2 := [0, 1]
  nSol := [1, 2]
  hasWeights := false
  vis := fun t b c => (t, b, c)
  weight := fun _ _ _ => 0
  model := fun d t b c => (t + 10 * d, b, c)

example : (regular (fun v => v) small).map (fun bs => bs.map fun b => b.cells.map fun c =>
      c.map fun c => (c.vis, c.model)) =
    some [[some ((0, 1, 0), [((0, 1, 0), 0), ((10, 1, 0), 1)]),
           some ((1, 1, 0), [((1, 1, 0), 0), ((11, 1, 0), 2)])],
          [some ((0, 1, 1), [((0, 1, 1), 0), ((10, 1, 1), 1)]),
           some ((0, 1, 2), [((0, 1, 2), 0), ((10, 1, 2), 1)]),
           some ((1, 1, 1), [((1, 1, 1), 0), ((11, 1, 1), 2)]),
           some ((1, 1, 2), [((1, 1, 2), 0), ((11, 1, 2), 2)])]] := by rfl

/-- Number of cells in which an antenna takes part. -/
private theorem countAntenna_aux (nAnt : Nat) (a : Nat) (ha : a < nAnt) :
    ∀ (cells : List (Cell X W)) (init : List Nat), init.length = nAnt →
      (cells.foldl (fun counts c =>
        let counts := counts.modify c.ant1 (· + 1)
        counts.modify c.ant2 (· + 1)) init)[a]? =
      (init[a]?).map fun n => n + (cells.countP fun c => decide (c.ant1 = a)) +
        (cells.countP fun c => decide (c.ant2 = a))
  | [], init, _ => by simp
  | c :: cells, init, h => by
    rw [List.foldl_cons, countAntenna_aux nAnt a ha cells _ (by simp [h])]
    simp only [List.getElem?_modify, List.countP_cons]
    rw [List.getElem?_eq_getElem (by omega)]
    simp only [Option.map_some, decide_eq_true_eq]
    split_ifs <;> simp <;> omega

/-- **C32.**  `NAntennaVisibilities` is the number of visibilities with the antenna as the first
plus those with it as the second antenna. -/
theorem countAntenna_spec (nAnt : Nat) (cells : List (Cell X W)) (a : Nat) (ha : a < nAnt) :
    (countAntenna nAnt cells)[a]? = some
      ((cells.filter fun c => decide (c.ant1 = a)).length +
        (cells.filter fun c => decide (c.ant2 = a)).length) := by
  rw [countAntenna, countAntenna_aux nAnt a ha cells _ (by simp)]
  simp [ha, List.countP_eq_length_filter]

/-- **C32.**  `NSolutionVisibilities` is the number of visibilities that use a solution. -/
theorem nSolutionVisibilities_spec (cells : List (Cell X W)) (dir sol : Nat) :
    nSolutionVisibilities cells dir sol =
      (cells.filter fun c => decide (∃ m ∈ c.model[dir]?, m.2 = sol)).length := by
  have key : ∀ (cells : List (Cell X W)) (n : Nat),
      cells.foldl (fun n c => if (c.model[dir]?).map Prod.snd = some sol then n + 1 else n) n =
      n + (cells.filter fun c => decide (∃ m ∈ c.model[dir]?, m.2 = sol)).length := by
    intro cells
    induction cells with
    | nil => intro n; simp
    | cons c cells ih =>
      intro n
      rw [List.foldl_cons, ih, List.filter_cons]
      have hiff : ((c.model[dir]?).map Prod.snd = some sol) ↔ ∃ m ∈ c.model[dir]?, m.2 = sol := by
        rw [Option.map_eq_some_iff]
        simp only [Option.mem_def]
      by_cases h : (c.model[dir]?).map Prod.snd = some sol
      · rw [if_pos h, if_pos (by simpa using hiff.1 h), List.length_cons]; omega
      · rw [if_neg h, if_neg (by simpa using fun hc => h (hiff.2 hc))]
  rw [nSolutionVisibilities, key, Nat.zero_add]

example : let c : Cell Nat Nat := ⟨7, 0, 2, none, [(1, 0), (1, 3)]⟩
    countAntenna 3 [c, c] = [2, 0, 2] ∧ nSolutionVisibilities [c, c] 1 3 = 2 := by decide

/-! ## C33 -/

/-- Smallest time step of solution `s`. -/
private def firstTime (n N s : Nat) : Nat := (s * N + n - 1) / n

private theorem index_iff (n N t s : Nat) (hn : 0 < n) (hN : 0 < N) :
    t * n / N = s ↔ firstTime n N s ≤ t ∧ t < firstTime n N (s + 1) := by
  have h1 : t * n / N = s ↔ s * N ≤ t * n ∧ t * n < (s + 1) * N := by
    rw [Nat.div_eq_iff hN]
    constructor
    · rintro ⟨a, b⟩; exact ⟨a, by rw [Nat.add_mul]; omega⟩
    · rintro ⟨a, b⟩; exact ⟨a, by rw [Nat.add_mul] at b; omega⟩
  have h2 : ∀ m, firstTime n N m ≤ t ↔ m * N ≤ t * n := by
    intro m
    rw [firstTime, Nat.div_le_iff_le_mul_add_pred hn]
    rw [Nat.mul_comm n t]
    omega
  rw [h1, h2]
  constructor
  · rintro ⟨a, b⟩; exact ⟨a, by by_contra hc; exact absurd ((h2 (s + 1)).1 (by omega)) (by omega)⟩
  · rintro ⟨a, b⟩; exact ⟨a, by by_contra hc; exact absurd ((h2 (s + 1)).2 (by omega)) (by omega)⟩

private theorem firstTime_mono (n N s : Nat) : firstTime n N s ≤ firstTime n N (s + 1) :=
  Nat.div_le_div_right (by rw [Nat.add_mul]; omega)

private theorem firstTime_le (n N s : Nat) (hn : 0 < n) (hs : s ≤ n) : firstTime n N s ≤ N := by
  rw [firstTime, Nat.div_le_iff_le_mul_add_pred hn]
  have : s * N ≤ n * N := Nat.mul_le_mul_right _ hs
  omega

private theorem firstTime_step (n N s : Nat) (hn : 0 < n) :
    N / n ≤ firstTime n N (s + 1) - firstTime n N s ∧
    firstTime n N (s + 1) - firstTime n N s ≤ N / n + 1 := by
  have hq := Nat.div_add_mod N n
  have hr := Nat.mod_lt N hn
  have hA := Nat.div_add_mod (s * N + n - 1) n
  have hAr := Nat.mod_lt (s * N + n - 1) hn
  have hB := Nat.div_add_mod ((s + 1) * N + n - 1) n
  have hBr := Nat.mod_lt ((s + 1) * N + n - 1) hn
  unfold firstTime
  generalize (s * N + n - 1) / n = A at *
  generalize ((s + 1) * N + n - 1) / n = B at *
  generalize N / n = q at *
  have hsum : (s + 1) * N + n - 1 = (s * N + n - 1) + N := by rw [Nat.add_mul]; omega
  rw [hsum] at hB hBr
  generalize s * N + n - 1 = M at *
  constructor
  · by_contra hc
    have : B + 1 ≤ A + q := by omega
    have h := Nat.mul_le_mul_left n this
    rw [Nat.mul_add, Nat.mul_add, Nat.mul_one] at h
    omega
  · by_contra hc
    have : A + q + 2 ≤ B := by omega
    have h := Nat.mul_le_mul_left n this
    rw [Nat.mul_add, Nat.mul_add] at h
    omega

/-- **C33.**  With `n` (at least one, at most the number of time steps, as
`LimitNSolutionsPerDirection` guarantees) solutions starting at `start`, the solution of a time step
is one of these, does not decrease with time, is the first one for the first time step; each
solution is used; and the numbers of time steps per solution differ by at most one. -/
theorem solutionIndex_spec (n start N : Nat) (hn : 0 < n) (hnN : n ≤ N) :
    (∀ t, t < N → start ≤ solutionIndex n start N t ∧ solutionIndex n start N t < start + n) ∧
    (∀ t u, t ≤ u → solutionIndex n start N t ≤ solutionIndex n start N u) ∧
    solutionIndex n start N 0 = start ∧
    (∀ s, s < n → ∃ t, t < N ∧ solutionIndex n start N t = start + s) ∧
    (∀ s, s < n →
      N / n ≤ ((List.range N).filter fun t =>
        decide (solutionIndex n start N t = start + s)).length ∧
      ((List.range N).filter fun t =>
        decide (solutionIndex n start N t = start + s)).length ≤ N / n + 1) := by
  have hN : 0 < N := by omega
  have hcount : ∀ s, s < n → ((List.range N).filter fun t =>
      decide (solutionIndex n start N t = start + s)).length =
      firstTime n N (s + 1) - firstTime n N s := by
    intro s hs
    have : (fun t => decide (solutionIndex n start N t = start + s)) =
        fun t => decide (firstTime n N s ≤ t ∧ t < firstTime n N (s + 1)) := by
      funext t
      congr 1
      rw [← index_iff n N t s hn hN, solutionIndex]
      apply propext
      omega
    rw [this, filter_range _ _ _ (firstTime_mono n N s) (firstTime_le n N (s + 1) hn hs)]
    simp
  refine ⟨?_, ?_, ?_, ?_, ?_⟩
  · intro t ht
    have : t * n / N < n := by
      rw [Nat.div_lt_iff_lt_mul hN, Nat.mul_comm n N]
      exact Nat.mul_lt_mul_of_pos_right ht hn
    rw [solutionIndex]
    generalize t * n / N = z at *
    omega
  · intro t u h
    exact Nat.add_le_add_right (Nat.div_le_div_right (Nat.mul_le_mul_right _ h)) _
  · simp [solutionIndex]
  · intro s hs
    have h1 := (firstTime_step n N s hn).1
    have h2 : 0 < N / n := Nat.div_pos hnN hn
    refine ⟨firstTime n N s, ?_, ?_⟩
    · have := firstTime_le n N (s + 1) hn hs
      omega
    · rw [solutionIndex, (index_iff n N _ s hn hN).2 ⟨Nat.le_refl _, by omega⟩]
      omega
  · intro s hs
    rw [hcount s hs]
    exact firstTime_step n N s hn

/-- **C33.**  The numbers of solutions that are used meet the hypotheses of `solutionIndex_spec`. -/
theorem limit_spec (nSol : List Nat) (N : Nat) (h : ∀ n ∈ nSol, 0 < n) (hN : 0 < N) :
    ∀ n ∈ limitNSolutions nSol N, 0 < n ∧ n ≤ N := by
  intro n hn
  obtain ⟨m, hm, rfl⟩ := List.mem_map.1 hn
  have := h m hm
  omega

example : (List.range 7).map (solutionIndex 3 10 7) = [10, 10, 10, 11, 11, 12, 12] := by decide

/-! ## C34 -/

private theorem foldl_max_ge : ∀ (l : List Nat) (a : Nat), a ≤ l.foldl max a ∧
    ∀ x ∈ l, x ≤ l.foldl max a
  | [], a => ⟨Nat.le_refl _, by simp⟩
  | y :: l, a => by
    obtain ⟨h1, h2⟩ := foldl_max_ge l (max a y)
    rw [List.foldl_cons]
    refine ⟨by omega, ?_⟩
    intro x hx
    rcases List.mem_cons.1 hx with rfl | hx
    · omega
    · exact h2 x hx

private theorem foldl_max_mem : ∀ (l : List Nat) (a : Nat), l.foldl max a = a ∨ l.foldl max a ∈ l
  | [], a => Or.inl rfl
  | y :: l, a => by
    rw [List.foldl_cons]
    rcases foldl_max_mem l (max a y) with h | h
    · rw [h]
      rcases Nat.le_total a y with h' | h'
      · rw [Nat.max_eq_right h']; exact Or.inr (by simp)
      · rw [Nat.max_eq_left h']; exact Or.inl rfl
    · exact Or.inr (List.mem_cons_of_mem _ h)

/-- The number of substeps is a multiple of all numbers of solutions, and divides the solution
interval. -/
theorem nSubsteps_spec (nSol : List Nat) (solint : Nat) (hne : nSol ≠ []) (hs : 0 < solint)
    (hdiv : ∀ n ∈ nSol, 0 < n ∧ n ∣ solint) :
    0 < nSubsteps nSol solint ∧ nSubsteps nSol solint ∣ solint ∧
      ∀ n ∈ nSol, n ∣ nSubsteps nSol solint := by
  unfold nSubsteps
  simp only
  split_ifs with h
  · exact ⟨hs, Nat.dvd_refl _, fun n hn => (hdiv n hn).2⟩
  · have hall : ∀ n ∈ nSol, n ∣ nSol.foldl max 0 := by
      intro n hn
      apply Nat.dvd_of_mod_eq_zero
      by_contra hc
      exact h (List.any_eq_true.2 ⟨n, hn, by simpa using hc⟩)
    obtain ⟨x, hx⟩ := List.exists_mem_of_ne_nil _ hne
    have hpos : 0 < nSol.foldl max 0 := by
      have := (foldl_max_ge nSol 0).2 x hx
      have := (hdiv x hx).1
      omega
    refine ⟨hpos, ?_, hall⟩
    rcases foldl_max_mem nSol 0 with h0 | h0
    · omega
    · exact (hdiv _ h0).2

/-- **C34.**  For every time step `t` of solution interval `i`, the upsampled solution of the substep
that contains the time step, for any antenna, direction and polarisation, is the solution that
`SolveData` assigns to the time step in that direction, at the place where the solvers store it.
The same holds for the results of constraints. -/
theorem resample_spec (nSol : List Nat) (solint nPol i t ant dir pol : Nat)
    (hdir : dir < nSol.length) (ht : t < solint)
    (hdiv : ∀ n ∈ nSol, 0 < n ∧ n ∣ solint) :
    let nSub := nSubsteps nSol solint
    let sub := t / (solint / nSub)
    let limited := nSol.map fun n => min n solint
    let sol := solutionIndex (limited.getD dir 0) ((limited.take dir).sum) solint t
    sub < nSub ∧
    mapResampled nSol solint nPol (i * nSub + sub) ant dir pol =
      (i, (ant * nSol.sum + sol) * nPol + pol) ∧
    constraintSub nSol solint dir sub = sol := by
  intro nSub sub limited sol
  have hs : 0 < solint := by omega
  have hne : nSol ≠ [] := by intro h; rw [h] at hdir; simp at hdir
  have hlim : limited = nSol := by
    show nSol.map _ = nSol
    conv_rhs => rw [← List.map_id nSol]
    apply List.map_congr_left
    intro n hn
    exact Nat.min_eq_left (Nat.le_of_dvd hs (hdiv n hn).2)
  obtain ⟨h0, ⟨p, hp⟩, hall⟩ := nSubsteps_spec nSol solint hne hs hdiv
  have hmem : nSol.getD dir 0 ∈ nSol := by
    rw [List.getD_eq_getElem?_getD, List.getElem?_eq_getElem hdir]
    exact List.getElem_mem hdir
  obtain ⟨q, hq⟩ := hall _ hmem
  have hn0 := (hdiv _ hmem).1
  have hp0 : 0 < p := by
    rcases Nat.eq_zero_or_pos p with h | h
    · rw [h, Nat.mul_zero] at hp; omega
    · exact h
  have hq0 : 0 < q := by
    rcases Nat.eq_zero_or_pos q with h | h
    · rw [h, Nat.mul_zero] at hq; omega
    · exact h
  have hsub : sub = t / p := by
    show t / (solint / nSubsteps nSol solint) = t / p
    rw [Nat.div_eq_of_eq_mul_right h0 hp]
  have hsol : sol = t / (p * q) + (nSol.take dir).sum := by
    show solutionIndex (limited.getD dir 0) ((limited.take dir).sum) solint t = _
    rw [hlim, solutionIndex]
    congr 1
    have he : solint = p * q * nSol.getD dir 0 := by
      refine hp.trans ?_
      rw [hq, Nat.mul_assoc, Nat.mul_comm, Nat.mul_comm q p]
    have hdd : t * nSol.getD dir 0 / solint =
        t * nSol.getD dir 0 / (p * q * nSol.getD dir 0) := congrArg (t * nSol.getD dir 0 / ·) he
    rw [hdd]
    exact Nat.mul_div_mul_right _ _ hn0
  have hlt : sub < nSub := by
    rw [hsub]
    show t / p < nSubsteps nSol solint
    rw [Nat.div_lt_iff_lt_mul hp0, ← hp]
    exact ht
  have hdivq : nSubsteps nSol solint / nSol.getD dir 0 = q := by
    exact Nat.div_eq_of_eq_mul_right hn0 hq
  refine ⟨hlt, ?_, ?_⟩
  · rw [mapResampled]
    simp only [Prod.mk.injEq]
    constructor
    · show (i * nSub + sub) / nSub = i
      rw [Nat.mul_comm, Nat.mul_add_div h0, Nat.div_eq_of_lt hlt, Nat.add_zero]
    · have hmod : (i * nSub + sub) % nSub = sub := by
        rw [Nat.mul_comm, Nat.mul_add_mod, Nat.mod_eq_of_lt hlt]
      show ant * nSol.sum * nPol + ((nSol.take dir).sum +
        (i * nSub + sub) % nSub / (nSubsteps nSol solint / nSol.getD dir 0)) * nPol + pol = _
      rw [hmod, hdivq, hsol, hsub, Nat.div_div_eq_div_mul]
      ring
  · rw [constraintSub, hsol, hsub]
    rw [Nat.add_comm]
    congr 1
    have hdd : t / p * nSol.getD dir 0 / nSubsteps nSol solint =
        t / p * nSol.getD dir 0 / (nSol.getD dir 0 * q) :=
      congrArg (t / p * nSol.getD dir 0 / ·) hq
    rw [hdd, Nat.mul_comm (nSol.getD dir 0) q, Nat.mul_div_mul_right _ _ hn0, Nat.div_div_eq_div_mul]

/-- Three and five solutions in an interval of 15 steps need 15 substeps; one and two need two. -/
example : nSubsteps [3, 5] 15 = 15 ∧ nSubsteps [1, 2] 6 = 2 ∧
    mapResampled [1, 2] 6 2 3 4 1 1 = (1, (4 * 3 + 2) * 2 + 1) := by decide

end DP3.SolveData
