import Mathlib.Algebra.Order.Ring.Rat
import Mathlib.Data.Rat.Defs
import Mathlib.Tactic.FinCases
import Verif.SolWriter.Lemmas

/-!
# Solution files of DDECal (C136, C137)
-/

namespace DP3.SolWriter

open DP3.SolveData

set_option linter.unusedSimpArgs false
set_option linter.unusedSectionVars false

/-- The value of `sols[i][f][x]`. -/
def solAt {C : Type} (sols : List (List (List C))) (i f x : Nat) : Option C :=
  (sols[i]?).bind fun s => (s[f]?).bind fun v => v[x]?

/-- The product of the sizes of the axes of a table. -/
def cells (axes : List (String × Nat)) : Nat := (axes.map Prod.snd).prod

section

variable {C V F : Type} [Field F] [LinearOrder F] [IsStrictOrderedRing F]

/-- The solutions that are given to `WriteDirect`, in both cases of `Write`. -/
theorem write_eq [Zero V] (phase amplitude : C → V) (info : Info F) (nSol : List Nat) (k nB : Nat)
    (sols : List (List (List C))) (cons : List (List (List (Result V)))) (start stop dt : F)
    (hne : nSol ≠ []) (hk : 0 < k) (hdiv : ∀ v ∈ nSol, 0 < v ∧ v ∣ k) (hlen : 0 < sols.length)
    (hP : 0 < info.mode.nPol)
    (hsh : Shape nB (info.antennas.length * nSol.sum * info.mode.nPol) sols) :
    ∃ us, (us.length = sols.length * nSubsteps nSol k ∧
        Shape nB (info.antennas.length * nSol.length * info.mode.nPol) us ∧
        ∀ t < us.length, ∀ f < nB, ∀ a < info.antennas.length, ∀ d < nSol.length,
          ∀ p < info.mode.nPol,
            solAt us t f ((a * nSol.length + d) * info.mode.nPol + p) =
            solAt sols (t / nSubsteps nSol k) f ((a * nSol.sum + slotSolution nSol k d
              (t % nSubsteps nSol k * (k / nSubsteps nSol k))) * info.mode.nPol + p)) ∧
      write phase amplitude info nSol k sols cons start stop dt =
        match (if nSol.sum = nSol.length then some cons
            else if noConstraints cons then some [] else upsampleConstraints nSol k cons) with
        | none => .error .ub
        | some uc => writeDirect phase amplitude info us uc start stop dt
            (dt * ((k / nSubsteps nSol k : Nat) : F)) := by
  have h0 := (nSubsteps_spec nSol k hne hk hdiv).1
  by_cases hone : nSol.sum = nSol.length
  · have h1 := all_one nSol (fun v hv => (hdiv v hv).1) hone
    have hs1 := nSubsteps_one nSol k hne h1
    refine ⟨sols, ⟨by rw [hs1, Nat.mul_one], by rw [← hone]; exact hsh, ?_⟩, ?_⟩
    · intro t _ f _ a _ d hd p _
      rw [hs1, Nat.div_one, Nat.div_one, Nat.mod_one, Nat.zero_mul, hone, slotSolution,
        take_sum_one nSol h1 d (by omega), Nat.zero_mul, Nat.zero_div, Nat.add_zero]
    · rw [if_pos hone, hs1, Nat.div_one, write, if_pos hone]
  · obtain ⟨us, hus, hul, hush, hug⟩ := upsample_spec nSol k info.antennas.length info.mode.nPol nB
      sols hne hk hdiv hP hlen hsh
    refine ⟨us, ⟨hul, hush, hug⟩, ?_⟩
    rw [if_neg hone, write, if_neg hone, if_neg (by omega), hus]
    cases (if noConstraints cons = true then some [] else upsampleConstraints nSol k cons) <;> rfl

theorem nPol_pos (m : Mode) : 0 < m.nPol := by cases m <;> decide

theorem solverPols_eq (m : Mode) (kinds : List Bool) (h : tableKinds m = some kinds) :
    solverPols m = m.nPol := by
  cases m <;> first | rfl | (simp [tableKinds] at h)

/-- **C136**, tables.  For the modes without a constraint that has results, there is a table of phases
unless the phases are constrained to zero, and a table of amplitudes unless the solver keeps them at one;
at most one of each.  For the other modes the solutions themselves are refused. -/
theorem kinds_spec (m : Mode) :
    (hasResults m = true ↔ tableKinds m = none) ∧
    ∀ kinds, tableKinds m = some kinds → kinds.Nodup ∧ (true ∈ kinds ↔ amplitudeOnly m = false) ∧
      (false ∈ kinds ↔ phaseOnly m = false) := by
  cases m <;> simp [hasResults, tableKinds, amplitudeOnly, phaseOnly]

example : tableKinds .leakage = some [true, false] ∧ tableKinds .tec = none := ⟨rfl, rfl⟩

/-- The number of substeps that start before the end of the measurement set. -/
theorem ceil_facts (n step len : Nat) (hs : 0 < step) (h : n ≤ len * step) :
    min len ((n + step - 1) / step) = (n + step - 1) / step ∧
      ∀ j, j < (n + step - 1) / step ↔ j * step < n := by
  have hiff : ∀ j, j < (n + step - 1) / step ↔ j * step < n := by
    intro j
    rw [← Nat.succ_le_iff, Nat.le_div_iff_mul_le hs, Nat.succ_mul]
    omega
  refine ⟨?_, hiff⟩
  apply Nat.min_eq_right
  by_contra hc
  have := (hiff len).1 (by omega)
  omega

/-- **C136.**  A run of DDECal over `n` time slots (the first with its centre at `first`), with
solution intervals of `k` slots, in which direction `d` has `nSol[d]` solutions per interval.  The
tables of the solution file have, for every slot `s` of the measurement set, exactly one time range
that contains the slot; the values for that range are, for each channel block, antenna, direction and
polarization, the solution that was calculated for the slot (the intervals of the directions divide the
solution interval evenly).  The number of values is the product of the sizes of the axes, and every
time range of the file contains a slot. -/
theorem solver_results_spec [Zero V] (phase amplitude : C → V) (info : Info F) (nSol : List Nat)
    (k n : Nat) (sols : List (List (List C))) (cons : List (List (List (Result V)))) (first dt : F)
    (kinds : List Bool) (hne : nSol ≠ []) (hk : 0 < k) (hdiv : ∀ v ∈ nSol, 0 < v ∧ v ∣ k)
    (hn : 0 < n) (hdt : 0 < dt) (hsrc : info.sources.length = nSol.length)
    (hlen : n ≤ sols.length * k)
    (hsh : Shape info.blockFreqs.length (info.antennas.length * nSol.sum * info.mode.nPol) sols)
    (hcons : noConstraints cons = true) (hkinds : tableKinds info.mode = some kinds) :
    ∃ tables step, write phase amplitude info nSol k sols cons (first - dt / 2)
        (first + ((n : F) - 1) * dt) dt = .ok tables ∧ 0 < step ∧
      (∀ v ∈ nSol, v * step ∣ k) ∧ tables.length = kinds.length ∧
      ∀ (i : Nat) (tb : Table V F) (isPhase : Bool), tables[i]? = some tb →
        kinds[i]? = some isPhase →
        (tb.name = if isPhase then "phase000" else "amplitude000") ∧
        tb.values.length = cells tb.axes ∧ (tb.axes.map Prod.snd).head? = some tb.times.length ∧
        tb.freqs = info.blockFreqs.map some ∧
        tb.pols.length = (if info.mode.nPol = 1 then 0 else info.mode.nPol) ∧
        (∀ (j : Nat) (tj : F), tb.times[j]? = some tj →
          tj = first - dt / 2 + ((j : F) + 1 / 2) * (dt * (step : F)) ∧ j * step < n) ∧
        ∀ s < n,
          (∃ tj, tb.times[s / step]? = some tj ∧
            tj - dt * (step : F) / 2 ≤ first + (s : F) * dt - dt / 2 ∧
            first + (s : F) * dt + dt / 2 ≤ tj + dt * (step : F) / 2) ∧
          ∀ f < info.blockFreqs.length, ∀ a < info.antennas.length, ∀ d < nSol.length,
            ∀ p < info.mode.nPol,
            ∃ g, solAt sols (s / k) f ((a * nSol.sum + slotSolution nSol k d (s % k)) *
                info.mode.nPol + p) = some g ∧
              tb.values[(((s / step * info.blockFreqs.length + f) * info.antennas.length + a) *
                nSol.length + d) * info.mode.nPol + p]? =
                some (if isPhase then phase g else amplitude g) := by
  have hP := nPol_pos info.mode
  have hpol := solverPols_eq info.mode kinds hkinds
  have hslen : 0 < sols.length := by
    rcases Nat.eq_zero_or_pos sols.length with h | h
    · rw [h] at hlen; omega
    · exact h
  obtain ⟨h0, hdvd, hall⟩ := nSubsteps_spec nSol k hne hk hdiv
  obtain ⟨us, ⟨hul, hush, hug⟩, hw⟩ := write_eq phase amplitude info nSol k info.blockFreqs.length
    sols cons (first - dt / 2) (first + ((n : F) - 1) * dt) dt hne hk hdiv hslen hP hsh
  set m := nSubsteps nSol k with hm
  set step := k / m with hstep
  have hms : m * step = k := Nat.mul_div_cancel' hdvd
  have hs0 : 0 < step := Nat.div_pos (Nat.le_of_dvd hk hdvd) h0
  have hnl : n ≤ us.length * step := by
    rw [hul, Nat.mul_assoc, hms]; exact hlen
  obtain ⟨hmin, hiff⟩ := ceil_facts n step us.length hs0 hnl
  have htimes := solutionTimes_eq first dt n step us.length hdt hn hs0
  rw [hmin] at htimes
  set T := (n + step - 1) / step with hT
  have hTle : T ≤ us.length := by omega
  have hempty : noConstraints (V := V) [] = true := rfl
  have hw2 : write phase amplitude info nSol k sols cons (first - dt / 2)
      (first + ((n : F) - 1) * dt) dt =
      writeSolver phase amplitude info us (solutionTimes us.length (first - dt / 2)
        (first + ((n : F) - 1) * dt) (dt * (step : F)) dt) := by
    rw [hw]
    by_cases hone : nSol.sum = nSol.length
    · rw [if_pos hone]
      simp only [writeDirect]
      rw [if_pos hcons]
    · rw [if_neg hone, if_pos hcons]
      simp only [writeDirect]
      rw [if_pos hempty]
  rw [hw2, htimes]
  unfold writeSolver
  rw [hkinds]
  refine ⟨_, step, rfl, hs0, ?_, by simp, ?_⟩
  · intro v hv
    obtain ⟨q, hq⟩ := hall v hv
    exact ⟨q, by rw [← hms, hq]; ring⟩
  intro i tb isPhase htb hki
  rw [List.getElem?_map, hki] at htb
  simp only [Option.map_some, Option.some.injEq] at htb
  subst htb
  set blk := info.blockFreqs.length with hblk
  set nA := info.antennas.length with hnA
  set nD := nSol.length with hnD
  set nP := info.mode.nPol with hnP
  have htl : ((List.range T).map fun j : Nat =>
      first - dt / 2 + ((j : F) + 1 / 2) * (dt * (step : F))).length = T := by simp
  have hmem : ∀ x ∈ us.take T, x ∈ us := fun x hx => List.mem_of_mem_take hx
  have hfl1 : ∀ x ∈ (us.take T).flatten, x.length = nA * nD * nP := by
    intro x hx
    obtain ⟨y, hy, hxy⟩ := List.mem_flatten.1 hx
    exact (hush y (hmem y hy)).2 x hxy
  have hfl2 : ∀ x ∈ us.take T, x.length = blk := fun x hx => (hush x (hmem x hx)).1
  have hvlen : ((us.take T).flatten.flatten).length = T * blk * (nA * nD * nP) := by
    rw [flatten_length _ _ hfl1, flatten_length _ _ hfl2, List.length_take, Nat.min_eq_left hTle]
  refine ⟨rfl, ?_, ?_, rfl, ?_, ?_, ?_⟩
  · simp only [solverTable, htl, List.length_map, hvlen, hpol, cells]
    rw [hsrc]
    by_cases h1 : 1 < nP
    · rw [if_pos h1]
      simp [← hnD, ← hnA, ← hblk]
      ring
    · rw [if_neg h1]
      have : nP = 1 := by omega
      rw [this]
      simp [← hnD, ← hnA, ← hblk]
      ring
  · simp only [solverTable, htl]
    simp
  · simp only [solverTable, hpol, hnP]
    cases hmm : info.mode <;> simp [Mode.nPol, polNames]
  · intro j tj hj
    simp only [solverTable, List.getElem?_map] at hj
    have hjT : j < T := by
      by_contra hc
      rw [List.getElem?_eq_none (by simpa using hc)] at hj
      cases hj
    rw [List.getElem?_range hjT] at hj
    simp only [Option.map_some, Option.some.injEq] at hj
    exact ⟨hj.symm, (hiff j).1 hjT⟩
  · intro s hs
    have hjT : s / step < T := (hiff _).2 (by have := Nat.div_mul_le_self s step; omega)
    constructor
    · refine ⟨first - dt / 2 + (((s / step : Nat) : F) + 1 / 2) * (dt * (step : F)), ?_, ?_, ?_⟩
      · simp only [solverTable, List.getElem?_map]
        rw [List.getElem?_range hjT]
        rfl
      · have h1 : ((s / step * step : Nat) : F) ≤ (s : F) :=
          Nat.cast_le.2 (Nat.div_mul_le_self s step)
        have h2 := mul_le_mul_of_nonneg_right h1 hdt.le
        push_cast at h2
        linarith
      · have h1 : ((s + 1 : Nat) : F) ≤ (((s / step + 1) * step : Nat) : F) :=
          Nat.cast_le.2 (by
            have := Nat.lt_div_mul_add (a := s) hs0
            rw [Nat.add_mul]; omega)
        have h2 := mul_le_mul_of_nonneg_right h1 hdt.le
        push_cast at h2
        linarith
    · intro f hf a ha d hd p hp
      have hjl : s / step < us.length := by omega
      have hg := hug (s / step) hjl f hf a ha d hd p hp
      have hsub := substep_index k m s hk h0 hdvd
      rw [← hstep] at hsub
      have hlt : s % k / step < m := by
        rw [Nat.div_lt_iff_lt_mul hs0, hms]; exact Nat.mod_lt _ hk
      have e1 : s / step / m = s / k := by
        rw [hsub, Nat.mul_comm, Nat.mul_add_div h0, Nat.div_eq_of_lt hlt, Nat.add_zero]
      have e2 : s / step % m = s % k / step := by
        rw [hsub, Nat.mul_comm, Nat.mul_add_mod, Nat.mod_eq_of_lt hlt]
      have e3 := slotSolution_substep nSol k d (s % k) hd (Nat.mod_lt _ hk) hdiv
      rw [← hm, ← hstep] at e3
      rw [e1, e2, e3] at hg
      -- the value exists
      have hx : (a * nD + d) * nP + p < nA * nD * nP := by
        have g1 : a * nD + d + 1 ≤ nA * nD := by
          have : (a + 1) * nD ≤ nA * nD := Nat.mul_le_mul_right _ (by omega)
          rw [Nat.add_mul] at this
          omega
        have := Nat.mul_le_mul_right nP g1
        rw [Nat.add_mul] at this
        omega
      obtain ⟨hsl1, hsl2⟩ := hush _ (List.getElem_mem hjl)
      have hf' : f < (us[s / step]).length := by omega
      have hvl := hsl2 _ (List.getElem_mem hf')
      have hval : solAt us (s / step) f ((a * nD + d) * nP + p) =
          some ((us[s / step])[f][(a * nD + d) * nP + p]'(by omega)) := by
        unfold solAt
        rw [List.getElem?_eq_getElem hjl, Option.bind_some, List.getElem?_eq_getElem hf',
          Option.bind_some, List.getElem?_eq_getElem]
      refine ⟨_, hg.symm.trans hval, ?_⟩
      simp only [solverTable, List.getElem?_map, htl]
      rw [show (((s / step * blk + f) * nA + a) * nD + d) * nP + p =
        (s / step * blk + f) * (nA * nD * nP) + ((a * nD + d) * nP + p) by ring]
      rw [flatten_get _ _ hfl1 _ _ hx, flatten_get _ _ hfl2 _ _ hf, List.getElem?_take,
        if_pos hjT]
      have hval' : ((us[s / step]?).bind fun (x : List (List C)) => x[f]?).bind
          (fun (x : List C) => x[(a * nD + d) * nP + p]?) =
          some ((us[s / step])[f][(a * nD + d) * nP + p]'(by omega)) := by
        rw [← hval]
        unfold solAt
        cases us[s / step]? <;> rfl
      rw [hval']
      cases isPhase <;> rfl

/-- The numbers of solutions that the settings accept meet the conditions of C136 and C137; with
`solint=0` every direction has one solution. -/
theorem prepare_spec (nDir k : Nat) (given nSol : List Nat) (h : prepare nDir k given = some nSol) :
    nSol.length = nDir ∧ (∀ v ∈ nSol, 0 < v ∧ v ∣ k) ∧ (k = 0 → ∀ v ∈ nSol, v = 1) := by
  unfold prepare at h
  dsimp only at h
  split_ifs at h with h1 h2 h3 h4
  simp only [Option.some.injEq] at h
  simp only [h] at h2 h3 h4
  have hpos : ∀ v ∈ nSol, 0 < v := by
    intro v hv
    rcases Nat.eq_zero_or_pos v with h0 | h0
    · subst h0
      exact absurd (List.contains_iff_mem.2 hv) h2
    · exact h0
  refine ⟨?_, ?_, ?_⟩
  · rw [← h]
    simp
    omega
  · intro v hv
    refine ⟨hpos v hv, ?_⟩
    apply Nat.dvd_of_mod_eq_zero
    by_contra hc
    exact h3 (List.any_eq_true.2 ⟨v, hv, by simpa using hc⟩)
  · intro hk v hv
    have hle := le_foldl_max nSol 0 v hv
    have := hpos v hv
    by_contra hne
    exact h4 ⟨by omega, Or.inl hk⟩

/-- The settings accept `solutions_per_direction=[2]` for two directions and `solint=6`, but not for
`solint=5` or `solint=0`. -/
example : prepare 2 6 [2] = some [2, 1] ∧ prepare 2 5 [2] = none ∧ prepare 2 0 [2] = none ∧
    prepare 2 0 [] = some [1, 1] := by decide

/-- The loop stops at the first time for which the condition holds. -/
theorem timesFrom_length_le (start stop interval dt : F) (j m t : Nat) (htj : t ≤ j)
    (h : start + (j : F) * interval > stop - 1 / 2 * dt) :
    (timesFrom start stop interval dt m t).length ≤ j - t := by
  induction m generalizing t with
  | zero => simp [timesFrom]
  | succ m ih =>
    unfold timesFrom
    split_ifs with hc
    · simp
    · have hne : t ≠ j := by rintro rfl; exact hc h
      rw [List.length_cons]
      have := ih (t + 1) (by omega)
      omega

/-- **C136**, the margin at the end.  `GetSolutionTimes` leaves half a slot of margin from the *centre*
of the last slot, so that an interval that starts with the last slot is kept only because of an exact
equality: with any lower end time, such as by rounding, its solution is not written (in particular for
solution intervals of one slot). -/
theorem last_solution_dropped (first dt stop : F) (n step nTimes : Nat) (hn : 0 < n)
    (hdvd : step ∣ n - 1) (hstop : stop < first + ((n : F) - 1) * dt) :
    (solutionTimes nTimes (first - dt / 2) stop (dt * (step : F)) dt)[(n - 1) / step]? = none := by
  rw [List.getElem?_eq_none]
  have h : first - dt / 2 + (((n - 1) / step : Nat) : F) * (dt * (step : F)) >
      stop - 1 / 2 * dt := by
    have e : (((n - 1) / step : Nat) : F) * (step : F) = (n : F) - 1 := by
      rw [← Nat.cast_mul, Nat.div_mul_cancel hdvd, Nat.cast_sub hn, Nat.cast_one]
    have e2 : (((n - 1) / step : Nat) : F) * (dt * (step : F)) = ((n : F) - 1) * dt := by
      rw [← e]; ring
    rw [e2]
    linarith
  have := timesFrom_length_le (first - dt / 2) stop (dt * (step : F)) dt _ nTimes 0 (Nat.zero_le _) h
  simpa [solutionTimes] using this

/-- **C136**, violation.  `BdaDdeCal` passes `solint` itself (steps/BdaDdeCal.cc:848), also if it is
zero, which asks for one interval of all slots.  The time of the solution in the file is then the start
of the observation, which is not in the interior of any slot, and not the centre of the interval. -/
theorem bda_solint_zero [Zero V] (phase amplitude : C → V) (info : Info F) (nSol : List Nat)
    (sol : List (List C)) (cons : List (List (List (Result V)))) (first dt : F) (n : Nat)
    (kinds : List Bool) (hn : 0 < n) (hdt : 0 < dt) (hone : nSol.sum = nSol.length)
    (hcons : noConstraints cons = true) (hkinds : tableKinds info.mode = some kinds) :
    (∃ tables, write phase amplitude info nSol 0 [sol] cons (first - dt / 2)
        (first + ((n : F) - 1) * dt) dt = .ok tables ∧ tables.length = kinds.length ∧
        ∀ tb ∈ tables, tb.times = [first - dt / 2]) ∧
      first - dt / 2 ≠ first - dt / 2 + 1 / 2 * ((n : F) * dt) ∧
      ∀ s < n, ¬ (first + (s : F) * dt - dt / 2 < first - dt / 2) := by
  have h1 : (1 : F) ≤ (n : F) := by
    have : ((1 : Nat) : F) ≤ (n : F) := Nat.cast_le.2 hn
    simpa using this
  have ht : solutionTimes 1 (first - dt / 2) (first + ((n : F) - 1) * dt) (dt * ((0 : Nat) : F)) dt
      = [first - dt / 2] := by
    have h2 := mul_le_mul_of_nonneg_right h1 hdt.le
    rw [solutionTimes, timesFrom, if_neg (by simp; linarith), timesFrom]
    simp
  refine ⟨?_, ?_, ?_⟩
  · rw [write, if_pos hone, writeDirect, if_pos hcons, writeSolver, hkinds]
    refine ⟨_, rfl, by simp, ?_⟩
    intro tb htb
    obtain ⟨b, _, rfl⟩ := List.mem_map.1 htb
    exact ht
  · intro h
    have : 0 < (n : F) * dt := mul_pos (by linarith) hdt
    linarith
  · intro s _ h
    have : (0 : F) ≤ (s : F) * dt := mul_nonneg (Nat.cast_nonneg s) hdt.le
    linarith

/-! ## Constraint results -/

/-- **C137**, partial.  If constraints produce results, the solution file has a table for each result
of each constraint, with values and weights for all cells; for every slot `s` the values of its time
range are those that the constraint calculated for the solution of the slot.  Missing: this holds only
if a slot of the measurement set is in the last substep (`hkeep`) and, when directions have different
intervals, if all constraints have the same number of results (`hsame`), see `time_axis_wrong` and
`results_lost`. -/
theorem constraint_results_spec_partial [Zero V] (phase amplitude : C → V) (info : Info F)
    (nSol : List Nat) (k n nC : Nat) (nT : Nat → Nat) (rest : Nat → Nat → List (String × Nat))
    (sols : List (List (List C))) (cons : List (List (List (Result V)))) (first dt : F)
    (hne : nSol ≠ []) (hk : 0 < k) (hdiv : ∀ v ∈ nSol, 0 < v ∧ v ∣ k)
    (hn : 0 < n) (hdt : 0 < dt) (hA : 0 < info.antennas.length)
    (hlen : n ≤ sols.length * k) (hcl : cons.length = sols.length)
    (hkeep : (sols.length * k - n) * nSubsteps nSol k < k)
    (hsh : Shape info.blockFreqs.length (info.antennas.length * nSol.sum * info.mode.nPol) sols)
    (hC : 0 < nC) (hres : ∀ c y, 0 < ((rest c y).map Prod.snd).prod)
    (hsame : nSol.sum ≠ nSol.length → ∀ c < nC, nT c = nT 0)
    (hcsh : CShape info.antennas.length nSol.sum nC nT rest cons)
    (hpol : ∀ c < nC, ∀ y < nT c, PolOk (rest c y)) :
    ∃ tables step, write phase amplitude info nSol k sols cons (first - dt / 2)
        (first + ((n : F) - 1) * dt) dt = .ok tables ∧ 0 < step ∧ (∀ v ∈ nSol, v * step ∣ k) ∧
      ∀ c < nC, ∀ y < nT c, ∃ r0, resAt cons 0 c y = some r0 ∧ ∃ tb ∈ tables,
        tb.name = r0.name ++ "000" ∧
        tb.axes = ("time", tb.times.length) :: ("ant", info.antennas.length) ::
          ("dir", nSol.length) :: rest c y ∧
        tb.values.length = cells tb.axes ∧ tb.weights.length = cells tb.axes ∧
        tb.freqs = blockFreqs ((((rest c y).find? fun a => a.1 = "freq").map Prod.snd).getD 1)
          info.chanFreqs ∧
        (∀ (j : Nat) (tj : F), tb.times[j]? = some tj →
          tj = first - dt / 2 + ((j : F) + 1 / 2) * (dt * (step : F)) ∧ j * step < n) ∧
        ∀ s < n, s / step < tb.times.length ∧
          ∀ a < info.antennas.length, ∀ d < nSol.length, ∀ x < ((rest c y).map Prod.snd).prod,
            ∃ r v w, resAt cons (s / k) c y = some r ∧
              r.vals[(a * nSol.sum + slotSolution nSol k d (s % k)) *
                ((rest c y).map Prod.snd).prod + x]? = some v ∧
              r.weights[(a * nSol.sum + slotSolution nSol k d (s % k)) *
                ((rest c y).map Prod.snd).prod + x]? = some w ∧
              tb.values[((s / step * info.antennas.length + a) * nSol.length + d) *
                ((rest c y).map Prod.snd).prod + x]? = some v ∧
              tb.weights[((s / step * info.antennas.length + a) * nSol.length + d) *
                ((rest c y).map Prod.snd).prod + x]? = some w := by
  have hP := nPol_pos info.mode
  have hslen : 0 < sols.length := by
    rcases Nat.eq_zero_or_pos sols.length with h | h
    · rw [h] at hlen; omega
    · exact h
  obtain ⟨h0, hdvd, hall⟩ := nSubsteps_spec nSol k hne hk hdiv
  obtain ⟨us, ⟨hul, _, _⟩, hw⟩ := write_eq phase amplitude info nSol k info.blockFreqs.length
    sols cons (first - dt / 2) (first + ((n : F) - 1) * dt) dt hne hk hdiv hslen hP hsh
  obtain ⟨uc, hcase, hucl, hucs, hucg⟩ := upsampleConstraints_spec nSol k info.antennas.length nC nT
    rest cons hne hk hdiv hA (by omega) hC hres hsame hcsh
  rw [hcase] at hw
  simp only at hw
  set m := nSubsteps nSol k with hm
  set step := k / m with hstep
  have hms : m * step = k := Nat.mul_div_cancel' hdvd
  have hs0 : 0 < step := Nat.div_pos (Nat.le_of_dvd hk hdvd) h0
  have hnl : n ≤ us.length * step := by
    rw [hul, Nat.mul_assoc, hms]; exact hlen
  obtain ⟨hmin, hiff⟩ := ceil_facts n step us.length hs0 hnl
  have htimes := solutionTimes_eq first dt n step us.length hdt hn hs0
  rw [hmin] at htimes
  have hul2 : us.length = uc.length := by rw [hul, hucl, hcl]
  have hulpos : 0 < us.length := by rw [hul]; exact Nat.mul_pos hslen h0
  -- all substeps are kept
  have hkeep' : sols.length * k - n < step := by
    by_contra hc
    have h1 : step * m ≤ (sols.length * k - n) * m := Nat.mul_le_mul_right _ (by omega)
    rw [Nat.mul_comm, hms] at h1
    omega
  have hT : (n + step - 1) / step = us.length := by
    have h1 : us.length - 1 < (n + step - 1) / step := by
      rw [hiff, Nat.sub_mul, Nat.one_mul, hul, Nat.mul_assoc, hms]
      have : 0 < sols.length * k := Nat.mul_pos hslen hk
      omega
    omega
  rw [hT] at htimes
  have htl : ((List.range us.length).map fun j : Nat =>
      first - dt / 2 + ((j : F) + 1 / 2) * (dt * (step : F))).length = us.length := by simp
  have hhead : (uc.headD []).length = nC := by
    rw [List.headD_eq_head?_getD, List.head?_eq_getElem?, List.getElem?_eq_getElem (by omega),
      Option.getD_some, hucs.count _ (List.getElem_mem _)]
  have hnc : ¬ noConstraints uc = true := by
    unfold noConstraints
    rw [Bool.not_eq_true, List.isEmpty_eq_false_iff, ← List.length_pos_iff, hhead]
    exact hC
  have hD : 0 < nSol.length := List.length_pos_iff.2 hne
  -- the loop over the constraints and results of the first time
  have hloop : ∀ c y r, (c, y, r) ∈ ((uc.headD []).zipIdx.flatMap fun cc =>
      cc.1.zipIdx.map fun r => (cc.2, r.2, r.1)) ↔ resAt uc 0 c y = some r := by
    intro c y r
    have hd0 : uc[0]? = some (uc.headD []) := by
      rw [List.headD_eq_head?_getD, List.head?_eq_getElem?, List.getElem?_eq_getElem (by omega)]
      rfl
    unfold resAt
    rw [hd0, Option.bind_some, List.mem_flatMap]
    constructor
    · rintro ⟨cc, hcc, hr⟩
      obtain ⟨r', hr', he⟩ := List.mem_map.1 hr
      have h1 := List.mem_zipIdx_iff_getElem?.1 hcc
      have h2 := List.mem_zipIdx_iff_getElem?.1 hr'
      simp only [Prod.mk.injEq] at he
      obtain ⟨rfl, rfl, rfl⟩ := he
      rw [h1, Option.bind_some, h2]
    · intro hr
      cases hcc : (uc.headD [])[c]? with
      | none => rw [hcc] at hr; cases hr
      | some cc =>
        rw [hcc, Option.bind_some] at hr
        exact ⟨(cc, c), List.mem_zipIdx_iff_getElem?.2 hcc,
          List.mem_map.2 ⟨(r, y), List.mem_zipIdx_iff_getElem?.2 hr, rfl⟩⟩
  have hM : ∀ c y, 0 < info.antennas.length * nSol.length * ((rest c y).map Prod.snd).prod :=
    fun c y => Nat.mul_pos (Nat.mul_pos hA hD) (hres c y)
  have hbound : ∀ c y r, resAt uc 0 c y = some r → c < nC ∧ y < nT c := by
    intro c y r hr
    have ht : 0 < uc.length := by omega
    have hcnt := hucs.count _ (List.getElem_mem ht)
    have hc : c < nC := by
      by_contra hcon
      unfold resAt at hr
      rw [List.getElem?_eq_getElem ht, Option.bind_some,
        List.getElem?_eq_none (by omega)] at hr
      cases hr
    have hc' : c < (uc[0]).length := by omega
    have htyp := hucs.types _ (List.getElem_mem ht) c _ (List.getElem?_eq_getElem hc')
    refine ⟨hc, ?_⟩
    by_contra hcon
    unfold resAt at hr
    rw [List.getElem?_eq_getElem ht, Option.bind_some, List.getElem?_eq_getElem hc',
      Option.bind_some, List.getElem?_eq_none (by omega)] at hr
    cases hr
  have hspec := fun c y r (hr : resAt uc 0 c y = some r) =>
    constraintTable_spec info ((List.range us.length).map fun j : Nat =>
      first - dt / 2 + ((j : F) + 1 / 2) * (dt * (step : F))) hucs (by rw [htl, hul2]) (by omega)
      c y (hbound c y r hr).1 (hbound c y r hr).2 r hr
      (hpol c (hbound c y r hr).1 y (hbound c y r hr).2) (hM c y)
  obtain ⟨tables, ht1, _, ht3⟩ := mapM_ok
    ((uc.headD []).zipIdx.flatMap fun cc => cc.1.zipIdx.map fun r => (cc.2, r.2, r.1))
    (fun p => constraintTable info uc ((List.range us.length).map fun j : Nat =>
      first - dt / 2 + ((j : F) + 1 / 2) * (dt * (step : F))) p.1 p.2.1 p.2.2) (by
      rintro ⟨c, y, r⟩ hx
      obtain ⟨tb, htb, _⟩ := hspec c y r ((hloop c y r).1 hx)
      exact ⟨tb, htb⟩)
  refine ⟨tables, step, ?_, hs0, ?_, ?_⟩
  · rw [hw, writeDirect, if_neg hnc, htimes]
    exact ht1
  · intro v hv
    obtain ⟨q, hq⟩ := hall v hv
    exact ⟨q, by rw [← hms, hq]; ring⟩
  intro c hc y hy
  obtain ⟨r0, r, g1, g2, g3⟩ := hucg 0 (by omega) c hc y hy
  rw [Nat.zero_div] at g1
  refine ⟨r0, g1, ?_⟩
  obtain ⟨tb, htb, htb2⟩ := ht3 (c, y, r) ((hloop c y r).2 g2)
  obtain ⟨tb', q1, q2, q3, q4, q5, q6, q7, q8⟩ := hspec c y r g2
  simp only at htb2
  rw [htb2] at q1
  cases q1
  have hcells : cells tb.axes =
      uc.length * (info.antennas.length * nSol.length * ((rest c y).map Prod.snd).prod) := by
    rw [q3, cells]
    simp only [List.map_cons, List.prod_cons]
    ring
  refine ⟨tb, htb, by rw [q2, g3.name], by rw [q3, q7, htl, hul2], by rw [q4, hcells],
    by rw [q5, hcells], q8, ?_, ?_⟩
  · intro j tj hj
    rw [q7, List.getElem?_map] at hj
    have hjT : j < us.length := by
      by_contra hcon
      rw [List.getElem?_eq_none (by simpa using hcon)] at hj
      cases hj
    rw [List.getElem?_range hjT] at hj
    simp only [Option.map_some, Option.some.injEq] at hj
    exact ⟨hj.symm, (hiff j).1 (by omega)⟩
  · intro s hs
    have hjT : s / step < us.length := by
      rw [← hT, hiff]
      have := Nat.div_mul_le_self s step
      omega
    refine ⟨by rw [q7, htl]; exact hjT, ?_⟩
    intro a ha d hd x hx
    have hsub := substep_index k m s hk h0 hdvd
    rw [← hstep] at hsub
    have hlt : s % k / step < m := by
      rw [Nat.div_lt_iff_lt_mul hs0, hms]; exact Nat.mod_lt _ hk
    have e1 : s / step / m = s / k := by
      rw [hsub, Nat.mul_comm, Nat.mul_add_div h0, Nat.div_eq_of_lt hlt, Nat.add_zero]
    have e2 : s / step % m = s % k / step := by
      rw [hsub, Nat.mul_comm, Nat.mul_add_mod, Nat.mod_eq_of_lt hlt]
    have e3 := slotSolution_substep nSol k d (s % k) hd (Nat.mod_lt _ hk) hdiv
    rw [← hm, ← hstep] at e3
    obtain ⟨rs0, rs, u1, u2, u3⟩ := hucg (s / step) (by omega) c hc y hy
    rw [e1] at u1
    rw [e2] at u3
    have hv := u3.vals a ha d hd x hx
    have hw' := u3.weights a ha d hd x hx
    rw [← hm, ← hstep, e3] at hv hw'
    have hX : (a * nSol.length + d) * ((rest c y).map Prod.snd).prod + x <
        info.antennas.length * nSol.length * ((rest c y).map Prod.snd).prod := by
      have g1 : a * nSol.length + d + 1 ≤ info.antennas.length * nSol.length := by
        have : (a + 1) * nSol.length ≤ info.antennas.length * nSol.length :=
          Nat.mul_le_mul_right _ (by omega)
        rw [Nat.add_mul] at this
        omega
      have := Nat.mul_le_mul_right ((rest c y).map Prod.snd).prod g1
      rw [Nat.add_mul] at this
      omega
    obtain ⟨v, hv'⟩ := Option.isSome_iff_exists.1 hv.2
    have hwl : (a * nSol.length + d) * ((rest c y).map Prod.snd).prod + x < rs.weights.length := by
      rw [u3.shape.weights]; exact hX
    obtain ⟨p1, p2⟩ := q6 (s / step) (by omega) _ hX
    rw [u2, Option.bind_some] at p1 p2
    refine ⟨rs0, v, rs.weights[(a * nSol.length + d) * ((rest c y).map Prod.snd).prod + x]'hwl, u1,
      ?_, ?_, ?_, ?_⟩
    · rw [← hv.1]; exact hv'
    · rw [← hw']; exact List.getElem?_eq_getElem hwl
    · rw [show ((s / step * info.antennas.length + a) * nSol.length + d) *
          ((rest c y).map Prod.snd).prod + x =
        s / step * (info.antennas.length * nSol.length * ((rest c y).map Prod.snd).prod) +
          ((a * nSol.length + d) * ((rest c y).map Prod.snd).prod + x) by ring, p1, hv']
    · rw [show ((s / step * info.antennas.length + a) * nSol.length + d) *
          ((rest c y).map Prod.snd).prod + x =
        s / step * (info.antennas.length * nSol.length * ((rest c y).map Prod.snd).prod) +
          ((a * nSol.length + d) * ((rest c y).map Prod.snd).prod + x) by ring, p2,
        List.getElem?_eq_getElem hwl]

/-- **C137**, violation.  With different intervals for the directions, the number of results is taken
from the first constraint.  If that constraint has no results, such as the smoothness or the antenna
constraint before the TEC constraint, nothing is written, whatever the results of the others. -/
theorem results_lost [Zero V] (phase amplitude : C → V) (info : Info F) (nSol : List Nat) (k : Nat)
    (sols : List (List (List C))) (c1 : List (List (Result V)))
    (cons : List (List (List (Result V)))) (start stop dt : F) (hne : nSol ≠ []) (hk : 0 < k)
    (hdiv : ∀ v ∈ nSol, 0 < v ∧ v ∣ k) (hlen : 0 < sols.length)
    (hdd : nSol.sum ≠ nSol.length)
    (hsh : Shape info.blockFreqs.length (info.antennas.length * nSol.sum * info.mode.nPol) sols) :
    write phase amplitude info nSol k sols ((([] : List (Result V)) :: c1) :: cons) start stop dt =
      .ok [] := by
  have h0 := (nSubsteps_spec nSol k hne hk hdiv).1
  obtain ⟨us, ⟨hul, _, _⟩, hw⟩ := write_eq phase amplitude info nSol k info.blockFreqs.length
    sols ((([] : List (Result V)) :: c1) :: cons) start stop dt hne hk hdiv hlen
    (nPol_pos info.mode) hsh
  rw [hw, if_neg hdd, if_neg (by simp [noConstraints])]
  obtain ⟨ci, hci, hcil, hcig⟩ := mapM_range_some (c1.length + 1)
    (fun _ => (some [] : Option (List (Result V)))) (fun _ _ => rfl)
  obtain ⟨uc, huc, hucl, hucg⟩ := mapM_range_some ((cons.length + 1) * nSubsteps nSol k)
    (fun _ => some ci) (fun _ _ => rfl)
  have he : upsampleConstraints nSol k ((([] : List (Result V)) :: c1) :: cons) = some uc := by
    unfold upsampleConstraints
    simp only [List.head?_cons, Option.map_some, Option.getD_some, List.length_cons,
      Option.bind_some, List.length_nil, List.range_zero, List.mapM_nil]
    rw [← huc]
    congr 1
    funext t
    exact hci
  rw [he]
  have hpos : 0 < uc.length := by rw [hucl]; exact Nat.mul_pos (by omega) h0
  have hhead : uc.headD [] = ci := by
    rw [List.headD_eq_head?_getD, List.head?_eq_getElem?, hucg 0 (by omega)]
    rfl
  have hall : ∀ cc ∈ ci, cc = [] := by
    intro cc hcc
    obtain ⟨i, hi, rfl⟩ := List.getElem_of_mem hcc
    have := hcig i (by omega)
    rw [List.getElem?_eq_getElem hi, Option.some.injEq] at this
    exact this
  simp only [writeDirect]
  rw [if_neg (by
    unfold noConstraints
    rw [hhead, Bool.not_eq_true, List.isEmpty_eq_false_iff, ← List.length_pos_iff, hcil]
    omega)]
  unfold writeConstraints
  rw [hhead]
  have hnil : (ci.zipIdx.flatMap fun cc => cc.1.zipIdx.map fun r => (cc.2, r.2, r.1)) = [] := by
    rw [List.flatMap_eq_nil_iff]
    intro cc hcc
    have := hall cc.1 (List.fst_mem_of_mem_zipIdx hcc)
    rw [this]
    rfl
  rw [hnil]
  rfl

/-- The channels of a block of a constraint, SolutionWriter.cc:378-388. -/
theorem blocks_partition (nBlocks : Nat) (freqs : List F) (hb : 0 < nBlocks) :
    ((List.range nBlocks).map fun b => (freqs.drop (channelBegin freqs.length nBlocks b)).take
      (channelBegin freqs.length nBlocks (b + 1) - channelBegin freqs.length nBlocks b)).flatten =
      freqs := by
  have hmono : ∀ b, channelBegin freqs.length nBlocks b ≤ channelBegin freqs.length nBlocks (b + 1) :=
    fun b => Nat.div_le_div_right (Nat.mul_le_mul_right _ (by omega))
  have haux : ∀ m, ((List.range m).map fun b =>
      (freqs.drop (channelBegin freqs.length nBlocks b)).take
      (channelBegin freqs.length nBlocks (b + 1) - channelBegin freqs.length nBlocks b)).flatten =
      freqs.take (channelBegin freqs.length nBlocks m) := by
    intro m
    induction m with
    | zero => simp [channelBegin]
    | succ m ih =>
      rw [List.range_succ, List.map_append, List.flatten_append, ih]
      simp only [List.map_cons, List.map_nil, List.flatten_cons, List.flatten_nil, List.append_nil]
      rw [← List.take_add]
      congr 1
      have := hmono m
      omega
  rw [haux, channelBegin, Nat.mul_div_cancel_left _ hb, List.take_length]

/-- **C137**, frequencies.  If there are at least as many channels as blocks, the channels are divided,
in order, over non-empty blocks, and the frequency of a block is the mean of its channels. -/
theorem freqs_spec (nBlocks : Nat) (freqs : List F) (hb : 0 < nBlocks)
    (hle : nBlocks ≤ freqs.length) :
    ∃ blocks : List (List F), blocks.flatten = freqs ∧ blocks.length = nBlocks ∧
      (∀ b ∈ blocks, b ≠ []) ∧
      blockFreqs nBlocks freqs = blocks.map fun b => some (b.sum / (b.length : F)) := by
  have hlt : ∀ b, channelBegin freqs.length nBlocks b < channelBegin freqs.length nBlocks (b + 1) := by
    intro b
    unfold channelBegin
    have : b * freqs.length + 1 * nBlocks ≤ (b + 1) * freqs.length := by rw [Nat.add_mul]; omega
    have := Nat.div_le_div_right (c := nBlocks) this
    rw [Nat.add_mul_div_right _ _ hb] at this
    omega
  have hend : ∀ b < nBlocks, channelBegin freqs.length nBlocks (b + 1) ≤ freqs.length := by
    intro b hbb
    unfold channelBegin
    apply Nat.div_le_of_le_mul
    exact Nat.mul_le_mul_right _ (by omega)
  have hblen : ∀ b < nBlocks, ((freqs.drop (channelBegin freqs.length nBlocks b)).take
      (channelBegin freqs.length nBlocks (b + 1) - channelBegin freqs.length nBlocks b)).length =
      channelBegin freqs.length nBlocks (b + 1) - channelBegin freqs.length nBlocks b := by
    intro b hbb
    have := hlt b
    have := hend b hbb
    rw [List.length_take, List.length_drop]
    omega
  refine ⟨_, blocks_partition nBlocks freqs hb, by simp, ?_, ?_⟩
  · intro l hl
    obtain ⟨b, hbm, rfl⟩ := List.mem_map.1 hl
    have hbb := List.mem_range.1 hbm
    rw [← List.length_pos_iff, hblen b hbb]
    have := hlt b
    omega
  · unfold blockFreqs
    rw [List.map_map]
    apply List.map_congr_left
    intro b hbm
    have hbb := List.mem_range.1 hbm
    have := hlt b
    simp only [Function.comp_apply]
    rw [if_neg (by omega), hblen b hbb]

/-- **C137**, violation.  With more blocks than channels (for BDA data the channels of the first
baseline are used), the frequency of a block is not a number. -/
theorem freqs_nan (nBlocks : Nat) (freqs : List F) (hlt : freqs.length < nBlocks) :
    none ∈ blockFreqs nBlocks freqs := by
  by_contra hno
  have hb : 0 < nBlocks := by omega
  have h := blocks_partition nBlocks freqs hb
  have hge : ∀ b < nBlocks, channelBegin freqs.length nBlocks (b + 1) -
      channelBegin freqs.length nBlocks b ≠ 0 := by
    intro b hbb h0
    apply hno
    unfold blockFreqs
    exact List.mem_map.2 ⟨b, List.mem_range.2 hbb, by simp only [h0, if_true]⟩
  have hcount : ∀ m ≤ nBlocks, m ≤ channelBegin freqs.length nBlocks m := by
    intro m hm
    induction m with
    | zero => omega
    | succ m ih =>
      have := ih (by omega)
      have := hge m (by omega)
      omega
  have := hcount nBlocks (Nat.le_refl _)
  rw [channelBegin, Nat.mul_div_cancel_left _ hb] at this
  omega

end

/-! ## Examples -/

section Examples

/-- One antenna and two directions in mode `mode`. -/
def exInfo (mode : Mode) : Info ℚ := ⟨mode, ["A"], ["p", "q"], [10, 20, 30], [20]⟩

/-- Some fields of a table. -/
structure Brief where
  name : String
  axes : List (String × Nat)
  values : List ℚ
  weights : List ℚ
  freqs : List (Option ℚ)
  times : List ℚ
  deriving DecidableEq

/-- Times and values of the tables. -/
def brief (r : Except Err (List (Table ℚ ℚ))) : Option (List Brief) :=
  match r with
  | .ok ts => some (ts.map fun t => ⟨t.name, t.axes, t.values, t.weights, t.freqs, t.times⟩)
  | .error _ => none

/-- Three slots of one second with centres 5, 6 and 7, intervals of two slots, with two solutions per
interval in the first direction: the times 5, 6 and 7 get solutions 1, 2, 4 in the first and 3, 3, 6 in
the second direction. -/
def exSols : List (List (List ℚ)) := [[[1, 2, 3]], [[4, 5, 6]]]

example : brief (write id id (exInfo .scalarAmplitude) [2, 1] 2 exSols [] (5 - 1 / 2 : ℚ) 7 1) =
    some [⟨"amplitude000", [("time", 3), ("freq", 1), ("ant", 1), ("dir", 2)], [1, 3, 2, 3, 4, 6],
      [], [some 20], [5, 6, 7]⟩] := by
  decide +kernel

/-- The hypotheses of C136 hold for this example. -/
example : ([2, 1] : List Nat) ≠ [] ∧ (∀ v ∈ [2, 1], 0 < v ∧ v ∣ 2) ∧ 3 ≤ exSols.length * 2 ∧
    Shape 1 (1 * [2, 1].sum * Mode.scalarAmplitude.nPol) exSols ∧
    tableKinds .scalarAmplitude = some [false] := by
  refine ⟨by decide, by decide, by decide, ?_, rfl⟩
  intro s hs
  fin_cases hs <;> exact ⟨rfl, by intro v hv; fin_cases hv; rfl⟩

/-- A result of the TEC constraint. -/
def exTec (a b c : ℚ) : Result ℚ := ⟨"tec", [("ant", 1), ("dir", 3), ("freq", 1)], [a, b, c], [1, 1, 1]⟩

/-- With four slots the results of the constraint are complete. -/
example : brief (write id id (exInfo .tec) [2, 1] 2 exSols
      [[[exTec 1 2 3]], [[exTec 4 5 6]]] (5 - 1 / 2 : ℚ) 8 1) =
    some [⟨"tec000", [("time", 4), ("ant", 1), ("dir", 2), ("freq", 1)],
      [1, 3, 2, 3, 4, 6, 5, 6], [1, 1, 1, 1, 1, 1, 1, 1], [some 20], [5, 6, 7, 8]⟩] := by
  decide +kernel

/-- The hypotheses of C137 hold for this example. -/
example : (exSols.length * 2 - 4) * nSubsteps [2, 1] 2 < 2 ∧
    CShape 1 [2, 1].sum 1 (fun _ => 1) (fun _ _ => [("freq", 1)])
      [[[exTec 1 2 3]], [[exTec 4 5 6]]] := by
  refine ⟨by decide, ?_, ?_, ?_⟩
  · intro ci hci
    fin_cases hci <;> rfl
  · intro ci hci c cc hcc
    fin_cases hci <;> (cases c <;> simp at hcc; subst hcc; rfl)
  · intro t c y r hr
    match t, c, y with
    | 0, 0, 0 => simp [resAt] at hr; subst hr; exact ⟨rfl, rfl, rfl⟩
    | 1, 0, 0 => simp [resAt] at hr; subst hr; exact ⟨rfl, rfl, rfl⟩
    | 0, c + 1, _ => simp [resAt] at hr
    | 1, c + 1, _ => simp [resAt] at hr
    | 0, 0, y + 1 => simp [resAt] at hr
    | 1, 0, y + 1 => simp [resAt] at hr
    | t + 2, _, _ => simp [resAt] at hr

/-- **C137**, violation.  With three slots, the size of the time axis is that of all substeps, four, but
there are values and times for three of them: the number of values is not the product of the axes. -/
theorem time_axis_wrong :
    brief (write id id (exInfo .tec) [2, 1] 2 exSols
      [[[exTec 1 2 3]], [[exTec 4 5 6]]] (5 - 1 / 2 : ℚ) 7 1) =
    some [⟨"tec000", [("time", 4), ("ant", 1), ("dir", 2), ("freq", 1)],
      [1, 3, 2, 3, 4, 6], [1, 1, 1, 1, 1, 1, 1, 1], [some 20], [5, 6, 7]⟩] ∧
    ([1, 3, 2, 3, 4, 6] : List ℚ).length ≠
      cells [("time", 4), ("ant", 1), ("dir", 2), ("freq", 1)] := by
  refine ⟨by decide +kernel, by decide⟩

/-- The same results after those of a constraint without results: nothing is written. -/
example : brief (write id id (exInfo .tec) [2, 1] 2 exSols
      [[[], [exTec 1 2 3]], [[], [exTec 4 5 6]]] (5 - 1 / 2 : ℚ) 8 1) = some [] := by
  decide +kernel

/-- With one interval for all directions they are written. -/
example : (brief (write id id (exInfo .tec) [1, 1] 2 [[[1, 2]]]
      [[[], [⟨"tec", [("ant", 1), ("dir", 2), ("freq", 1)], [1, 2], [1, 1]⟩]]]
      (5 - 1 / 2 : ℚ) 6 1)).map List.length = some 1 := by
  decide +kernel

/-- With an end that is a millisecond early, the last of three intervals of one slot is not written. -/
example : solutionTimes 3 (5 - 1 / 2 : ℚ) (7 - 1 / 1000) 1 1 = [5, 6] := by decide +kernel

end Examples

end DP3.SolWriter
