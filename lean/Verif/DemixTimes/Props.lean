import Verif.DemixTimes.Lemmas

/-!
# C125: demixing gives the same result for every chunk size and order of threads
-/

namespace DP3.DemixTimes

set_option linter.unusedSimpArgs false

variable {B A R F FS G : Type}

/-! ## An example -/

/-- Lists of numbers: averages are lists, a solution has the lists it was made of. -/
def exOps : Ops Nat (List Nat) (List Nat) (List Nat) (List Nat) (List Nat) :=
  { avg := fun l => l
    avgS := fun l => l
    fac := fun l a => (a ++ [100], l)
    facS := fun l _ => l
    solve := fun a f g => a.take 2 ++ f.take 1 ++ g.take 2
    sub := fun g _ f r => r ++ [1000] ++ f ++ g }

def exCfg : Cfg := { nTimeAvg := 4, nTimeAvgSubtr := 2, nTimeChunk := 2, nTimeChunkSubtr := 4, nTimeDemix := 3, propagate := false, hasModel := true }

/-- Threads that take slots from the end. -/
def backwards (n : Nat) : List (Nat × Nat) := (List.range n).reverse.map fun ts => (ts, ts % 2)

/-- One thread. -/
def oneThread (n : Nat) : List (Nat × Nat) := (List.range n).map fun ts => (ts, 0)

theorem backwards_good : GoodSchedule exCfg backwards := by
  refine ⟨fun n => ?_, fun h => by simp [exCfg] at h⟩
  unfold backwards
  rw [List.map_map]
  have : (Prod.fst ∘ fun ts => (ts, ts % 2)) = (id : Nat → Nat) := rfl
  rw [this, List.map_id]
  exact List.reverse_perm _

theorem oneThread_good (c : Cfg) : GoodSchedule c oneThread := by
  refine ⟨fun n => ?_, fun _ n => ⟨0, rfl⟩⟩
  unfold oneThread
  rw [List.map_map]
  have : (Prod.fst ∘ fun ts => (ts, 0)) = (id : Nat → Nat) := rfl
  rw [this, List.map_id]

/-! ## All times -/

/-- The step goes from one time to the next. -/
private theorem all_spec (o : Ops B A R F FS G) (c : Cfg) (schedule : Nat → List (Nat × Nat)) (defaultGain unset : G) (times : List B)
    (ha : 0 < c.nTimeAvg) (hb : 0 < c.nTimeAvgSubtr) (hd : c.nTimeAvgSubtr ∣ c.nTimeAvg) (hc : 0 < c.nTimeChunk) (hsch : GoodSchedule c schedule)
    (hdemix : (times.length + c.nTimeAvg - 1) / c.nTimeAvg ≤ c.nTimeDemix)
    (hroom : (min (c.nTimeChunk * c.nTimeAvg) times.length + c.nTimeAvgSubtr - 1) / c.nTimeAvgSubtr ≤ c.nTimeChunkSubtr)
    (later pre since : List B) (s : State B A R F FS G) (ht : times = pre ++ since ++ later) (hbt : Between o c defaultGain unset pre s)
    (hmid : Mid o c since s) (hlt : since.length < c.nTimeChunk * c.nTimeAvg) :
    ∃ pre' since' s', processAll o c schedule s later = some s' ∧ times = pre' ++ since' ∧ Between o c defaultGain unset pre' s' ∧
      Mid o c since' s' ∧ since'.length < c.nTimeChunk * c.nTimeAvg := by
  induction later generalizing pre since s with
  | nil => exact ⟨pre, since, s, rfl, by rw [ht, List.append_nil], hbt, hmid, hlt⟩
  | cons b later ih =>
    have hln : since.length + 1 ≤ times.length := by
      rw [ht]
      simp
      omega
    obtain ⟨t, t1, t2, t3⟩ := prepare_mid o c since s b ha hb hmid ((Nat.div_lt_iff_lt_mul ha).mpr hlt) (by
      intro hmod
      refine Nat.lt_of_lt_of_le ?_ hroom
      rw [Nat.lt_iff_add_one_le, ← succ_div_of_mod hmod]
      apply Nat.div_le_div_right
      omega)
    rw [processAll, process_eq, t3]
    simp only
    by_cases hfull : t.nOut ≥ c.nTimeChunk
    · rw [if_pos hfull]
      have hl : (since ++ [b]).length = c.nTimeChunk * c.nTimeAvg := by
        rw [t1.nOut, ge_iff_le, Nat.le_div_iff_mul_le ha] at hfull
        rw [List.length_append, List.length_singleton] at hfull ⊢
        omega
      have hra : rest c.nTimeAvg (since ++ [b]) = [] := by
        apply List.length_eq_zero_iff.mp
        rw [rest_length, hl, Nat.mul_mod_left]
      have hrb : rest c.nTimeAvgSubtr (since ++ [b]) = [] := by
        apply List.length_eq_zero_iff.mp
        rw [rest_length, hl]
        exact Nat.mod_eq_zero_of_dvd (hd.trans (Dvd.intro_left _ rfl))
      have hpa : c.nTimeAvg ∣ pre.length := (Dvd.intro_left _ rfl).trans hbt.whole
      have hgl : (groups c.nTimeAvg (pre ++ (since ++ [b]))).length ≤ c.nTimeDemix := by
        rw [groups_length ha]
        refine Nat.le_trans (Nat.div_le_div_right ?_) hdemix
        rw [ht]
        simp
        omega
      have hul : s.unknowns.length = max c.nTimeDemix (groups c.nTimeAvg pre).length ∨ s.unknowns.length = c.nTimeDemix := by
        have e := congrArg Prod.snd hbt.results
        simp only at e
        rw [e]
        unfold expected
        cases c.hasModel with
        | false => right; simp
        | true =>
          left
          simp only [if_true]
          rw [List.length_append, List.length_replicate, gains_length, solverInput_length]
          omega
      obtain ⟨u, u1, u2, u3, u4, u5, u6⟩ := handle_spec o c schedule hsch (since ++ [b]) t ha hb hd (mid_complete o c _ t t1 hra hrb) (by
        rw [t2.1, t2.2.1, hbt.timeIndex]
        rw [groups_append ha _ _ hpa, List.length_append] at hgl
        have la : (groups c.nTimeAvg pre).length = pre.length / c.nTimeAvg := by
          unfold groups
          rw [(append_groups ha pre [] hpa).2.2, if_pos rfl, List.append_nil, full_length]
        omega)
      rw [u1]
      simp only
      have hres := hbt.results
      have hres1 := congrArg Prod.fst hres
      have hres2 := congrArg Prod.snd hres
      simp only at hres1 hres2
      apply ih (pre ++ (since ++ [b])) [] u (by rw [ht]; simp) _ u2 (by rw [List.length_nil]; exact Nat.mul_pos hc ha)
      refine ⟨?_, ?_, ?_, ?_⟩
      · rw [u3, t2.1, hbt.timeIndex, List.length_append, hl]
        obtain ⟨k, hk⟩ := hpa
        rw [hk, Nat.mul_div_cancel_left k ha, Nat.mul_comm c.nTimeChunk, ← Nat.mul_add, Nat.mul_div_cancel_left _ ha]
      · rw [List.length_append, hl]
        exact Nat.dvd_add hbt.whole (Nat.dvd_refl _)
      · rw [expected_append o c defaultGain unset pre (since ++ [b]) ha hb hd hpa hgl, u5, u6, ← hres1, ← hres2, t2.1, t2.2.1, t2.2.2.1, t2.2.2.2,
          hbt.timeIndex]
        cases hmod : c.hasModel with
        | false => simp
        | true =>
          simp only [if_true]
          rw [hbt.prev hmod]
      · intro hmod
        rw [u4, hmod, if_pos rfl, t2.2.2.1, hbt.prev hmod, ← after_append]
        unfold solverInput
        rw [groups_append ha _ _ hpa, List.map_append]
    · rw [if_neg hfull]
      simp only
      apply ih pre (since ++ [b]) t (by rw [ht]; simp) ⟨t2.1.trans hbt.timeIndex, hbt.whole, by rw [t2.2.2.2, t2.2.1]; exact hbt.results,
        fun h => t2.2.2.1.trans (hbt.prev h)⟩ t1
      rw [t1.nOut, ge_iff_le, not_le, Nat.div_lt_iff_lt_mul ha] at hfull
      exact hfull

/-- For settings with room for the times, nothing is accessed out of bounds, and the output and the solutions are those of the groups of times,
for every order in which the threads take the slots. -/
theorem run_expected (o : Ops B A R F FS G) (c : Cfg) (schedule : Nat → List (Nat × Nat)) (defaultGain unset : G) (times : List B)
    (ha : 0 < c.nTimeAvg) (hb : 0 < c.nTimeAvgSubtr) (hd : c.nTimeAvgSubtr ∣ c.nTimeAvg) (hc : 0 < c.nTimeChunk) (hsch : GoodSchedule c schedule)
    (hdemix : (times.length + c.nTimeAvg - 1) / c.nTimeAvg ≤ c.nTimeDemix)
    (hroom : (min (c.nTimeChunk * c.nTimeAvg) times.length + c.nTimeAvgSubtr - 1) / c.nTimeAvgSubtr ≤ c.nTimeChunkSubtr) :
    run o c schedule defaultGain unset times = some (expected o c defaultGain unset times) := by
  have h0 : Mid o c [] (initial c defaultGain unset : State B A R F FS G) := by
    refine ⟨?_, ?_, ?_, ?_, ?_, ?_, ?_, ?_, ?_, ?_, ?_⟩ <;> simp [initial, full, rest]
  have hg0 : ∀ n, groups n ([] : List B) = [] := by intro n; simp [groups, full, rest]
  have hb0 : Between o c defaultGain unset [] (initial c defaultGain unset : State B A R F FS G) := by
    refine ⟨by simp [initial], by simp, ?_, ?_⟩
    · unfold expected solverInput
      rw [hg0, hg0]
      cases c.hasModel <;> simp [initial, gains, outputs]
    · intro _
      unfold solverInput
      rw [hg0]
      rfl
  obtain ⟨pre, since, s, s1, s2, s3, s4, s5⟩ := all_spec o c schedule defaultGain unset times ha hb hd hc hsch hdemix hroom times [] [] _ rfl hb0 h0
    (by rw [List.length_nil]; exact Nat.mul_pos hc ha)
  unfold run
  rw [s1]
  simp only
  by_cases hne : since = []
  · subst hne
    rw [List.append_nil] at s2
    unfold finish
    rw [if_neg (by rw [s4.nIn]; simp)]
    simp only
    rw [s2, ← s3.results]
  · have hln : since.length ≤ times.length := by
      rw [s2]
      simp
    obtain ⟨t, t1, t2, t3⟩ := finish_complete o c schedule since s s4 hne (fun _ => (Nat.div_lt_iff_lt_mul ha).mpr s5) (by
      intro hr
      refine Nat.lt_of_lt_of_le ?_ hroom
      have hgl := groups_length hb since
      unfold groups at hgl
      rw [if_neg hr, List.length_append, full_length, List.length_singleton] at hgl
      rw [Nat.lt_iff_add_one_le, hgl]
      apply Nat.div_le_div_right
      omega)
    have hpa : c.nTimeAvg ∣ pre.length := (Dvd.intro_left _ rfl).trans s3.whole
    have hgl : (groups c.nTimeAvg (pre ++ since)).length ≤ c.nTimeDemix := by
      rw [groups_length ha, ← s2]
      exact hdemix
    have la : (groups c.nTimeAvg pre).length = pre.length / c.nTimeAvg := by
      unfold groups
      rw [(append_groups ha pre [] hpa).2.2, if_pos rfl, List.append_nil, full_length]
    have hres1 := congrArg Prod.fst s3.results
    have hres2 := congrArg Prod.snd s3.results
    simp only at hres1 hres2
    have hul : c.nTimeDemix ≤ s.unknowns.length := by
      rw [hres2]
      unfold expected
      cases c.hasModel with
      | false => simp
      | true =>
        simp only [if_true]
        rw [List.length_append, List.length_replicate]
        omega
    obtain ⟨u, u1, -, -, -, u5, u6⟩ := handle_spec o c schedule hsch since t ha hb hd t1 (by
      rw [t2.1, t2.2.1, s3.timeIndex]
      rw [groups_append ha _ _ hpa, List.length_append] at hgl
      omega)
    rw [t3, u1]
    simp only
    rw [s2, expected_append o c defaultGain unset pre since ha hb hd hpa hgl, u5, u6, ← hres1, ← hres2, t2.1, t2.2.1, t2.2.2.1, t2.2.2.2,
      s3.timeIndex]
    cases hmod : c.hasModel with
    | false => simp
    | true =>
      simp only [if_true]
      rw [s3.prev hmod]

example : run exOps exCfg backwards [7] [9] [1, 2, 3, 4, 5, 6, 7, 8, 9, 10, 11] =
    some ([[1, 2, 1000, 1, 2, 1, 2, 1, 7], [3, 4, 1000, 3, 4, 1, 2, 1, 7], [5, 6, 1000, 5, 6, 5, 6, 5, 7], [7, 8, 1000, 7, 8, 5, 6, 5, 7],
      [9, 10, 1000, 9, 10, 9, 10, 9, 7], [11, 1000, 11, 9, 10, 9, 7]], [[1, 2, 1, 7], [5, 6, 5, 7], [9, 10, 9, 7]]) := by
  rw [run_expected exOps exCfg backwards [7] [9] _ (by decide) (by decide) (by decide) (by decide) backwards_good (by decide) (by decide)]
  decide

/-! ## Settings -/

/-- Settings that are accepted have room if there is room for one time of the output in a chunk. -/
theorem configured (g : Given) (ntime : Nat) (c : Cfg) (hn : 0 < ntime) (h1 : 0 < g.timestep) (h2 : 0 < g.demixtimestep) (h3 : 0 < g.ntimechunk)
    (h : configure g ntime = .ok c) (hroom : g.timestep ≤ ntime ∨ g.timestep ≤ g.ntimechunk * ntime) (n : Nat) (hle : n ≤ ntime) :
    0 < c.nTimeAvg ∧ 0 < c.nTimeAvgSubtr ∧ c.nTimeAvgSubtr ∣ c.nTimeAvg ∧ 0 < c.nTimeChunk ∧ (n + c.nTimeAvg - 1) / c.nTimeAvg ≤ c.nTimeDemix ∧
      (min (c.nTimeChunk * c.nTimeAvg) n + c.nTimeAvgSubtr - 1) / c.nTimeAvgSubtr ≤ c.nTimeChunkSubtr := by
  unfold configure at h
  by_cases hc1 : g.ntimechunk * g.demixtimestep % g.timestep ≠ 0
  · rw [if_pos hc1] at h; cases h
  · rw [if_neg hc1] at h
    simp only at h
    by_cases hc2 : min g.demixtimestep ntime % min g.timestep ntime ≠ 0
    · rw [if_pos hc2] at h; cases h
    · rw [if_neg hc2] at h
      simp only [ne_eq, not_not] at hc2
      cases h
      have hd := Nat.dvd_of_mod_eq_zero hc2
      have pa : 0 < min g.demixtimestep ntime := by omega
      have pb : 0 < min g.timestep ntime := by omega
      refine ⟨pa, pb, hd, h3, Nat.div_le_div_right (by simp only; omega), ?_⟩
      simp only
      by_cases ht : g.timestep ≤ ntime
      · rw [Nat.min_eq_left ht] at hd ⊢
        obtain ⟨k, hk⟩ := hd
        have e : g.ntimechunk * min g.demixtimestep ntime = g.timestep * (g.ntimechunk * k) := by rw [hk, Nat.mul_left_comm]
        rw [e, Nat.mul_div_cancel_left _ h1]
        rw [Nat.div_le_iff_le_mul_add_pred h1]
        omega
      · rw [Nat.min_eq_right (by omega : ntime ≤ g.timestep)] at hd ⊢
        have e : min g.demixtimestep ntime = ntime := by
          have := Nat.le_of_dvd pa hd
          omega
        rw [e]
        have hr := hroom.resolve_left ht
        have h5 : 1 ≤ g.ntimechunk * ntime / g.timestep := (Nat.one_le_div_iff h1).mpr hr
        have h6 : (min (g.ntimechunk * ntime) n + ntime - 1) / ntime ≤ 1 := by
          rw [Nat.div_le_iff_le_mul_add_pred hn]
          omega
        omega

/-- The result does not depend on the number of slots that are done in parallel. -/
theorem chunk_independent (o : Ops B A R F FS G) (g : Given) (k : Nat) (ntime : Nat) (c c' : Cfg) (schedule schedule' : Nat → List (Nat × Nat))
    (defaultGain unset : G) (times : List B) (hn : 0 < ntime) (h1 : 0 < g.timestep) (h2 : 0 < g.demixtimestep) (h3 : 0 < g.ntimechunk) (h4 : 0 < k)
    (h : configure g ntime = .ok c) (h' : configure { g with ntimechunk := k } ntime = .ok c') (hroom : g.timestep ≤ ntime)
    (hs : GoodSchedule c schedule) (hs' : GoodSchedule c' schedule') (hle : times.length ≤ ntime) :
    run o c schedule defaultGain unset times = run o c' schedule' defaultGain unset times ∧ (run o c schedule defaultGain unset times).isSome := by
  obtain ⟨a1, a2, a3, a4, a5, a6⟩ := configured g ntime c hn h1 h2 h3 h (Or.inl hroom) times.length hle
  obtain ⟨b1, b2, b3, b4, b5, b6⟩ := configured { g with ntimechunk := k } ntime c' hn h1 h2 h4 h' (Or.inl hroom) times.length hle
  rw [run_expected o c schedule defaultGain unset times a1 a2 a3 a4 hs a5 a6, run_expected o c' schedule' defaultGain unset times b1 b2 b3 b4 hs' b5 b6]
  refine ⟨?_, rfl⟩
  have e : c' = { c with nTimeChunk := c'.nTimeChunk, nTimeChunkSubtr := c'.nTimeChunkSubtr } := by
    unfold configure at h h'
    simp only at h h'
    split at h
    · cases h
    · split at h'
      · cases h'
      · split at h
        · cases h
        · split at h'
          · cases h'
          · cases h
            cases h'
            rfl
  rw [e]
  rfl

example : configure ⟨2, 4, 2, false, true⟩ 11 = .ok exCfg ∧ configure ⟨2, 4, 3, false, true⟩ 11 = .ok { exCfg with nTimeChunk := 3, nTimeChunkSubtr := 6 } := by
  decide

/-- There is one output per group of `timestep` times, and a solution per group of `demixtimestep` times, each at its own place; without
propagation it depends on the times of its group only. -/
theorem results (o : Ops B A R F FS G) (g : Given) (ntime : Nat) (c : Cfg) (schedule : Nat → List (Nat × Nat)) (defaultGain unset : G) (times : List B)
    (hn : 0 < ntime) (h1 : 0 < g.timestep) (h2 : 0 < g.demixtimestep) (h3 : 0 < g.ntimechunk) (h : configure g ntime = .ok c)
    (hroom : g.timestep ≤ ntime) (hs : GoodSchedule c schedule) (hle : times.length ≤ ntime) (hmod : g.hasModel = true) :
    ∃ out gains, run o c schedule defaultGain unset times = some (out, gains) ∧
      out.length = (times.length + g.timestep - 1) / g.timestep ∧
      gains.length = (ntime + min g.demixtimestep ntime - 1) / min g.demixtimestep ntime ∧
      (g.propagate = false → ∀ i, i * min g.demixtimestep ntime < times.length →
        gains[i]? = some (o.solve (o.fac ((times.drop (i * min g.demixtimestep ntime)).take (min g.demixtimestep ntime))
            (o.avg ((times.drop (i * min g.demixtimestep ntime)).take (min g.demixtimestep ntime)))).1
          (o.fac ((times.drop (i * min g.demixtimestep ntime)).take (min g.demixtimestep ntime))
            (o.avg ((times.drop (i * min g.demixtimestep ntime)).take (min g.demixtimestep ntime)))).2 defaultGain)) := by
  obtain ⟨a1, a2, a3, a4, a5, a6⟩ := configured g ntime c hn h1 h2 h3 h (Or.inl hroom) times.length hle
  refine ⟨(expected o c defaultGain unset times).1, (expected o c defaultGain unset times).2,
    run_expected o c schedule defaultGain unset times a1 a2 a3 a4 hs a5 a6, ?_⟩
  have hc : c.nTimeAvg = min g.demixtimestep ntime ∧ c.nTimeAvgSubtr = g.timestep ∧
      c.nTimeDemix = (ntime + min g.demixtimestep ntime - 1) / min g.demixtimestep ntime ∧ c.hasModel = true ∧ c.propagate = g.propagate := by
    unfold configure at h
    simp only at h
    split at h
    · cases h
    · split at h
      · cases h
      · cases h
        exact ⟨rfl, Nat.min_eq_left hroom, rfl, hmod, rfl⟩
  obtain ⟨c1, c2, c3, c4, c5⟩ := hc
  rw [c1] at a1 a5
  unfold expected
  rw [c4, c1, c2, c3, c5]
  rw [c3] at a5
  simp only [if_true]
  refine ⟨?_, ?_, ?_⟩
  · unfold outputs
    rw [List.length_map, List.length_zipIdx, groups_length h1]
  · rw [List.length_append, List.length_replicate, gains_length, solverInput_length, groups_length a1]
    omega
  · intro hp i hi
    have hil : i < (groups (min g.demixtimestep ntime) times).length := by
      rw [groups_length a1, Nat.lt_iff_add_one_le, Nat.le_div_iff_mul_le a1, Nat.add_mul, Nat.one_mul]
      omega
    rw [List.getElem?_append_left (by rw [gains_length, solverInput_length]; exact hil), gains_get, hp, after_false]
    unfold solverInput
    have hg : (groups (min g.demixtimestep ntime) times)[i]? =
        some ((times.drop (i * min g.demixtimestep ntime)).take (min g.demixtimestep ntime)) := by
      unfold groups at hil ⊢
      by_cases hi2 : i < times.length / min g.demixtimestep ntime
      · rw [List.getElem?_append_left (by rw [full_length]; exact hi2), full_getElem?, if_pos hi2]
      · by_cases hr : rest (min g.demixtimestep ntime) times = []
        · rw [if_pos hr, List.append_nil, full_length] at hil
          exact absurd hil hi2
        · rw [if_neg hr] at hil ⊢
          rw [List.length_append, full_length, List.length_singleton] at hil
          have e : i = times.length / min g.demixtimestep ntime := by omega
          rw [List.getElem?_append_right (by rw [full_length]; omega), full_length, e, Nat.sub_self]
          simp only [List.getElem?_cons_zero, Option.some.injEq]
          unfold rest
          rw [List.take_of_length_le]
          rw [List.length_drop]
          have := Nat.div_add_mod times.length (min g.demixtimestep ntime)
          have h7 := Nat.mod_lt times.length a1
          rw [Nat.mul_comm] at this
          omega
    rw [List.getElem?_map, hg]
    rfl

/-! ## Where the code differs -/

/-- The output of less than one time per chunk has no room: settings that are accepted lead to an access out of bounds for all data. -/
theorem no_room_violated (o : Ops B A R F FS G) (g : Given) (ntime : Nat) (c : Cfg) (schedule : Nat → List (Nat × Nat)) (defaultGain unset : G)
    (times : List B) (h2 : 0 < g.demixtimestep) (h3 : 0 < g.ntimechunk) (h : configure g ntime = .ok c) (hroom : g.ntimechunk * ntime < g.timestep)
    (hn : 0 < ntime) (hne : times ≠ []) : run o c schedule defaultGain unset times = none := by
  have hlt : ntime < g.timestep := Nat.lt_of_le_of_lt (Nat.le_mul_of_pos_left ntime h3) hroom
  have hc : c.nTimeAvg = ntime ∧ c.nTimeAvgSubtr = ntime ∧ c.nTimeChunkSubtr = 0 ∧ 0 < c.nTimeChunk := by
    unfold configure at h
    simp only at h
    split at h
    · cases h
    · split at h
      · cases h
      · rename_i _ hd
        simp only [ne_eq, not_not] at hd
        rw [Nat.min_eq_right (Nat.le_of_lt hlt)] at hd
        have := Nat.le_of_dvd (by omega) (Nat.dvd_of_mod_eq_zero hd)
        have e : min g.demixtimestep ntime = ntime := by omega
        cases h
        refine ⟨e, Nat.min_eq_right (Nat.le_of_lt hlt), ?_, h3⟩
        simp only
        rw [e]
        exact Nat.div_eq_of_lt hroom
  obtain ⟨c1, c2, c3, c4⟩ := hc
  have key : ∀ (later since : List B) (s : State B A R F FS G), Mid o c since s → since.length < ntime → since ++ later ≠ [] →
      (match processAll o c schedule s later with
        | none => none
        | some s => match finish o c schedule s with | none => none | some s => some (s.out, s.unknowns)) = none := by
    intro later
    induction later with
    | nil =>
      intro since s hm hl hne
      rw [List.append_nil] at hne
      rw [processAll]
      simp only
      have : averageFinish c.nTimeChunkSubtr o.avgS s.pendS s.resS = none := by
        unfold averageFinish store
        have hr : s.pendS ≠ [] := by
          rw [hm.pendS, c2]
          intro hr
          have := rest_length ntime since
          rw [hr, List.length_nil, Nat.mod_eq_of_lt hl] at this
          exact hne (List.length_eq_zero_iff.mp this.symm)
        rw [if_neg hr, c3, if_neg (by omega)]
      unfold finish
      rw [if_pos (by rw [hm.nIn]; exact List.length_pos_of_ne_nil hne), this]
      cases averageFinish c.nTimeChunk o.avg s.pendA s.resA <;> rfl
    | cons b later ih =>
      intro since s hm hl hne
      rw [processAll]
      by_cases hend : since.length + 1 < ntime
      · obtain ⟨t, t1, -, t3⟩ := prepare_mid o c since s b (by omega) (by omega) hm (by rw [c1, Nat.div_eq_of_lt hl]; exact c4) (by
          intro hmod
          rw [c2, Nat.mod_eq_of_lt hend] at hmod
          omega)
        rw [process_eq, t3]
        simp only
        rw [if_neg (by rw [t1.nOut, List.length_append, List.length_singleton, c1, Nat.div_eq_of_lt hend]; omega)]
        simp only
        exact ih (since ++ [b]) t t1 (by simpa using hend) (by simp)
      · have : average c.nTimeAvgSubtr c.nTimeChunkSubtr o.avgS s.pendS s.resS b = none := by
          unfold average store
          rw [if_pos (by rw [hm.pendS, rest_length, c2, Nat.mod_eq_of_lt hl]; omega), c3]
          rw [if_neg (by omega)]
        rw [process_eq]
        unfold prepare receive
        rw [this]
        cases average c.nTimeAvg c.nTimeChunk o.avg s.pendA s.resA b <;> rfl
  have h0 : Mid o c [] (initial c defaultGain unset : State B A R F FS G) := by
    refine ⟨?_, ?_, ?_, ?_, ?_, ?_, ?_, ?_, ?_, ?_, ?_⟩ <;> simp [initial, full, rest]
  unfold run
  exact key times [] _ h0 hn hne

/-- Three times, averaged to one output for four, in chunks of one slot. -/
example : configure ⟨4, 4, 1, false, true⟩ 3 = .ok ⟨3, 3, 1, 0, 1, false, true⟩ ∧
    run exOps ⟨3, 3, 1, 0, 1, false, true⟩ oneThread [7] [9] [1, 2, 3] = none := by decide

/-- With `propagatesolutions`, the result depends on the number of threads. -/
theorem threads_violated : ∃ (s1 s2 : Nat → List (Nat × Nat)) (c : Cfg) (times : List Nat), c.propagate = true ∧
    (∀ n, (s1 n).map Prod.fst = List.range n) ∧ (∀ n, (s2 n).map Prod.fst = List.range n) ∧
    run exOps c s1 [7] [9] times ≠ run exOps c s2 [7] [9] times := by
  refine ⟨oneThread, fun n => (List.range n).map fun ts => (ts, ts), { exCfg with propagate := true }, [1, 2, 3, 4, 5, 6, 7, 8], rfl, ?_, ?_, by decide⟩
  · intro n
    unfold oneThread
    rw [List.map_map]
    exact List.map_id _
  · intro n
    rw [List.map_map]
    exact List.map_id _

/-- With one thread the solutions are propagated from each slot to the next, also across chunks. -/
example : (run exOps { exCfg with propagate := true, nTimeChunk := 1, nTimeChunkSubtr := 2 } oneThread [7] [9] [1, 2, 3, 4, 5, 6, 7, 8, 9]).map Prod.snd =
    some [[1, 2, 1, 7], [5, 6, 5, 1, 2], [9, 100, 9, 5, 6]] := by
  rw [run_expected exOps _ oneThread [7] [9] _ (by decide) (by decide) (by decide) (by decide) (oneThread_good _) (by decide) (by decide)]
  decide

/-- Settings that are accepted for long data are refused for data that are shorter than a slot. -/
theorem short_violated : ∃ g : Given, (∀ n, 8 ≤ n → ∃ c, configure g n = .ok c) ∧ configure g 5 = .error .demixAveraging := by
  refine ⟨⟨4, 8, 1, false, true⟩, fun n hn => ?_, by decide⟩
  unfold configure
  simp only
  rw [if_neg (by decide), Nat.min_eq_left hn, Nat.min_eq_left (by omega : 4 ≤ n), if_neg (by decide)]
  exact ⟨_, rfl⟩

end DP3.DemixTimes
