import Verif.DdeCal.Lemmas
import Verif.SolveData.Model
import Mathlib.Algebra.Field.Rat
import Mathlib.Algebra.Order.Ring.Rat
import Mathlib.Tactic.NormNum
import Mathlib.Tactic.FieldSimp
import Mathlib.Algebra.CharZero.Defs

/-!
# Properties of DDECal

Claims C131 - C135 of properties.jsonl.
-/

namespace DP3.DdeCal
set_option linter.unusedSimpArgs false
set_option linter.unusedSectionVars false

/-! ## An example -/

/-- One baseline, two channels in one block, two directions: the first is predicted, the model of the
second is in the input. -/
def exEnv : Env ℚ :=
  { solint := 2, nInt := 1, nSolTimes := 2, nAnt := 2, nBl := 1, nChan := 2, nBlocks := 1, nPol := 1
    ant1 := fun _ => 0, ant2 := fun _ => 1, antMap := fun a => a
    names := ["a", "b"], reused := [false, true]
    predict := fun _ _ _ _ => ⟨⟨3, 1⟩, 0, 0, ⟨3, 1⟩⟩
    uvwActive := false, uvwFlag := fun b => b.flags, minVis := 0
    onlyPredict := false, subtract := true, keepModel := false
    propagate := true, convergedOnly := true, flagUnconverged := false, flagDivergedOnly := false
    store := true, maxIter := 10, nSub := [1, 1], initial := none
    solve := fun i c => ⟨[[⟨1, 0⟩, ⟨2, (i : ℚ)⟩, ⟨0, 1⟩, ⟨1, c.time⟩]], i, []⟩ }

/-- A buffer. -/
def exBuf (t : ℚ) : Buf ℚ :=
  { time := t, data := fun _ _ => ⟨⟨5, t⟩, 0, 0, ⟨t, 0⟩⟩, flags := fun _ ch _ => decide (ch = 1)
    weights := fun _ _ _ => 2, extra := fun n => if n = "b" then some fun _ _ => ⟨⟨2, 0⟩, 0, 0, ⟨2, t⟩⟩ else none
    solution := none }

theorem exEnv_run (e : Env ℚ) (bs : List (Buf ℚ)) (he : e.solint = 2 ∨ e.solint = 1)
    (hI : 0 < e.nInt) (hn : e.names = ["a", "b"]) (hf : Fits e)
    (hr : ∀ b ∈ bs, hasReused e b = true) (hc : nPieces e.solint bs.length ≤ e.nSolTimes) :
    ∃ st, run e bs = .ok st :=
  run_ok e (by omega) hI (by rw [hn]; simp) (by rw [hn]; decide) hf bs hr hc

theorem exEnv_fits : Fits exEnv := fun _ _ => ⟨rfl, fun _ _ => rfl⟩

section
variable {K : Type} [Field K] [LinearOrder K]

/-! ## C131: the forwarded buffers -/

/-- **C131.**  DDECal forwards every buffer, once and in the same order, with its own time, flags and
weights.  Its data are the input data, the sum of the models, or the input data minus the models with
the solutions applied, depending on the settings; its model data are removed or are kept with the
solutions applied; the solutions are those of the interval that the buffer is in, and the first buffer
of an interval carries them. -/
theorem forwarded (e : Env K) (hs : 0 < e.solint) (hI : 0 < e.nInt) (hne : e.names ≠ [])
    (hn : e.names.Nodup) (bs : List (Buf K)) (st : St K) (h : run e bs = .ok st) :
    st.out = bs.mapIdx fun k b => outBuf e id (walk e.nChan e.nBlocks) (st.sols (k / e.solint))
      (decide (k % e.solint = 0)) b := by
  have := (run_spec e hs hI hne hn st bs h).out
  have h0 : (init e).firstIdx = 0 := rfl
  have h1 : (init e).out = [] := rfl
  simpa only [h0, h1, Nat.zero_add, List.nil_append] using this

/-- **C131.**  Visibilities, times, weights and flags of one buffer, for a calibration with
subtraction of the model. -/
theorem forwarded_subtracted (e : Env K) (hs : 0 < e.solint) (hI : 0 < e.nInt) (hne : e.names ≠ [])
    (hn : e.names.Nodup) (hp : e.onlyPredict = false) (hsub : e.subtract = true) (bs : List (Buf K))
    (st : St K) (h : run e bs = .ok st) :
    st.out.length = bs.length ∧ ∀ (k : Nat) (b : Buf K), bs[k]? = some b → ∃ b' : Buf K,
      st.out[k]? = some b' ∧ b'.time = b.time ∧ b'.flags = b.flags ∧ b'.weights = b.weights ∧
      ∀ bl ch, b'.data bl ch = b.data bl ch - (e.names.zipIdx.map fun p =>
        jones e.nPol e.names.length ((st.sols (k / e.solint)).getD (walk e.nChan e.nBlocks ch) [])
          (e.ant1 bl) p.2 * modelOf e b p.1 p.2 bl ch *
        (jones e.nPol e.names.length ((st.sols (k / e.solint)).getD (walk e.nChan e.nBlocks ch) [])
          (e.ant2 bl) p.2).herm).sum := by
  have ho := forwarded e hs hI hne hn bs st h
  refine ⟨by rw [ho, List.length_mapIdx], ?_⟩
  intro k b hk
  refine ⟨outBuf e id (walk e.nChan e.nBlocks) (st.sols (k / e.solint)) (decide (k % e.solint = 0)) b,
    by rw [ho, List.getElem?_mapIdx, hk]; rfl, rfl, rfl, rfl, ?_⟩
  intro bl ch
  simp [outBuf, outData, hp, hsub, sumDirs, applied]

/-- **C131.**  The run succeeds exactly when the reused models are in all buffers and there are not
more intervals than the number of time slots in the metadata allows. -/
theorem succeeds_iff (e : Env K) (hs : 0 < e.solint) (hI : 0 < e.nInt) (hne : e.names ≠ [])
    (hn : e.names.Nodup) (bs : List (Buf K))
    (hfit : e.onlyPredict = false → (e.subtract || e.keepModel) = true →
      e.nSub.sum = e.nSub.length ∧ ∀ i c, inRange e (e.solve i c).sols = true) :
    (∃ st, run e bs = .ok st) ↔
      ((∀ b ∈ bs, ∀ (d : Nat) (name : String), e.names[d]? = some name → e.reused.getD d false = true →
        (b.extra name).isSome) ∧ (bs.length + e.solint - 1) / e.solint ≤ e.nSolTimes) := by
  have hiff : ∀ b : Buf K, hasReused e b = true ↔ ∀ (d : Nat) (name : String), e.names[d]? = some name →
      e.reused.getD d false = true → (b.extra name).isSome := by
    intro b
    unfold hasReused
    rw [List.all_eq_true]
    constructor
    · intro h d name hd hr
      have := h (name, d) (List.mem_zipIdx_iff_getElem?.2 hd)
      simp only [hr, Bool.not_true, Bool.false_or] at this
      exact this
    · rintro h ⟨name, d⟩ hp
      have := h d name (List.mem_zipIdx_iff_getElem?.1 hp)
      cases hr : e.reused.getD d false
      · simp only [hr, Bool.not_false, Bool.true_or]
      · simp only [hr, Bool.not_true, Bool.false_or]; exact this hr
  constructor
  · rintro ⟨st, h⟩
    have hspec := run_spec e hs hI hne hn st bs h
    refine ⟨fun b hb => (hiff b).1 (hspec.reused b hb), ?_⟩
    have := hspec.count
    have h0 : (init e).firstIdx = 0 := rfl
    rw [h0, Nat.zero_add, Nat.zero_max] at this
    exact this
  · rintro ⟨h1, h2⟩
    exact run_ok e hs hI hne hn hfit bs (fun b hb => (hiff b).2 (h1 b hb)) h2

/-- **C131.**  As many buffers as the metadata announce always fit. -/
theorem announced_fits (nTimes n solint : Nat) (h : n ≤ nTimes) :
    (n + solint - 1) / solint ≤ nSolutionTimes nTimes solint :=
  Nat.div_le_div_right (by omega)

end

/-- The example run succeeds: three buffers, of which the last is alone in its interval. -/
example : ∃ st, run exEnv [exBuf 1, exBuf 2, exBuf 3] = .ok st ∧ st.out.length = 3 := by
  obtain ⟨st, h⟩ := exEnv_run exEnv [exBuf 1, exBuf 2, exBuf 3] (Or.inl rfl) (by decide) rfl exEnv_fits
    (by decide +kernel) (by decide)
  exact ⟨st, h, (forwarded_subtracted exEnv (by decide) (by decide) (by decide) (by decide) rfl rfl _ st h).1⟩

/-- A run with more buffers than the metadata announce does not succeed. -/
example : ¬ ∃ st, run exEnv [exBuf 1, exBuf 2, exBuf 3, exBuf 4, exBuf 5] = .ok st := by
  rw [succeeds_iff exEnv (by decide) (by decide) (by decide) (by decide) _ fun _ _ => ⟨rfl, fun _ _ => rfl⟩]
  rintro ⟨_, h⟩
  exact absurd h (by decide)

section
variable {K : Type} [Field K] [LinearOrder K]

/-! ## C132: the stations of the subtracted model -/

/-- **C132 (partial).**  If all antennas are used, so that the map to used antennas is the identity,
then the subtracted model of a baseline has the solutions of its two stations.  Missing: unused
antennas, see `unused_antennas_fail`. -/
theorem stations_partial (e : Env K) (hs : 0 < e.solint) (hI : 0 < e.nInt) (hne : e.names ≠ [])
    (hn : e.names.Nodup) (hmap : ∀ bl < e.nBl, e.antMap (e.ant1 bl) = e.ant1 bl ∧
      e.antMap (e.ant2 bl) = e.ant2 bl) (bs : List (Buf K)) (st : St K) (h : run e bs = .ok st) :
    ∀ (k : Nat) (b : Buf K), bs[k]? = some b → ∃ b' : Buf K, st.out[k]? = some b' ∧
      ∀ bl < e.nBl, ∀ ch,
        b'.data bl ch = outData e e.antMap (walk e.nChan e.nBlocks) (st.sols (k / e.solint)) b bl ch ∧
        ∀ n, (b'.extra n).map (fun v => v bl ch) =
          (outExtra e e.antMap (walk e.nChan e.nBlocks) (st.sols (k / e.solint)) b n).map fun v => v bl ch := by
  intro k b hk
  have ho := forwarded e hs hI hne hn bs st h
  refine ⟨_, by rw [ho, List.getElem?_mapIdx, hk]; rfl, ?_⟩
  intro bl hbl ch
  obtain ⟨h1, h2⟩ := hmap bl hbl
  have happ : ∀ d v, applied e id (walk e.nChan e.nBlocks) (st.sols (k / e.solint)) d v bl ch =
      applied e e.antMap (walk e.nChan e.nBlocks) (st.sols (k / e.solint)) d v bl ch := by
    intro d v
    simp [applied, h1, h2]
  constructor
  · simp only [outBuf, outData]
    split
    · rfl
    · split
      · simp only [sumDirs, happ]
      · rfl
  · intro n
    simp only [outBuf, outExtra]
    split
    · split
      · split
        · rfl
        · simp [happ]
      · rfl
    · rfl

/-- Antennas that are on a baseline. -/
def Used (e : Env K) (a : Nat) : Prop := ∃ bl < e.nBl, e.ant1 bl = a ∨ e.ant2 bl = a

/-- **C132, violated.**  If some antennas are unused, such that the used antennas are renumbered, then
a run with subtraction or with kept model data is never free of errors: the solutions are accessed
beyond their end, since the numbers of the antennas are used instead of their renumbered values. -/
theorem unused_antennas_fail (e : Env K) (hs : 0 < e.solint) (hI : 0 < e.nInt) (hne : e.names ≠ [])
    (hn : e.names.Nodup) (hp : e.onlyPredict = false) (hk : (e.subtract || e.keepModel) = true)
    (hPol : 0 < e.nPol) (hCh : 0 < e.nChan)
    (hrange : ∀ a, Used e a → e.antMap a < e.nAnt)
    (honto : ∀ i < e.nAnt, ∃ a, Used e a ∧ e.antMap a = i)
    (hmono : ∀ a b, Used e a → Used e b → a < b → e.antMap a < e.antMap b)
    (hnot : ∃ a, Used e a ∧ e.antMap a ≠ a)
    (hsize : ∀ i c, ∀ s ∈ (e.solve i c).sols, s.length ≤ e.nAnt * e.names.length * e.nPol)
    (bs : List (Buf K)) (hbs : bs ≠ []) (st : St K) : run e bs ≠ .ok st := by
  intro h
  -- the numbers are at least the renumbered values
  have hge : ∀ m a, Used e a → e.antMap a = m → m ≤ a := by
    intro m
    induction m with
    | zero => intro a _ _; omega
    | succ m ih =>
      intro a ha hm
      obtain ⟨b, hb, hbm⟩ := honto m (by have := hrange a ha; omega)
      have hlt : b < a := by
        rcases Nat.lt_trichotomy a b with h1 | h1 | h1
        · have := hmono a b ha hb h1; omega
        · subst h1; omega
        · exact h1
      have := ih b hb hbm
      omega
  -- an antenna with a number that is too high
  obtain ⟨a, ha, hna⟩ := hnot
  have hup : ∀ j a, Used e a → e.antMap a < a → e.antMap a + 1 + j = e.nAnt → ∃ a, Used e a ∧ e.nAnt ≤ a := by
    intro j
    induction j with
    | zero => intro a ha hlt heq; exact ⟨a, ha, by omega⟩
    | succ j ih =>
      intro a ha hlt heq
      obtain ⟨b, hb, hbm⟩ := honto (e.antMap a + 1) (by omega)
      have hab : a < b := by
        rcases Nat.lt_trichotomy a b with h1 | h1 | h1
        · exact h1
        · subst h1; omega
        · have := hmono b a hb ha h1; omega
      exact ih b hb (by omega) (by omega)
  have hlt := hrange a ha
  have hge' := hge _ a ha rfl
  obtain ⟨a, ⟨bl, hbl, hab⟩, hbig⟩ := hup (e.nAnt - (e.antMap a + 1)) a ha (by omega) (by omega)
  -- the access check of the first interval
  have hspec := run_spec e hs hI hne hn st bs h
  have h0 : (init e).firstIdx = 0 := rfl
  have hlen : 0 < bs.length := List.length_pos_iff.2 hbs
  have hpc : 0 < nPieces e.solint bs.length := (nPieces_lt hs _ 0).2 (by omega)
  have hin := (hspec.corrected hp hk hbs).2 0 hpc
  obtain ⟨calls, _, _, hc⟩ := hspec.solved hp
  obtain ⟨c, _, w, _, _, hsol, _⟩ := hc 0 hpc
  rw [h0, Nat.zero_add] at hin hsol
  rw [hsol] at hin
  unfold inRange at hin
  rw [List.all_eq_true] at hin
  have h1 := hin bl (List.mem_range.2 hbl)
  rw [List.all_eq_true] at h1
  have h2 := h1 0 (List.mem_range.2 hCh)
  cases hw : (e.solve 0 c).sols[walk e.nChan e.nBlocks 0]? with
  | none => rw [hw] at h2; cases h2
  | some s =>
    rw [hw] at h2
    have hd : 0 < e.names.length := List.length_pos_iff.2 hne
    rw [List.all_eq_true] at h2
    have h3 := h2 0 (List.mem_range.2 hd)
    rw [Bool.and_eq_true, decide_eq_true_eq, decide_eq_true_eq] at h3
    have hsl := hsize 0 c s (List.mem_of_getElem? hw)
    have key : e.nAnt * e.names.length * e.nPol < (a * e.names.length + 0 + 1) * e.nPol := by
      apply Nat.mul_lt_mul_of_pos_right _ hPol
      have := Nat.mul_le_mul_right e.names.length hbig
      omega
    rcases hab with rfl | rfl <;> omega

end

/-- All antennas used. -/
example : ∃ st, run exEnv [exBuf 1] = .ok st :=
  exEnv_run exEnv _ (Or.inl rfl) (by decide) rfl exEnv_fits (by decide +kernel) (by decide)

/-- Antenna 1 is on no baseline: only antennas 0 and 2 are calibrated, as antennas 0 and 1. -/
def unusedEnv : Env ℚ := { exEnv with ant2 := fun _ => 2, antMap := fun a => a / 2 }

/-- The hypotheses of `unused_antennas_fail` hold in an example. -/
example (st : St ℚ) : run unusedEnv [exBuf 1] ≠ .ok st := by
  have hu : ∀ a, Used unusedEnv a ↔ a = 0 ∨ a = 2 := by
    intro a
    constructor
    · rintro ⟨_, _, h | h⟩
      · exact Or.inl h.symm
      · exact Or.inr h.symm
    · rintro (rfl | rfl)
      · exact ⟨0, by decide, Or.inl rfl⟩
      · exact ⟨0, by decide, Or.inr rfl⟩
  refine unused_antennas_fail unusedEnv (by decide) (by decide) (by decide) (by decide) rfl rfl (by decide)
    (by decide) ?_ ?_ ?_ ⟨2, (hu 2).2 (Or.inr rfl), by decide⟩ ?_ _ (by simp) st
  · intro a ha
    rcases (hu a).1 ha with rfl | rfl <;> decide
  · intro i hi
    have : i = 0 ∨ i = 1 := by
      have : i < 2 := hi
      omega
    rcases this with rfl | rfl
    · exact ⟨0, (hu 0).2 (Or.inl rfl), rfl⟩
    · exact ⟨2, (hu 2).2 (Or.inr rfl), rfl⟩
  · intro a b ha hb hab
    rcases (hu a).1 ha with rfl | rfl <;> rcases (hu b).1 hb with rfl | rfl
    · omega
    · decide
    · omega
    · omega
  · intro i c s hm
    change s ∈ [_] at hm
    rw [List.mem_singleton] at hm
    subst hm
    simp only [List.length_cons, List.length_nil]
    decide

section
variable {K : Type} [Field K] [LinearOrder K]

/-! ## C133: time, weights and flags for the solver -/

theorem sum_map_mul (c : K) (l : List K) : (l.map fun x => c * x).sum = c * l.sum := by
  induction l with
  | nil => simp
  | cons a l ih => simp [ih, mul_add]

theorem map_mapIdx' {A B C : Type} (g : B → C) (f : Nat → A → B) (l : List A) :
    (l.mapIdx f).map g = l.mapIdx fun k a => g (f k a) := by
  apply List.ext_getElem? fun k => ?_
  simp only [List.getElem?_map, List.getElem?_mapIdx]
  cases l[k]? <;> rfl

theorem timeSum_eq (l : List (Buf K)) :
    timeSum l = (l.mapIdx fun k b => 2 ^ (l.length - 1 - k) * b.time).sum := by
  induction l using List.reverseRecOn with
  | nil => rfl
  | append_singleton l b ih =>
    have h1 : timeSum (l ++ [b]) = 2 * timeSum l + b.time := by
      unfold timeSum
      rw [List.foldl_append]
      simp only [List.foldl_cons, List.foldl_nil]
      ring
    rw [h1, ih, List.mapIdx_append, List.sum_append, ← sum_map_mul]
    congr 1
    · congr 1
      rw [map_mapIdx']
      apply mapIdx_congr
      intro k a hk
      have := (List.getElem?_eq_some_iff.1 hk).1
      simp only [List.length_append, List.length_singleton]
      rw [show l.length + 1 - 1 - k = (l.length - 1 - k) + 1 by omega, pow_succ]
      ring
    · simp

theorem antWeights_eq (e : Env K) (l : List (Buf K)) (a cb : Nat) :
    antWeights e l a cb = (l.mapIdx fun k b =>
      weightFactor e ^ (l.length - k) * antSum e (visWeight (uvwStep e b)) a cb).sum := by
  induction l using List.reverseRecOn with
  | nil => rfl
  | append_singleton l b ih =>
    have h1 : antWeights e (l ++ [b]) a cb =
        weightFactor e * antWeights e l a cb + weightFactor e * antSum e (visWeight (uvwStep e b)) a cb := by
      unfold antWeights
      rw [List.foldl_append]
      simp only [List.foldl_cons, List.foldl_nil]
      ring
    rw [h1, ih, List.mapIdx_append, List.sum_append, ← sum_map_mul]
    congr 1
    · congr 1
      rw [map_mapIdx']
      apply mapIdx_congr
      intro k a hk
      have := (List.getElem?_eq_some_iff.1 hk).1
      simp only [List.length_append, List.length_singleton]
      rw [show l.length + 1 - k = (l.length - k) + 1 by omega, pow_succ]
      ring
    · simp

/-- The calls of the solver in a run: one for each interval. -/
theorem solver_calls (e : Env K) (hs : 0 < e.solint) (hI : 0 < e.nInt) (hne : e.names ≠ [])
    (hn : e.names.Nodup) (hp : e.onlyPredict = false) (bs : List (Buf K)) (st : St K)
    (h : run e bs = .ok st) :
    st.calls.length = (bs.length + e.solint - 1) / e.solint ∧
    ∀ i, i * e.solint < bs.length → ∃ c, st.calls[i]? = some c ∧
      IsCall e (interval (e.nInt * e.solint) bs (i / e.nInt)) (interval e.solint bs i)
        (decide (i % e.nInt = 0)) i st.sols st.iters (fun _ => []) st.cons c := by
  have hspec := run_spec e hs hI hne hn st bs h
  have h0 : (init e).firstIdx = 0 := rfl
  obtain ⟨calls, h1, h2, h3⟩ := hspec.solved hp
  have h4 : (init e).calls = [] := rfl
  rw [h4, List.nil_append] at h1
  subst h1
  refine ⟨h2, fun i hi => ?_⟩
  obtain ⟨c, hc, hcall⟩ := h3 i ((nPieces_lt hs _ _).2 hi)
  rw [h0, Nat.zero_add] at hcall
  exact ⟨c, hc, hcall⟩

/-- **C133.**  What the solver receives as the time of interval `i`, with one interval per set: the
times of its buffers with weights that are powers of two, divided by the requested length of an
interval. -/
theorem solver_time (e : Env K) (hs : 0 < e.solint) (hI : e.nInt = 1) (hne : e.names ≠ [])
    (hn : e.names.Nodup) (hp : e.onlyPredict = false) (bs : List (Buf K)) (st : St K)
    (h : run e bs = .ok st) (i : Nat) (hi : i * e.solint < bs.length) : ∃ c, st.calls[i]? = some c ∧
      c.time = ((interval e.solint bs i).mapIdx fun k b =>
        2 ^ ((interval e.solint bs i).length - 1 - k) * b.time).sum / (e.solint : K) := by
  obtain ⟨c, hc, w, _, rfl, _⟩ := (solver_calls e hs (by omega) hne hn hp bs st h).2 i hi
  refine ⟨_, hc, ?_⟩
  rw [hI, Nat.div_one, Nat.one_mul]
  change timeSum _ / _ = _
  rw [timeSum_eq]

/-- **C133 (partial).**  For intervals of one time slot the time is the time of the slot.  Missing: all
other intervals, see `time_wrong`. -/
theorem time_right_partial (e : Env K) (hs : e.solint = 1) (hI : e.nInt = 1) (hne : e.names ≠ [])
    (hn : e.names.Nodup) (hp : e.onlyPredict = false) (bs : List (Buf K)) (st : St K)
    (h : run e bs = .ok st) (i : Nat) (b : Buf K) (hi : bs[i]? = some b) :
    ∃ c, st.calls[i]? = some c ∧ c.time = b.time := by
  have hlt := (List.getElem?_eq_some_iff.1 hi).1
  obtain ⟨c, hc, ht⟩ := solver_time e (by omega) hI hne hn hp bs st h i (by rw [hs]; omega)
  refine ⟨c, hc, ?_⟩
  have hint : interval e.solint bs i = [b] := by
    unfold interval
    obtain ⟨h1, h2⟩ := List.getElem?_eq_some_iff.1 hi
    rw [hs, Nat.mul_one, List.drop_eq_getElem_cons h1, h2]
    rfl
  rw [ht, hint, hs]
  simp

/-- **C133, violated.**  For intervals of two time slots, the time that the solver receives is the mean
of the times only if the first time is zero. -/
theorem time_wrong [CharZero K] (e : Env K) (hs : e.solint = 2) (hI : e.nInt = 1) (hne : e.names ≠ [])
    (hn : e.names.Nodup) (hp : e.onlyPredict = false) (bs : List (Buf K)) (st : St K)
    (h : run e bs = .ok st) (i : Nat) (b0 b1 : Buf K) (h0 : bs[2 * i]? = some b0)
    (h1 : bs[2 * i + 1]? = some b1) :
    ∃ c, st.calls[i]? = some c ∧ c.time = (2 * b0.time + b1.time) / 2 ∧
      (c.time = (b0.time + b1.time) / 2 ↔ b0.time = 0) := by
  have hlt := (List.getElem?_eq_some_iff.1 h0).1
  obtain ⟨c, hc, ht⟩ := solver_time e (by omega) hI hne hn hp bs st h i (by rw [hs]; omega)
  have hint : interval e.solint bs i = [b0, b1] := by
    unfold interval
    obtain ⟨k1, k2⟩ := List.getElem?_eq_some_iff.1 h0
    obtain ⟨k3, k4⟩ := List.getElem?_eq_some_iff.1 h1
    rw [hs, Nat.mul_comm, List.drop_eq_getElem_cons k1, k2, List.drop_eq_getElem_cons k3, k4]
    rfl
  have ht' : c.time = (2 * b0.time + b1.time) / 2 := by
    rw [ht, hint, hs]
    simp
  refine ⟨c, hc, ht', ?_⟩
  rw [ht']
  constructor
  · intro hh
    field_simp at hh
    have : b0.time + (b0.time + b1.time) = 0 + (b0.time + b1.time) := by
      rw [zero_add, ← add_assoc, ← two_mul]; exact hh
    exact add_right_cancel this
  · intro hh; rw [hh]; simp

/-- **C133.**  The antenna weights for the constraints, with one interval per set and without a minimum
on the visibilities: the weights of a time slot have one factor `1 / (channels * (antennas - 1) * 4 *
solint)` for each later time slot of the interval. -/
theorem solver_weights (e : Env K) (hs : 0 < e.solint) (hI : e.nInt = 1) (hne : e.names ≠ [])
    (hn : e.names.Nodup) (hp : e.onlyPredict = false) (hm : ¬ 0 < e.minVis) (bs : List (Buf K)) (st : St K)
    (h : run e bs = .ok st) (i : Nat) (hi : i * e.solint < bs.length) : ∃ c, st.calls[i]? = some c ∧
      ∀ a cb, c.weights a cb = ((interval e.solint bs i).mapIdx fun k b =>
        (1 / (((e.nChan * (e.nAnt - 1) * 4 * e.solint : Nat)) : K)) ^ ((interval e.solint bs i).length - k) *
          antSum e (visWeight (uvwStep e b)) a cb).sum := by
  obtain ⟨c, hc, w, hw, rfl, _⟩ := (solver_calls e hs (by omega) hne hn hp bs st h).2 i hi
  refine ⟨_, hc, ?_⟩
  intro a cb
  change w a cb = _
  rw [hw (by rw [hI, Nat.mod_one]; rfl), if_neg hm, hI, Nat.div_one, Nat.one_mul, antWeights_eq]
  rfl

/-- **C133 (partial).**  For intervals of one time slot the antenna weights are the sums of the weights
of the unflagged visibilities, divided by their number.  Missing: other intervals, see
`weights_wrong`. -/
theorem weights_right_partial (e : Env K) (hs : e.solint = 1) (hI : e.nInt = 1) (hne : e.names ≠ [])
    (hn : e.names.Nodup) (hp : e.onlyPredict = false) (hm : ¬ 0 < e.minVis) (bs : List (Buf K)) (st : St K)
    (h : run e bs = .ok st) (i : Nat) (b : Buf K) (hi : bs[i]? = some b) :
    ∃ c, st.calls[i]? = some c ∧ ∀ a cb, c.weights a cb =
      antSum e (visWeight (uvwStep e b)) a cb / (((e.nChan * (e.nAnt - 1) * 4 : Nat)) : K) := by
  have hlt := (List.getElem?_eq_some_iff.1 hi).1
  obtain ⟨c, hc, ht⟩ := solver_weights e (by omega) hI hne hn hp hm bs st h i (by rw [hs]; omega)
  refine ⟨c, hc, fun a cb => ?_⟩
  have hint : interval e.solint bs i = [b] := by
    unfold interval
    obtain ⟨h1, h2⟩ := List.getElem?_eq_some_iff.1 hi
    rw [hs, Nat.mul_one, List.drop_eq_getElem_cons h1, h2]
    rfl
  rw [ht, hint, hs, Nat.mul_one]
  simp [div_eq_inv_mul]

/-- **C133, violated.**  For intervals of two time slots with equal data, the antenna weights are
`f + f²` times the sum of one slot instead of `2 f`, with `f = 1 / (channels * (antennas - 1) * 8)`. -/
theorem weights_wrong (e : Env K) (hs : e.solint = 2) (hI : e.nInt = 1) (hne : e.names ≠ [])
    (hn : e.names.Nodup) (hp : e.onlyPredict = false) (hm : ¬ 0 < e.minVis) (bs : List (Buf K)) (st : St K)
    (h : run e bs = .ok st) (i : Nat) (b0 b1 : Buf K) (h0 : bs[2 * i]? = some b0)
    (h1 : bs[2 * i + 1]? = some b1)
    (heq : visWeight (uvwStep e b0) = visWeight (uvwStep e b1)) :
    ∃ c, st.calls[i]? = some c ∧ ∀ a cb,
      let f := 1 / (((e.nChan * (e.nAnt - 1) * 4 * 2 : Nat)) : K)
      c.weights a cb = (f + f * f) * antSum e (visWeight (uvwStep e b0)) a cb := by
  have hlt := (List.getElem?_eq_some_iff.1 h0).1
  obtain ⟨c, hc, ht⟩ := solver_weights e (by omega) hI hne hn hp hm bs st h i (by rw [hs]; omega)
  refine ⟨c, hc, fun a cb => ?_⟩
  have hint : interval e.solint bs i = [b0, b1] := by
    unfold interval
    obtain ⟨k1, k2⟩ := List.getElem?_eq_some_iff.1 h0
    obtain ⟨k3, k4⟩ := List.getElem?_eq_some_iff.1 h1
    rw [hs, Nat.mul_comm, List.drop_eq_getElem_cons k1, k2, List.drop_eq_getElem_cons k3, k4]
    rfl
  intro f
  have hf : f = 1 / (((e.nChan * (e.nAnt - 1) * 4 * 2 : Nat)) : K) := rfl
  rw [ht, hint, hs, ← hf]
  simp [heq]
  ring

end

/-- Two time slots in an interval. -/
example : ∃ st, run exEnv [exBuf 1, exBuf 2] = .ok st ∧
    ∃ c, st.calls[0]? = some c ∧ c.time = 2 ∧ c.weights 0 0 = (1/16 + 1/256) * 8 := by
  obtain ⟨st, h⟩ := exEnv_run exEnv [exBuf 1, exBuf 2] (Or.inl rfl) (by decide) rfl exEnv_fits
    (by decide +kernel) (by decide)
  obtain ⟨c, hc, h1, _⟩ := time_wrong exEnv rfl rfl (by decide) (by decide) rfl _ st h 0 (exBuf 1) (exBuf 2) rfl rfl
  obtain ⟨c', hc', h2⟩ := weights_wrong exEnv rfl rfl (by decide) (by decide) rfl (by decide +kernel) _ st h 0
    (exBuf 1) (exBuf 2) rfl rfl rfl
  rw [hc] at hc'
  cases hc'
  refine ⟨st, h, c, hc, ?_, ?_⟩
  · rw [h1]; decide +kernel
  · rw [h2]; decide +kernel

/-- One time slot in an interval. -/
example : ∃ st, run { exEnv with solint := 1 } [exBuf 1, exBuf 2] = .ok st ∧
    ∃ c, st.calls[1]? = some c ∧ c.time = 2 := by
  obtain ⟨st, h⟩ := exEnv_run { exEnv with solint := 1 } [exBuf 1, exBuf 2] (Or.inr rfl) (by decide) rfl
    (fun _ _ => ⟨rfl, fun _ _ => rfl⟩) (by decide +kernel) (by decide)
  exact ⟨st, h, time_right_partial { exEnv with solint := 1 } rfl rfl (by decide) (by decide) rfl _ st h 1
    (exBuf 2) rfl⟩

/-! ## C134: channel blocks -/

theorem blockStart_lt (nChan nBlocks : Nat) (hb : 0 < nBlocks) (hc : nBlocks ≤ nChan) (k : Nat) :
    blockStart nChan nBlocks k < blockStart nChan nBlocks (k + 1) := by
  unfold blockStart
  have h1 : (k * nChan + nBlocks) / nBlocks = k * nChan / nBlocks + 1 := Nat.add_div_right _ hb
  have h2 : (k * nChan + nBlocks) / nBlocks ≤ (k + 1) * nChan / nBlocks :=
    Nat.div_le_div_right (by rw [Nat.add_mul]; omega)
  omega

/-- **C134.**  The block that the loops over the channels count for a channel is the block in which the
channel is. -/
theorem walk_block (nChan nBlocks : Nat) (hb : 0 < nBlocks) (hc : nBlocks ≤ nChan) (ch : Nat) :
    blockStart nChan nBlocks (walk nChan nBlocks ch) ≤ ch ∧
      ch < blockStart nChan nBlocks (walk nChan nBlocks ch + 1) := by
  induction ch with
  | zero =>
    have h0 : blockStart nChan nBlocks 0 = 0 := by simp [blockStart]
    have h1 := blockStart_lt nChan nBlocks hb hc 0
    have : ¬ 0 = blockStart nChan nBlocks 1 := by rw [Nat.zero_add] at h1; omega
    simp only [walk, if_neg this]
    exact ⟨by omega, by omega⟩
  | succ ch ih =>
    simp only [walk]
    split
    · rename_i h
      have := blockStart_lt nChan nBlocks hb hc (walk nChan nBlocks ch + 1)
      exact ⟨by omega, by omega⟩
    · exact ⟨by omega, by omega⟩

theorem blockStart_mono (nChan nBlocks : Nat) {j k : Nat} (h : j ≤ k) :
    blockStart nChan nBlocks j ≤ blockStart nChan nBlocks k :=
  Nat.div_le_div_right (Nat.mul_le_mul_right _ h)

theorem walk_unique (nChan nBlocks : Nat) (hb : 0 < nBlocks) (hc : nBlocks ≤ nChan) (ch k : Nat)
    (h1 : blockStart nChan nBlocks k ≤ ch) (h2 : ch < blockStart nChan nBlocks (k + 1)) :
    k = walk nChan nBlocks ch := by
  obtain ⟨w1, w2⟩ := walk_block nChan nBlocks hb hc ch
  rcases Nat.lt_trichotomy k (walk nChan nBlocks ch) with h | h | h
  · have := blockStart_mono nChan nBlocks (show k + 1 ≤ walk nChan nBlocks ch from h); omega
  · exact h
  · have := blockStart_mono nChan nBlocks (show walk nChan nBlocks ch + 1 ≤ k from h); omega

/-- **C134.**  The channel blocks of DDECal: they are those of the solver data (`SolveData`), so that the
solutions of a block are applied to the channels from which they were computed; there is at least one
block; every channel is in exactly one block; and with a requested size of `s` channels, a block has at
least `s` and fewer than `2 s` channels. -/
theorem channel_blocks (setting nChan : Nat) (hc : 0 < nChan) :
    let n := nChannelBlocks setting nChan
    let s := if setting = 0 ∨ nChan < setting then nChan else setting
    0 < n ∧ n ≤ nChan ∧
    (∀ k, blockStart nChan n k = SolveData.channelBegin nChan n k) ∧
    (∀ ch < nChan, walk nChan n ch < n ∧ ∀ k,
      (blockStart nChan n k ≤ ch ∧ ch < blockStart nChan n (k + 1)) ↔ k = walk nChan n ch) ∧
    ∀ k, s ≤ blockStart nChan n (k + 1) - blockStart nChan n k ∧
      blockStart nChan n (k + 1) - blockStart nChan n k < 2 * s := by
  intro n s
  have hs : 0 < s ∧ s ≤ nChan := by
    simp only [s]; split <;> omega
  have hn : n = nChan / s := rfl
  have hn0 : 0 < n := by rw [hn]; exact Nat.div_pos hs.2 hs.1
  have hnc : n ≤ nChan := by rw [hn]; exact Nat.div_le_self _ _
  have hlo : n * s ≤ nChan := by rw [hn]; exact Nat.div_mul_le_self _ _
  have hhi : nChan < (n + 1) * s := by
    rw [hn, Nat.mul_comm]; exact Nat.lt_mul_div_succ _ hs.1
  refine ⟨hn0, hnc, fun k => rfl, ?_, ?_⟩
  · intro ch hch
    obtain ⟨w1, w2⟩ := walk_block nChan n hn0 hnc ch
    constructor
    · by_contra hh
      have h1 := blockStart_mono nChan n (show n ≤ walk nChan n ch by omega)
      have h2 : blockStart nChan n n = nChan := by
        unfold blockStart; rw [Nat.mul_comm]; exact Nat.mul_div_cancel _ hn0
      omega
    · intro k
      constructor
      · rintro ⟨h1, h2⟩
        exact walk_unique nChan n hn0 hnc ch k h1 h2
      · rintro rfl; exact ⟨w1, w2⟩
  · intro k
    unfold blockStart
    rw [Nat.add_mul, Nat.one_mul]
    constructor
    · have h1 : (k * nChan + s * n) / n = k * nChan / n + s := Nat.add_mul_div_right _ _ hn0
      have h2 : (k * nChan + s * n) / n ≤ (k * nChan + nChan) / n :=
        Nat.div_le_div_right (by rw [Nat.mul_comm s n]; omega)
      omega
    · have h0 : (n + 1) * s = n * s + s := by ring
      have h3 : s ≤ n * s := Nat.le_mul_of_pos_left _ hn0
      have h4 : k * nChan + nChan < k * nChan + (n * (2 * s)) := by
        have : n * (2 * s) = n * s + n * s := by ring
        omega
      have hq := Nat.div_add_mod (k * nChan) n
      have hmod : k * nChan % n < n := Nat.mod_lt _ hn0
      generalize hQ : k * nChan / n = q at hq ⊢
      generalize hR : k * nChan % n = r at hq hmod
      have : (k * nChan + nChan) / n < q + 2 * s := by
        rw [Nat.div_lt_iff_lt_mul hn0]
        have e1 : (q + 2 * s) * n = n * q + (n * s + n * s) := by ring
        rw [e1]
        have h5 : r + nChan < n * s + n * s := by
          -- `nChan < n s + s` and `r < n`
          rcases Nat.eq_or_lt_of_le (show 1 ≤ n from hn0) with h | h
          · rw [← h] at hmod hhi ⊢; omega
          · have h6 : (n - 1) + s ≤ n * s := by
              have : (n - 1) * 1 ≤ (n - 1) * s := Nat.mul_le_mul_left _ hs.1
              have h7 : n * s = (n - 1) * s + s := by
                rw [Nat.sub_mul, Nat.one_mul]; omega
              omega
            omega
        omega
      omega

/-- Ten channels in blocks of at least four: two blocks of five. -/
example : nChannelBlocks 4 10 = 2 ∧ (List.range 10).map (walk 10 2) = [0, 0, 0, 0, 0, 1, 1, 1, 1, 1] := by
  decide

section
variable {K : Type} [Field K] [LinearOrder K]

/-! ## C133: flags for the solver -/

theorem minVisFlags_eq (e : Env K) (hb : 0 < e.nBlocks) (hc : e.nBlocks ≤ e.nChan)
    (vis : Nat → Nat × Nat) (b : Buf K) (bl ch cr : Nat) (hch : ch < e.nChan) :
    (minVisFlags e vis b).flags bl ch cr =
      (b.flags bl ch cr || tooFew e vis (walk e.nChan e.nBlocks ch)) := by
  unfold minVisFlags
  simp only
  congr 1
  obtain ⟨w1, w2⟩ := walk_block e.nChan e.nBlocks hb hc ch
  have hw : walk e.nChan e.nBlocks ch < e.nBlocks := by
    by_contra hh
    have h1 := blockStart_mono e.nChan e.nBlocks (show e.nBlocks ≤ walk e.nChan e.nBlocks ch by omega)
    have h2 : blockStart e.nChan e.nBlocks e.nBlocks = e.nChan := by
      unfold blockStart; rw [Nat.mul_comm]; exact Nat.mul_div_cancel _ hb
    omega
  rw [Bool.eq_iff_iff, List.any_eq_true]
  constructor
  · rintro ⟨cb, hcb, h⟩
    rw [Bool.and_eq_true, Bool.and_eq_true, decide_eq_true_eq, decide_eq_true_eq] at h
    obtain ⟨⟨h1, h2⟩, h3⟩ := h
    rw [← walk_unique e.nChan e.nBlocks hb hc ch cb h2 h3]
    exact h1
  · intro h
    refine ⟨_, List.mem_range.2 hw, ?_⟩
    rw [Bool.and_eq_true, Bool.and_eq_true, decide_eq_true_eq, decide_eq_true_eq]
    exact ⟨⟨h, w1⟩, w2⟩

/-- The visibilities of a channel block in a list of buffers: triples of baseline, channel and
correlation per buffer. -/
def blockVis (e : Env K) (cb : Nat) (l : List (Buf K)) : List (Buf K × Nat × Nat × Nat) :=
  l.flatMap fun b => (List.range e.nBl).flatMap fun bl =>
    ((List.range e.nChan).filter fun ch => decide (walk e.nChan e.nBlocks ch = cb)).flatMap fun ch =>
      (List.range 4).map fun cr => (b, bl, ch, cr)

theorem countP_flatMap' {A B : Type} (p : B → Bool) (f : A → List B) (l : List A) :
    (l.flatMap f).countP p = (l.map fun a => (f a).countP p).sum := by
  induction l with
  | nil => rfl
  | cons a l ih => simp [List.flatMap_cons, List.countP_append, ih]

theorem sum_filter {A : Type} (q : A → Bool) (g : A → Nat) (l : List A) :
    ((l.filter q).map g).sum = (l.map fun a => if q a then g a else 0).sum := by
  induction l with
  | nil => rfl
  | cons a l ih =>
    cases h : q a <;> simp [List.filter_cons, h, ih]

theorem countP_eq_sum {A : Type} (p : A → Bool) (l : List A) :
    l.countP p = (l.map fun a => if p a then 1 else 0).sum := by
  induction l with
  | nil => rfl
  | cons a l ih =>
    cases h : p a <;> simp [List.countP_cons, h, ih]; omega

theorem visCount_eq (e : Env K) (l : List (Buf K)) (cb : Nat) :
    visCount e l cb = ((blockVis e cb (l.map (uvwStep e))).countP fun x =>
        decide (0 < visWeight x.1 x.2.1 x.2.2.1 x.2.2.2),
      (blockVis e cb (l.map (uvwStep e))).length) := by
  have key : ∀ (p : Buf K × Nat × Nat × Nat → Bool),
      (blockVis e cb (l.map (uvwStep e))).countP p = (l.map fun b =>
        ((List.range e.nBl).map fun bl => ((List.range e.nChan).map fun ch =>
          if walk e.nChan e.nBlocks ch = cb then
            ((List.range 4).map fun cr => if p (uvwStep e b, bl, ch, cr) then 1 else 0).sum
          else 0).sum).sum).sum := by
    intro p
    unfold blockVis
    rw [countP_flatMap', List.map_map]
    congr 1
    apply List.map_congr_left
    intro b _
    simp only [Function.comp_def, countP_flatMap', sum_filter, decide_eq_true_eq]
    congr 1
    apply List.map_congr_left
    intro bl _
    congr 1
    apply List.map_congr_left
    intro ch _
    split
    · rw [countP_eq_sum, List.map_map]; rfl
    · rfl
  unfold visCount countVis
  rw [key, ← List.countP_true, key]
  simp only [decide_eq_true_eq, Prod.mk.injEq, if_true]
  refine ⟨trivial, ?_⟩
  congr 1

/-- **C133.**  The flags that the solver receives, with one interval per set: the flags after the UVW
flagger, and a channel block is flagged as a whole when the fraction of its unflagged visibilities
with positive weight, in this interval, is below the requested minimum. -/
theorem solver_flags (e : Env K) (hs : 0 < e.solint) (hI : e.nInt = 1) (hne : e.names ≠ [])
    (hn : e.names.Nodup) (hp : e.onlyPredict = false) (hm : 0 < e.minVis) (hb : 0 < e.nBlocks)
    (hc : e.nBlocks ≤ e.nChan) (bs : List (Buf K)) (st : St K) (h : run e bs = .ok st) (i : Nat)
    (hi : i * e.solint < bs.length) : ∃ c, st.calls[i]? = some c ∧
      ∀ (j : Nat) (b : Buf K), (interval e.solint bs i)[j]? = some b → ∃ b', c.bufs[j]? = some b' ∧
        ∀ bl ch cr, ch < e.nChan → b'.flags bl ch cr = ((uvwStep e b).flags bl ch cr ||
          let vis := blockVis e (walk e.nChan e.nBlocks ch) ((interval e.solint bs i).map (uvwStep e))
          (decide (vis.length ≠ 0) && decide ((vis.countP (fun x =>
            decide (0 < visWeight x.1 x.2.1 x.2.2.1 x.2.2.2)) : K) / (vis.length : K) < e.minVis))) := by
  obtain ⟨c, hcc, w, _, rfl, _⟩ := (solver_calls e hs (by omega) hne hn hp bs st h).2 i hi
  refine ⟨_, hcc, ?_⟩
  intro j b hj
  rw [hI, Nat.div_one, Nat.one_mul]
  refine ⟨solveFlags e (visCount e (interval e.solint bs i)) (fullBuf e b), ?_, ?_⟩
  · have hlen : j < ((interval e.solint bs i).map (fullBuf e)).length := by
      rw [List.length_map]; exact (List.getElem?_eq_some_iff.1 hj).1
    have ht := pad_take e.solint (((interval e.solint bs i).map (fullBuf e)).map
      (solveFlags e (visCount e (interval e.solint bs i))))
    change (pad e.solint (((interval e.solint bs i).map (fullBuf e)).map
      (solveFlags e (visCount e (interval e.solint bs i)))))[j]? = _
    have h2 := congrArg (fun l => l[j]?) ht
    simp only [List.length_map] at h2
    rw [List.length_map] at hlen
    rw [List.getElem?_take_of_lt hlen] at h2
    rw [h2, List.getElem?_map, List.getElem?_map, hj]
    rfl
  · intro bl ch cr hch
    unfold solveFlags
    rw [if_pos hm, minVisFlags_eq e hb hc _ _ bl ch cr hch]
    congr 1
    · rw [fullBuf_eq e b hn]
    · unfold tooFew
      rw [visCount_eq]

end

/-- Settings with two intervals per set (as with `IDGPredict`), and a minimum of 0.6. -/
def setEnv (nInt : Nat) : Env ℚ := { exEnv with solint := 1, nInt := nInt, minVis := 6 / 10, nChan := 1 }

/-- A buffer that is completely flagged. -/
def flaggedBuf (t : ℚ) : Buf ℚ := { exBuf t with flags := fun _ _ _ => true }

/-- Whether the solver gets any unflagged data for interval 0. -/
def firstUsed (r : Except Err (St ℚ)) : Option Bool :=
  match r with
  | .error _ => none
  | .ok st => (st.calls[0]?).bind fun c => c.bufs[0]?.map fun b => !(b.flags 0 0 0)

/-- **C133, violated.**  With several intervals per set, visibilities are counted over the whole set: a
completely flagged interval makes that the data of another interval of its set, which are not flagged
at all, are not used. -/
theorem min_vis_other_interval :
    firstUsed (run (setEnv 1) [exBuf 1, flaggedBuf 2]) = some true ∧
    firstUsed (run (setEnv 2) [exBuf 1, flaggedBuf 2]) = some false := by
  decide +kernel

section
variable {K : Type} [Field K] [LinearOrder K]

/-! ## C135: start values and results -/

/-- **C135.**  The solve of every interval starts from the solutions of the previous interval, if these
are propagated and (when requested) converged; otherwise from the initial solutions or unit matrices.
The results of the solver are kept for this interval.  Initial solutions are requested for the sum in
`solver_time`, without the division by the number of time slots. -/
theorem solver_start (e : Env K) (hs : 0 < e.solint) (hI : e.nInt = 1) (hne : e.names ≠ [])
    (hn : e.names.Nodup) (hp : e.onlyPredict = false) (bs : List (Buf K)) (st : St K)
    (h : run e bs = .ok st) (i : Nat) (hi : i * e.solint < bs.length) : ∃ c, st.calls[i]? = some c ∧
      c.start = startOf e (((interval e.solint bs i).mapIdx fun k b =>
        2 ^ ((interval e.solint bs i).length - 1 - k) * b.time).sum) st.sols st.iters i ∧
      st.sols i = (e.solve i c).sols ∧ st.iters i = (e.solve i c).iters ∧
      st.cons i = if (e.solve i c).cons.any (fun k => !k.isEmpty) then
          (e.solve i c).cons.map fun k => k.map fun ws => ws.map (finalWeight e (e.solve i c).iters)
        else [] := by
  obtain ⟨c, hc, w, _, rfl, h1, h2, h3⟩ := (solver_calls e hs (by omega) hne hn hp bs st h).2 i hi
  refine ⟨_, hc, ?_, h1, h2, h3⟩
  rw [hI, Nat.div_one, Nat.one_mul]
  change startOf e (timeSum _) _ _ _ = _
  rw [timeSum_eq]

/-- **C135 (partial).**  With intervals of one time slot, initial solutions are those for the time of
the slot.  Missing: other intervals, see `initial_time_wrong`. -/
theorem initial_time_partial (e : Env K) (hs : e.solint = 1) (hI : e.nInt = 1) (hne : e.names ≠ [])
    (hn : e.names.Nodup) (hp : e.onlyPredict = false) (read : K → Sols K) (hr : e.initial = some read)
    (hprop : e.propagate = false) (bs : List (Buf K)) (st : St K) (h : run e bs = .ok st) (i : Nat)
    (b : Buf K) (hi : bs[i]? = some b) : ∃ c, st.calls[i]? = some c ∧ c.start = read b.time := by
  have hlt := (List.getElem?_eq_some_iff.1 hi).1
  obtain ⟨c, hc, hstart, _⟩ := solver_start e (by omega) hI hne hn hp bs st h i (by rw [hs]; omega)
  refine ⟨c, hc, ?_⟩
  have hint : interval e.solint bs i = [b] := by
    unfold interval
    obtain ⟨h1, h2⟩ := List.getElem?_eq_some_iff.1 hi
    rw [hs, Nat.mul_one, List.drop_eq_getElem_cons h1, h2]
    rfl
  rw [hstart, hint]
  simp [startOf, hprop, hr]

/-- **C135.**  Without propagation and initial solutions, every station starts with the unit matrix in
every direction. -/
theorem unit_start (e : Env K) (hpol : e.nPol = 1 ∨ e.nPol = 2 ∨ e.nPol = 4)
    (hdir : e.nSub.sum = e.names.length) (cb : Nat) (hcb : cb < e.nBlocks) (a d : Nat) (ha : a < e.nAnt)
    (hd : d < e.names.length) :
    jones e.nPol e.names.length ((unitSols e).getD cb []) a d = 1 := by
  have hblock : (unitSols e).getD cb [] = (List.range (e.nSub.sum * e.nAnt * e.nPol)).map fun i =>
      if e.nPol = 4 then (if i % 4 = 0 ∨ i % 4 = 3 then 1 else 0) else 1 := by
    unfold unitSols
    rw [List.getD_eq_getElem?_getD, List.getElem?_replicate, if_pos hcb]; rfl
  have hidx : a * e.names.length + d < e.nSub.sum * e.nAnt := by
    rw [hdir]
    calc a * e.names.length + d < a * e.names.length + e.names.length := by omega
      _ = (a + 1) * e.names.length := by ring
      _ ≤ e.nAnt * e.names.length := Nat.mul_le_mul_right _ ha
      _ = e.names.length * e.nAnt := Nat.mul_comm _ _
  have hval : ∀ p < e.nPol, ((unitSols e).getD cb []).getD ((a * e.names.length + d) * e.nPol + p) 0 =
      if e.nPol = 4 then (if p % 4 = 0 ∨ p % 4 = 3 then (1 : Cx K) else 0) else 1 := by
    intro p hp
    have hlt : (a * e.names.length + d) * e.nPol + p < e.nSub.sum * e.nAnt * e.nPol := by
      calc (a * e.names.length + d) * e.nPol + p < (a * e.names.length + d) * e.nPol + e.nPol := by omega
        _ = (a * e.names.length + d + 1) * e.nPol := by ring
        _ ≤ e.nSub.sum * e.nAnt * e.nPol := Nat.mul_le_mul_right _ hidx
    rw [hblock, List.getD_eq_getElem?_getD, List.getElem?_map, List.getElem?_range hlt]
    simp only [Option.map_some, Option.getD_some]
    by_cases h4 : e.nPol = 4
    · simp only [if_pos h4]
      have : ((a * e.names.length + d) * e.nPol + p) % 4 = p % 4 := by rw [h4]; omega
      rw [this]
    · simp only [if_neg h4]
  unfold jones
  rcases hpol with h | h | h
  · have := hval 0 (by omega)
    rw [h, Nat.mul_one, Nat.add_zero] at this
    simp only [h, if_neg (show ¬ (1 = 4) by decide), if_neg (show ¬ (1 = 2) by decide)] at this ⊢
    rw [this]
    rfl
  · have h0 := hval 0 (by omega)
    have h1 := hval 1 (by omega)
    rw [h] at h0 h1
    simp only [h, if_neg (show ¬ (2 = 4) by decide), if_true] at h0 h1 ⊢
    rw [h0, h1]
    rfl
  · have h0 := hval 0 (by omega)
    have h1 := hval 1 (by omega)
    have h2 := hval 2 (by omega)
    have h3 := hval 3 (by omega)
    rw [h] at h0 h1 h2 h3
    simp only [h, if_true] at h0 h1 h2 h3 ⊢
    rw [h0, h1, h2, h3]
    rfl

/-- **C135.**  The weights of the results are never negative, and with flagging of unconverged solutions
the weights of an unconverged interval are zero, unless only diverged stations are to be flagged: then
they are zero for the stations that the solver has marked with a negative weight. -/
theorem final_weights [IsStrictOrderedRing K] (e : Env K) (iters : Nat) (w : K) :
    0 ≤ finalWeight e iters w ∧
    (e.flagUnconverged = true → e.maxIter < iters →
      finalWeight e iters w = if e.flagDivergedOnly = true ∧ 0 ≤ w then w else 0) ∧
    ((e.flagUnconverged = false ∨ iters ≤ e.maxIter) →
      finalWeight e iters w = if 0 ≤ w then w else 1) := by
  unfold finalWeight
  refine ⟨?_, ?_, ?_⟩
  · split
    · split
      · split
        · exact le_refl _
        · exact le_of_not_gt ‹_›
      · exact le_refl _
    · split
      · exact zero_le_one
      · exact le_of_not_gt ‹_›
  · intro h1 h2
    rw [if_pos ⟨h2, h1⟩]
    cases h : e.flagDivergedOnly
    · simp
    · by_cases hw : w < 0
      · simp [hw, not_le.2 hw]
      · simp [hw, not_lt.1 hw]
  · intro h
    rw [if_neg (by
      rintro ⟨h1, h2⟩
      rcases h with h | h
      · rw [h] at h2; cases h2
      · omega)]
    by_cases hw : w < 0
    · simp [hw, not_le.2 hw]
    · simp [hw, not_lt.1 hw]

end

/-- Initial solutions that depend on the time. -/
def initialEnv (solint : Nat) : Env ℚ :=
  { exEnv with solint := solint, propagate := false
               initial := some fun t => [[⟨t, 0⟩, ⟨t, 0⟩, ⟨t, 0⟩, ⟨t, 0⟩]] }

/-- The start value of the first solve. -/
def firstStart (r : Except Err (St ℚ)) : Option (Sols ℚ) :=
  match r with
  | .error _ => none
  | .ok st => (st.calls[0]?).map (·.start)

/-- **C135, violated.**  An interval of two time slots, at times 100 and 101, starts from the initial
solutions for time 301. -/
theorem initial_time_wrong :
    firstStart (run (initialEnv 1) [exBuf 100, exBuf 101]) =
      some [[⟨100, 0⟩, ⟨100, 0⟩, ⟨100, 0⟩, ⟨100, 0⟩]] ∧
    firstStart (run (initialEnv 2) [exBuf 100, exBuf 101]) =
      some [[⟨301, 0⟩, ⟨301, 0⟩, ⟨301, 0⟩, ⟨301, 0⟩]] := by
  decide +kernel

/-- Propagation: the second interval starts from the solutions of the first. -/
example : ∃ st, run exEnv [exBuf 1, exBuf 2, exBuf 3] = .ok st ∧
    ∃ c, st.calls[1]? = some c ∧ c.start = st.sols 0 := by
  obtain ⟨st, h⟩ := exEnv_run exEnv [exBuf 1, exBuf 2, exBuf 3] (Or.inl rfl) (by decide) rfl exEnv_fits
    (by decide +kernel) (by decide)
  obtain ⟨c0, _, _, _, hit, _⟩ := solver_start exEnv (by decide) rfl (by decide) (by decide) rfl _ st h 0 (by decide)
  obtain ⟨c, hc, hst, _⟩ := solver_start exEnv (by decide) rfl (by decide) (by decide) rfl _ st h 1 (by decide)
  refine ⟨st, h, c, hc, ?_⟩
  rw [hst]
  have : st.iters 0 = 0 := hit
  simp [startOf, exEnv, this]

/-- Unit start values. -/
example : jones 4 2 ((unitSols { exEnv with nPol := 4 }).getD 0 []) 1 1 = (1 : M2 ℚ) :=
  unit_start { exEnv with nPol := 4 } (Or.inr (Or.inr rfl)) rfl 0 (by decide) 1 1 (by decide) (by decide)

/-- Directions with the same name, as directions that start with the same patch get. -/
def twiceEnv : Env ℚ := { exEnv with names := ["a", "a"], reused := [false, false] }

/-- Whether a run ends in undefined behaviour. -/
def isUb (r : Except Err (St ℚ)) : Bool :=
  match r with
  | .error .ub => true
  | _ => false

/-- Two directions with the same name share their model data: without subtraction the second one finds
no model data at all. -/
theorem same_name_fails : isUb (run { twiceEnv with subtract := false } [exBuf 1]) = true := by
  decide +kernel

end DP3.DdeCal
