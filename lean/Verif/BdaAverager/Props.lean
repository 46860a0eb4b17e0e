import Verif.BdaAverager.Lemmas
import Mathlib.Algebra.Field.Rat
import Mathlib.Algebra.Order.Ring.Rat
import Mathlib.Algebra.Order.BigOperators.Group.List

/-! Properties C10 and C11 (baseline-dependent averaging). -/

namespace DP3.BdaAverager

variable {F D : Type} [Field F] [LinearOrder F] [IsStrictOrderedRing F] [AddCommGroup D] [Module F D]

/-! ### Specification -/

/-- Input channels of output channel `och`: those from `och * nIn / nOut` up to
`(och + 1) * nIn / nOut`. -/
def inputChannels (nIn nOut och : Nat) : List Nat :=
  (List.range nIn).filter fun ich => och * nIn / nOut ≤ ich && ich < (och + 1) * nIn / nOut

/-- The inputs (weight and value) of an output visibility: the unflagged samples
of the given slots and input channels; all of them with weight one when the step
ignores weights and flags. -/
def inputs (c : Config F) (name : String) (b corr : Nat) (chans : List Nat)
    (times : List (Slot F D)) : List (F × D) :=
  times.flatMap fun s =>
    (chans.filter fun ich => !(c.useWeightsAndFlags && s.flag b ich corr)).map fun ich =>
      (if c.useWeightsAndFlags then s.weight b ich corr else 1, s.data name b ich corr)

/-- Total weight. -/
def sumWeights (l : List (F × D)) : F := (l.map Prod.fst).sum

/-- Weighted mean (zero if the total weight is zero). -/
def weightedMean (l : List (F × D)) : D :=
  if sumWeights l = 0 then 0 else (sumWeights l)⁻¹ • (l.map fun p => p.1 • p.2).sum

/-- `r` is the average of baseline `b` over the slots `times`, apart from the UVW
coordinates. -/
structure IsAverage (c : Config F) (b : Nat) (bl : Baseline) (times : List (Slot F D)) (r : Row F D) :
    Prop where
  baseline : r.baseline = b
  nChan : r.nChan = bl.nChan
  interval : r.interval = (times.length : F) * c.timeInterval
  /-- The row starts where the interval of its first slot starts. -/
  start : ∀ s rest, times = s :: rest →
    r.time - r.interval / 2 = s.time - c.timeInterval / 2
  exposure : r.exposure = (times.map Slot.exposure).sum
  weight : ∀ name, ∀ och < bl.nChan, ∀ corr, r.weight och corr =
    sumWeights (inputs c name b corr (inputChannels c.nChan bl.nChan och) times)
  data : ∀ name, ∀ och < bl.nChan, ∀ corr, r.data name och corr =
    weightedMean (inputs c name b corr (inputChannels c.nChan bl.nChan och) times)

/-- The slots among the calls. -/
def slotsOf (calls : List (Call F D)) : List (Slot F D) :=
  calls.filterMap fun
    | .slot s => some s
    | .request _ => none

/-- Every requested buffer size can hold any row. -/
def RequestsFit (c : Config F) (calls : List (Call F D)) : Prop :=
  ∀ n, Call.request n ∈ calls → ∀ bl ∈ c.baselines, bl.nChan * c.nCorr ≤ n

/-! ### Channel groups -/

omit [Field F] [LinearOrder F] [IsStrictOrderedRing F] [AddCommGroup D] [Module F D] in
/-- C10: with at least one and at most `nIn` output channels, every input channel
is in the group of exactly one output channel and no group is empty. -/
theorem channel_in_one_group (nIn nOut : Nat) (h1 : 0 < nOut) (h2 : nOut ≤ nIn) :
    (∀ ich < nIn, ∃ och < nOut, ich ∈ inputChannels nIn nOut och ∧
      ∀ och', ich ∈ inputChannels nIn nOut och' → och' = och) ∧
    ∀ och < nOut, inputChannels nIn nOut och ≠ [] := by
  have mono : ∀ i j, i ≤ j → i * nIn / nOut ≤ j * nIn / nOut := fun i j h =>
    Nat.div_le_div_right (Nat.mul_le_mul_right _ h)
  have strict : ∀ i, i * nIn / nOut < (i + 1) * nIn / nOut := by
    intro i
    have hk : (i * nIn + nOut) / nOut = i * nIn / nOut + 1 := Nat.add_div_right _ h1
    have : (i * nIn + nOut) / nOut ≤ (i + 1) * nIn / nOut := by
      apply Nat.div_le_div_right
      rw [Nat.add_mul]; omega
    omega
  have hlast : nOut * nIn / nOut = nIn := Nat.mul_div_cancel_left _ h1
  constructor
  · intro ich hich
    -- the group is found by induction on the number of output channels considered
    have find : ∀ k ≤ nOut, ich < k * nIn / nOut →
        ∃ och < k, och * nIn / nOut ≤ ich ∧ ich < (och + 1) * nIn / nOut := by
      intro k
      induction k with
      | zero => intro _ h; simp at h
      | succ k ih =>
        intro hk h
        by_cases hlt : ich < k * nIn / nOut
        · obtain ⟨o, ho, h3⟩ := ih (by omega) hlt
          exact ⟨o, by omega, h3⟩
        · exact ⟨k, by omega, by omega, h⟩
    obtain ⟨och, ho, h3, h4⟩ := find nOut (Nat.le_refl _) (by rw [hlast]; exact hich)
    refine ⟨och, ho, ?_, ?_⟩
    · simp only [inputChannels, List.mem_filter, List.mem_range, hich, true_and, Bool.and_eq_true,
        decide_eq_true_eq]
      exact ⟨h3, h4⟩
    · intro o' h'
      simp only [inputChannels, List.mem_filter, List.mem_range, hich, true_and, Bool.and_eq_true,
        decide_eq_true_eq] at h'
      rcases Nat.lt_trichotomy o' och with h | h | h
      · have := mono (o' + 1) och h; omega
      · exact h
      · have := mono (och + 1) o' h; omega
  · intro och ho h0
    have hmem : och * nIn / nOut ∈ inputChannels nIn nOut och := by
      have hs := strict och
      have hm := mono (och + 1) nOut ho
      simp only [inputChannels, List.mem_filter, List.mem_range, Bool.and_eq_true,
        decide_eq_true_eq]
      refine ⟨by omega, Nat.le_refl _, hs⟩
    rw [h0] at hmem
    cases hmem

omit [IsStrictOrderedRing F] in
/-- C10: the number of output channels chosen from the baseline length is at least
one and at most the number of input channels when `minchannels` is. -/
theorem outputChannels_bounds (base : F) (ceilChannels nIn minChannels : Nat)
    (h1 : 0 < minChannels) (h2 : minChannels ≤ nIn) :
    0 < outputChannels base ceilChannels nIn minChannels ∧
      outputChannels base ceilChannels nIn minChannels ≤ nIn := by
  unfold outputChannels
  repeat' split
  all_goals omega

/-- C10, negation: with `minchannels` zero a baseline of length zero gets no
output channel at all (division by zero at steps/BDAAverager.cc:42), and with
`minchannels` above the number of channels it gets more than there are. -/
theorem outputChannels_out_of_bounds :
    outputChannels (1 : Rat) 0 8 0 = 0 ∧ outputChannels (1 : Rat) 1 8 10 = 10 := by
  decide +kernel

omit [IsStrictOrderedRing F] in
/-- The time averaging factor chosen from the baseline length is at least one. -/
theorem timeFactor_pos (maxInterval interval : F) (byLength byInterval : Nat) :
    0 < timeFactor maxInterval interval byLength byInterval := by
  unfold timeFactor; simp only; omega

/-! ### Values -/

private theorem group_eq (nIn nOut och : Nat) (h1 : 0 < nOut) (hoch : och < nOut) :
    channelGroup nIn nOut och = inputChannels nIn nOut och := by
  unfold channelGroup inputChannels channelIndex
  have hle : (och + 1) * nIn / nOut ≤ nIn := by
    have : (och + 1) * nIn / nOut ≤ nOut * nIn / nOut :=
      Nat.div_le_div_right (Nat.mul_le_mul_right _ hoch)
    rwa [Nat.mul_div_cancel_left _ h1] at this
  generalize och * nIn / nOut = lo at *
  generalize (och + 1) * nIn / nOut = hi at *
  have gen : ∀ n, (List.range n).filter (fun ich => decide (lo ≤ ich) && decide (ich < hi)) =
      (List.range (min n hi - lo)).map fun k => lo + k := by
    intro n
    induction n with
    | zero => simp
    | succ n ih =>
      rw [List.range_succ, List.filter_append, ih]
      by_cases h2 : lo ≤ n
      · by_cases h3 : n < hi
        · have e : min (n + 1) hi - lo = (min n hi - lo) + 1 := by omega
          have e2 : lo + (min n hi - lo) = n := by omega
          rw [e, List.range_succ]
          simp [h2, h3, e2]
        · have e : min (n + 1) hi - lo = min n hi - lo := by omega
          rw [e]; simp [h3]
      · have e : min (n + 1) hi - lo = 0 := by omega
        have e2 : min n hi - lo = 0 := by omega
        simp [e, e2, h2]
  rw [gen nIn]
  congr 2
  omega

omit [LinearOrder F] [IsStrictOrderedRing F] in
private theorem foldl_add {A : Type} [AddCommMonoid A] (l : List Nat) (p : Nat → Bool) (f : Nat → A)
    (a : A) :
    l.foldl (fun acc i => if p i then acc else acc + f i) a =
      a + ((l.filter fun i => !p i).map f).sum := by
  induction l generalizing a with
  | nil => simp
  | cons x xs ih =>
    simp only [List.foldl_cons, List.filter_cons]
    rw [ih]
    cases p x <;> simp [add_assoc]

omit [LinearOrder F] [IsStrictOrderedRing F] in
private theorem bbOf_weight (c : Config F) (name : String) (b : Nat) (bl : Baseline)
    (l : List (Slot F D)) (och corr : Nat) :
    (bbOf c b bl l).weight och corr =
      sumWeights (inputs c name b corr (channelGroup c.nChan bl.nChan och) l) ∧
    (bbOf c b bl l).data name och corr =
      ((inputs c name b corr (channelGroup c.nChan bl.nChan och) l).map fun p => p.1 • p.2).sum := by
  induction l using List.reverseRecOn with
  | nil => simp [bbOf, BaselineBuffer.clear, inputs, sumWeights]
  | append_singleton l s ih =>
    rw [bbOf_append]
    cases hu : c.useWeightsAndFlags with
    | false =>
      have e1 := foldl_add (channelGroup c.nChan bl.nChan och) (fun _ => false) (fun _ => (1 : F))
        ((bbOf c b bl l).weight och corr)
      have e2 := foldl_add (channelGroup c.nChan bl.nChan och) (fun _ => false)
        (fun ich => s.data name b ich corr) ((bbOf c b bl l).data name och corr)
      simp only [Bool.false_eq_true, if_false, Bool.not_false] at e1 e2
      constructor
      · simp only [accumulate, hu, Bool.false_eq_true, if_false]
        rw [e1, ih.1]
        simp [sumWeights, inputs, hu, Function.comp_def]
      · simp only [accumulate, hu, Bool.false_eq_true, if_false]
        rw [e2, ih.2]
        simp [inputs, hu, Function.comp_def]
    | true =>
      have e1 := foldl_add (channelGroup c.nChan bl.nChan och) (fun ich => s.flag b ich corr)
        (fun ich => s.weight b ich corr) ((bbOf c b bl l).weight och corr)
      have e2 := foldl_add (channelGroup c.nChan bl.nChan och) (fun ich => s.flag b ich corr)
        (fun ich => s.weight b ich corr • s.data name b ich corr) ((bbOf c b bl l).data name och corr)
      constructor
      · simp only [accumulate, hu, if_true]
        rw [e1, ih.1]
        simp [sumWeights, inputs, hu, Function.comp_def]
      · simp only [accumulate, hu, if_true]
        rw [e2, ih.2]
        simp [inputs, hu, Function.comp_def]

omit [AddCommGroup D] [Module F D] in
private theorem inputs_nonneg (c : Config F) (name : String) (b corr : Nat) (chans : List Nat)
    (l : List (Slot F D)) (hw : ∀ s ∈ l, ∀ b ch co, 0 ≤ s.weight b ch co) :
    ∀ p ∈ inputs c name b corr chans l, 0 ≤ p.1 := by
  intro p hp
  simp only [inputs, List.mem_flatMap, List.mem_map] at hp
  obtain ⟨s, hs, ich, -, rfl⟩ := hp
  simp only
  split
  · exact hw s hs _ _ _
  · exact zero_le_one

private theorem mean_of_nonneg (l : List (F × D)) (h : ∀ p ∈ l, 0 ≤ p.1) :
    (if sumWeights l > 0 then (sumWeights l)⁻¹ • (l.map fun p => p.1 • p.2).sum
      else (l.map fun p => p.1 • p.2).sum) = weightedMean l := by
  have hnn : 0 ≤ sumWeights l := by
    unfold sumWeights
    apply List.sum_nonneg
    intro x hx
    obtain ⟨p, hp, rfl⟩ := List.mem_map.1 hx
    exact h p hp
  unfold weightedMean
  by_cases h0 : sumWeights l = 0
  · rw [if_neg (by rw [h0]; exact lt_irrefl _), if_pos h0]
    have hz : ∀ p ∈ l, p.1 = 0 := by
      have gen : ∀ l : List (F × D), (∀ p ∈ l, 0 ≤ p.1) → sumWeights l = 0 → ∀ p ∈ l, p.1 = 0 := by
        intro l
        induction l with
        | nil => intro _ _ p hp; cases hp
        | cons x xs ih =>
          intro hl hs p hp
          have hx := hl x (by simp)
          have hxs : 0 ≤ sumWeights xs := by
            unfold sumWeights
            apply List.sum_nonneg
            intro y hy
            obtain ⟨q, hq, rfl⟩ := List.mem_map.1 hy
            exact hl q (by simp [hq])
          have hsum : x.1 + sumWeights xs = 0 := by simpa [sumWeights] using hs
          rcases List.mem_cons.1 hp with rfl | hp
          · linarith
          · exact ih (fun q hq => hl q (by simp [hq])) (by linarith) p hp
      exact gen l h h0
    have : (l.map fun p => p.1 • p.2) = l.map fun _ => (0 : D) := by
      apply List.map_congr_left
      intro p hp
      rw [hz p hp, zero_smul]
    rw [this]
    simp
  · rw [if_pos (lt_of_le_of_ne hnn (Ne.symm h0)), if_neg h0]

private theorem isAverage_makeRow (c : Config F) (b : Nat) (bl : Baseline) (nr : Nat)
    (hn : 0 < bl.nChan) (times : List (Slot F D))
    (hw : ∀ s ∈ times, ∀ b ch co, 0 ≤ s.weight b ch co) :
    IsAverage c b bl times (makeRow c b bl nr (bbOf c b bl times)) where
  baseline := rfl
  nChan := rfl
  interval := (bbOf_times c b bl times).2.1
  start := by
    intro s rest h
    have := (bbOf_times c b bl times).2.2.2.1 s rest h
    simp only [makeRow, this]
    ring
  exposure := (bbOf_times c b bl times).2.2.1
  weight := by
    intro name och hoch corr
    rw [← group_eq _ _ _ hn hoch]
    exact (bbOf_weight c name b bl times och corr).1
  data := by
    intro name och hoch corr
    rw [← group_eq _ _ _ hn hoch]
    have := bbOf_weight c name b bl times och corr
    simp only [makeRow, this.1, this.2]
    exact mean_of_nonneg _ (inputs_nonneg c name b corr _ times hw)

/-! ### The whole run -/

private theorem run_core (c : Config F) (hti : c.tolerance ≤ c.timeInterval) (htol : 0 ≤ c.tolerance)
    (hcorr : 0 < c.nCorr) (hbl : ∀ bl ∈ c.baselines, 0 < bl.timeFactor ∧ 0 < bl.nChan)
    (calls : List (Call F D)) (t0 : F) (hreg : Regular t0 c.timeInterval (slotsOf calls))
    (hfit : RequestsFit c calls) :
    ∃ outs, run c calls = some outs ∧
      ((outs.flatMap (·.rows)).map Row.rowNr = List.range (outs.flatMap (·.rows)).length) ∧
      ∀ b bl, c.baselines[b]? = some bl →
        RowsAre c b bl (outs.flatMap (·.rows)) (slotsOf calls)
          (((slotsOf calls).length + bl.timeFactor - 1) / bl.timeFactor) := by
  have hT : ∀ bl ∈ c.baselines, 0 < bl.timeFactor := fun bl h => (hbl bl h).1
  have hti0 : 0 ≤ c.timeInterval := le_trans htol hti
  -- the calls
  have hcalls : ∀ (calls done : List (Call F D)) (st : State F D),
      Regular t0 c.timeInterval (slotsOf (done ++ calls)) → RequestsFit c (done ++ calls) →
      Inv c (t0 + ((slotsOf done).length - 1 : Nat) * c.timeInterval - c.timeInterval / 2)
        (fun _ => slotsOf done) st →
      ∃ st', calls.foldlM (call c) st = some st' ∧
        Inv c (t0 + ((slotsOf (done ++ calls)).length - 1 : Nat) * c.timeInterval - c.timeInterval / 2)
          (fun _ => slotsOf (done ++ calls)) st' := by
    intro calls
    induction calls with
    | nil => intro done st _ _ h; exact ⟨st, rfl, by simpa using h⟩
    | cons x xs ih =>
      intro done st hreg hfit h
      have happ : done ++ x :: xs = (done ++ [x]) ++ xs := by simp
      have hstep : ∃ st1, call c st x = some st1 ∧
          Inv c (t0 + ((slotsOf (done ++ [x])).length - 1 : Nat) * c.timeInterval - c.timeInterval / 2)
            (fun _ => slotsOf (done ++ [x])) st1 := by
        cases x with
        | slot s =>
          have hs : slotsOf (done ++ [Call.slot s]) = slotsOf done ++ [s] := by simp [slotsOf]
          have hreg' : Regular t0 c.timeInterval (slotsOf done ++ [s]) := by
            rw [happ] at hreg
            have : slotsOf ((done ++ [Call.slot s]) ++ xs) = (slotsOf done ++ [s]) ++ slotsOf xs := by
              simp [slotsOf]
            rw [this] at hreg
            exact hreg.prefix
          have h' : Inv c (t0 + ((slotsOf done).length : F) * c.timeInterval - c.timeInterval / 2)
              (fun _ => slotsOf done) st := by
            apply h.mono
            have : (((slotsOf done).length - 1 : Nat) : F) ≤ ((slotsOf done).length : F) := by
              exact_mod_cast Nat.sub_le _ _
            have := mul_le_mul_of_nonneg_right this hti0
            linarith
          obtain ⟨st', h1, h2⟩ := process_ok c hti htol hT h' hreg'
          refine ⟨st', h1, ?_⟩
          rw [hs]
          simpa using h2
        | request n =>
          have hs : slotsOf (done ++ [Call.request n]) = slotsOf done := by simp [slotsOf]
          refine ⟨_, rfl, ?_⟩
          rw [hs]
          refine ⟨⟨h.out.capacity, ?_, h.out.starts, h.out.rowNrs, h.out.chans⟩, h.buf, h.rows⟩
          intro m hm
          rcases List.mem_append.1 hm with hm | hm
          · exact h.out.requests m hm
          · simp only [List.mem_singleton] at hm
            subst hm
            exact hfit m (by simp)
      obtain ⟨st1, h1, h2⟩ := hstep
      obtain ⟨st', h3, h4⟩ := ih (done ++ [x]) st1 (by rw [← happ]; exact hreg)
        (by rw [← happ]; exact hfit) h2
      refine ⟨st', ?_, by rw [happ]; exact h4⟩
      rw [List.foldlM_cons, h1]
      exact h3
  have hinit : Inv c (t0 + ((slotsOf ([] : List (Call F D))).length - 1 : Nat) * c.timeInterval -
      c.timeInterval / 2) (fun _ => slotsOf []) (State.init : State F D) := by
    refine ⟨⟨?_, ?_, ?_, ?_, ?_⟩, ?_, ?_⟩
    · intro o h; cases h
    · intro n h; cases h
    · intro o h; cases h
    · rfl
    · intro r h; simp [allRows, State.init] at h
    · intro b bl _; simp [State.init, slotsOf, pending, bbOf]
    · intro b bl _
      refine ⟨?_, ?_⟩
      · simp [allRows, State.init, slotsOf]
      · intro i r h
        simp [allRows, State.init] at h
  obtain ⟨st, h1, h2⟩ := hcalls calls [] State.init (by simpa using hreg) (by simpa using hfit) hinit
  simp only [List.nil_append] at h2
  obtain ⟨st2, h3, h4, -, h5⟩ := finishLoop_ok c hti htol hT h2
    (by intro h; have := List.length_pos_iff.2 h; omega) hreg c.baselines.length
  -- the rows of the final state are all sent
  have hsent : ∃ outs, run c calls = some outs ∧ outs.flatMap (·.rows) = allRows st2 := by
    unfold run
    rw [h1]
    simp only [Option.bind_eq_bind, Option.bind_some, finish, h3]
    refine ⟨_, rfl, ?_⟩
    cases hc : st2.current with
    | none => simp [allRows, hc]
    | some o =>
      by_cases hz : o.capacity - o.remaining > 0
      · simp only [hz, if_true, send, allRows, hc]
      · simp only [hz, if_false, allRows, hc]
        have hcap := h4.capacity o hc
        have hsum : (o.rows.map fun r => r.nChan * c.nCorr).sum = 0 := by omega
        have hnil : o.rows = [] := by
          cases hr : o.rows with
          | nil => rfl
          | cons r rs =>
            exfalso
            obtain ⟨bl, hb1, hb2⟩ := h4.chans r (by simp [allRows, hc, hr])
            have hp : 0 < r.nChan * c.nCorr := by
              rw [hb2]; exact Nat.mul_pos (hbl bl hb1).2 hcorr
            rw [hr] at hsum
            simp only [List.map_cons, List.sum_cons] at hsum
            omega
        simp [hnil]
  obtain ⟨outs, ho, hrows⟩ := hsent
  refine ⟨outs, ho, ?_, ?_⟩
  · rw [hrows, h4.rowNrs]
    have := congrArg List.length h4.rowNrs
    simp only [List.length_map, List.length_range] at this
    rw [this]
  · intro b bl hb
    rw [hrows]
    exact h5 b bl hb (List.getElem?_eq_some_iff.1 hb).1

/-- C10: for regular input with a slot interval above the ordering tolerance and
size requests that can hold any row, every row can be added, rows are numbered
consecutively in order of emission, and for every baseline with time factor T the
rows are, in order, the averages over the slots 0..T-1, T..2T-1, ..., the last
chunk possibly shorter: ceil(N/T) rows. -/
theorem rows_of_baseline (c : Config F) (hti : c.tolerance ≤ c.timeInterval) (htol : 0 ≤ c.tolerance)
    (hcorr : 0 < c.nCorr) (hbl : ∀ bl ∈ c.baselines, 0 < bl.timeFactor ∧ 0 < bl.nChan)
    (calls : List (Call F D)) (t0 : F) (hreg : Regular t0 c.timeInterval (slotsOf calls))
    (hw : ∀ s ∈ slotsOf calls, ∀ b ch co, 0 ≤ s.weight b ch co)
    (hfit : RequestsFit c calls) :
    ∃ outs, run c calls = some outs ∧
      (outs.flatMap (·.rows)).map Row.rowNr = List.range (outs.flatMap (·.rows)).length ∧
      ∀ b bl, c.baselines[b]? = some bl →
        ((outs.flatMap (·.rows)).filter (fun r => r.baseline == b)).length =
          ((slotsOf calls).length + bl.timeFactor - 1) / bl.timeFactor ∧
        ∀ i r, ((outs.flatMap (·.rows)).filter (fun r => r.baseline == b))[i]? = some r →
          IsAverage c b bl (chunk bl.timeFactor i (slotsOf calls)) r := by
  obtain ⟨outs, h1, h2, h3⟩ := run_core c hti htol hcorr hbl calls t0 hreg hfit
  refine ⟨outs, h1, h2, ?_⟩
  intro b bl hb
  refine ⟨(h3 b bl hb).1, ?_⟩
  intro i r hr
  obtain ⟨nr, rfl⟩ := (h3 b bl hb).2 i r hr
  refine isAverage_makeRow c b bl nr (hbl bl (List.mem_of_getElem? hb)).2 _ ?_
  intro s hs
  exact hw s (List.mem_of_mem_drop (List.mem_of_mem_take hs))

/-- C11, partial: the UVW coordinates of a row are the mean of those of its slots
if the row has any weight.  Missing: rows without weight, where the claim is
false (`uvw_not_mean`). The weight and value claims are in `rows_of_baseline`. -/
theorem uvw_mean_partial (c : Config F) (hti : c.tolerance ≤ c.timeInterval) (htol : 0 ≤ c.tolerance)
    (hcorr : 0 < c.nCorr) (hbl : ∀ bl ∈ c.baselines, 0 < bl.timeFactor ∧ 0 < bl.nChan)
    (calls : List (Call F D)) (t0 : F) (hreg : Regular t0 c.timeInterval (slotsOf calls))
    (hfit : RequestsFit c calls) :
    ∃ outs, run c calls = some outs ∧
      ∀ b bl, c.baselines[b]? = some bl →
        ∀ i r, ((outs.flatMap (·.rows)).filter (fun r => r.baseline == b))[i]? = some r →
          0 < ((List.range bl.nChan).map fun och =>
            ((List.range c.nCorr).map fun corr => r.weight och corr).sum).sum →
          ∀ k, r.uvw k = ((chunk bl.timeFactor i (slotsOf calls)).map fun s => s.uvw b k).sum /
            ((chunk bl.timeFactor i (slotsOf calls)).length : F) := by
  obtain ⟨outs, h1, -, h3⟩ := run_core c hti htol hcorr hbl calls t0 hreg hfit
  refine ⟨outs, h1, ?_⟩
  intro b bl hb i r hr hpos k
  obtain ⟨nr, rfl⟩ := (h3 b bl hb).2 i r hr
  have ht := bbOf_times c b bl (chunk bl.timeFactor i (slotsOf calls))
  have hpos' : totalWeight bl.nChan c.nCorr
      (bbOf c b bl (chunk bl.timeFactor i (slotsOf calls))).weight > 0 := hpos
  simp only [makeRow]
  rw [if_pos hpos', ht.2.2.2.2 k, ht.1, mul_one_div]

/-! ### Examples and witnesses -/

/-- Two baselines, two channels, one correlation: the first baseline averages two
slots and both channels, the second keeps full resolution. -/
def exampleConfig : Config Rat :=
  ⟨2, 1, 10, 1 / 500000, true, [⟨2, 1⟩, ⟨1, 2⟩], 3⟩

/-- Slot number `k`; baseline 0 is flagged if `flagged`. -/
def exampleSlot (flagged : Bool) (k : Nat) : Slot Rat Rat :=
  ⟨100 + 10 * k, 10, fun b i => b + i + k, fun _ _ ch _ => k + ch, fun _ ch _ => ch + 1,
    fun b _ _ => flagged && b == 0⟩

/-- Three slots, with a request for a buffer of two elements after the first. -/
def exampleCalls (flagged : Bool) (size : Nat) : List (Call Rat Rat) :=
  [.slot (exampleSlot flagged 0), .request size, .slot (exampleSlot flagged 1),
   .slot (exampleSlot flagged 2)]

example : exampleConfig.tolerance ≤ exampleConfig.timeInterval ∧ 0 ≤ exampleConfig.tolerance ∧
    0 < exampleConfig.nCorr ∧ (∀ bl ∈ exampleConfig.baselines, 0 < bl.timeFactor ∧ 0 < bl.nChan) ∧
    Regular 100 exampleConfig.timeInterval (slotsOf (exampleCalls false 2)) ∧
    (∀ s ∈ slotsOf (exampleCalls false 2), ∀ b ch co, 0 ≤ s.weight b ch co) ∧
    RequestsFit exampleConfig (exampleCalls false 2) := by
  refine ⟨by decide +kernel, by decide +kernel, by decide, by decide, ?_, ?_, ?_⟩
  · intro i s h
    simp only [slotsOf, exampleCalls, List.filterMap_cons, List.filterMap_nil] at h
    rcases i with _ | _ | _ | i <;> simp at h <;> subst h <;> simp [exampleSlot, exampleConfig] <;>
      norm_num
  · intro s h b ch co
    simp only [slotsOf, exampleCalls, List.filterMap_cons, List.filterMap_nil, List.mem_cons,
      List.not_mem_nil, or_false] at h
    rcases h with rfl | rfl | rfl <;> simp only [exampleSlot] <;> positivity
  · intro n h bl hb
    simp only [exampleCalls, List.mem_cons, reduceCtorEq, Call.request.injEq, List.not_mem_nil,
      or_false, false_or] at h
    subst h
    simp only [exampleConfig, List.mem_cons, List.not_mem_nil, or_false] at hb
    rcases hb with rfl | rfl <;> decide

/-- The rows of the example: number of rows in each emitted buffer, and weight,
value, interval and first UVW coordinate of the rows of baseline 0. -/
example : (run exampleConfig (exampleCalls false 2)).map (fun outs =>
      (outs.map fun o => o.rows.length,
       ((outs.flatMap (·.rows)).filter (fun r => r.baseline == 0)).map fun r =>
        (r.weight 0 0, r.data "" 0 0, r.interval, r.uvw 0))) =
    some ([2, 1, 2], [(6, 7 / 6, 20, 1 / 2), (3, 8 / 3, 10, 2)]) := by
  decide +kernel

/-- C11, negation: the UVW coordinates of a fully flagged row are the sum of those
of its slots, not the mean. -/
theorem uvw_not_mean :
    (run exampleConfig (exampleCalls true 2)).map (fun outs =>
      (((outs.flatMap (·.rows)).filter (fun r => r.baseline == 0)).map fun r =>
        (r.weight 0 0, r.uvw 0))) = some [(0, 1), (0, 2)] ∧
    ((chunk 2 0 (slotsOf (exampleCalls true 2))).map fun s => s.uvw 0 0) = [0, 1] := by
  decide +kernel

/-- C10, negation: after a request for a buffer that is smaller than a row, the
row is not added and the step accesses a row that does not exist. -/
theorem small_request_fails : run exampleConfig (exampleCalls false 1) = none := by
  have h : (run exampleConfig (exampleCalls false 1)).isNone = true := by decide +kernel
  simpa using h

end DP3.BdaAverager
