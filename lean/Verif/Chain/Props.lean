import Verif.Chain.Spec

/-! Properties C03, C04, C05 and C54 (field bookkeeping of a step chain). -/

namespace DP3.Chain

/-! ### C03 -/

/-- C03: a field is reported as required exactly when some step needs it and no
step before that one creates it. -/
theorem chainRequired_iff (chain : List Step) (f : Field) :
    chainRequired chain f = true ↔
      ∃ before s after, chain = before ++ s :: after ∧ s.required f = true ∧
        ∀ p ∈ before, ¬ Creates p f := by
  induction chain with
  | nil => simp [chainRequired, Fields.none]
  | cons a c ih =>
    have key : chainRequired (a :: c) f = true ↔
        a.required f = true ∨ (chainRequired c f = true ∧ ¬ Creates a f) := by
      simp only [chainRequired, Fields.updateRequirements, Creates]
      cases chainRequired c f <;> cases a.required f <;> cases a.provided f <;> simp
    rw [key, ih]
    constructor
    · rintro (h | ⟨⟨b, s, d, rfl, hs, hb⟩, hc⟩)
      · exact ⟨[], a, c, rfl, h, by simp⟩
      · refine ⟨a :: b, s, d, rfl, hs, ?_⟩
        intro p hp
        rcases List.mem_cons.1 hp with rfl | hp
        · exact hc
        · exact hb p hp
    · rintro ⟨b, s, d, heq, hs, hb⟩
      cases b with
      | nil =>
        simp only [List.nil_append, List.cons.injEq] at heq
        left; rw [heq.1]; exact hs
      | cons x b =>
        simp only [List.cons_append, List.cons.injEq] at heq
        right
        refine ⟨⟨b, s, d, heq.2, hs, fun p hp => hb p (List.mem_cons_of_mem _ hp)⟩, ?_⟩
        rw [heq.1]
        exact hb x List.mem_cons_self

/-- A Split requires exactly what one of its sub-chains requires. -/
theorem split_required_iff (subs : List (List Step)) (f : Field) :
    (Step.split subs).required f = true ↔ ∃ c ∈ subs, chainRequired c f = true := by
  simp only [Step.required]
  induction subs with
  | nil => simp [chainsRequired, Fields.none]
  | cons c cs ih => simp [chainsRequired, Fields.union, ih]

/-- data := created from uvw, then flags from data, then written. -/
def exampleChain : List Step :=
  [.plain (Fields.single .uvw) (Fields.single .data),
   .plain (Fields.single .data) (Fields.single .flags),
   .split [[.writer (Fields.single .weights) Fields.none],
           [.plain (Fields.single .data) (Fields.single .weights),
            .updater (Fields.single .data) Fields.none]]]

example : chainRequired exampleChain .data = false ∧ chainRequired exampleChain .uvw = true ∧
    chainRequired exampleChain .weights = true := by decide

/-! ### C04 -/

mutual
private theorem step_visits_iff (a : Fields) : (s : Step) →
    ((∀ v ∈ s.visits a, Subset v.2 v.1) ↔ Subset s.required a)
  | .plain r p => by simp [Step.visits, Step.required]
  | .writer r p => by simp [Step.visits, Step.required]
  | .updater r p => by
    simp only [Step.visits, Step.required, List.mem_singleton, forall_eq, Subset]
    constructor
    · intro h f hf
      cases f <;> simp_all [updaterRequired]
    · intro h f hf
      cases f <;> simp_all [updaterRequired]
  | .split subs => by
    simp only [Step.visits, Step.required]
    exact visitsAll_iff a subs

private theorem visits_iff (a : Fields) : (c : List Step) →
    ((∀ v ∈ visits a c, Subset v.2 v.1) ↔ Subset (chainRequired c) a)
  | [] => by simp [visits, chainRequired, Subset, Fields.none]
  | s :: c => by
    have h1 := step_visits_iff a s
    have h2 := visits_iff (fun f => a f || s.provided f) c
    simp only [visits, List.mem_append, or_imp, forall_and, h1, h2]
    simp only [Subset, chainRequired, Fields.updateRequirements]
    constructor
    · rintro ⟨hr, hc⟩ f hf
      have := hr f; have := hc f
      cases h : a f <;> cases h' : s.required f <;> cases h'' : s.provided f <;> simp_all
    · intro h
      refine ⟨fun f hf => h f (by simp [hf]), fun f hf => ?_⟩
      have := h f
      cases h' : s.required f <;> cases h'' : s.provided f <;> simp_all

private theorem visitsAll_iff (a : Fields) : (cs : List (List Step)) →
    ((∀ v ∈ visitsAll a cs, Subset v.2 v.1) ↔ Subset (chainsRequired cs) a)
  | [] => by simp [visitsAll, chainsRequired, Subset, Fields.none]
  | c :: cs => by
    have h1 := visits_iff a c
    have h2 := visitsAll_iff a cs
    simp only [visitsAll, List.mem_append, or_imp, forall_and, h1, h2]
    simp only [Subset, chainsRequired, Fields.union, Bool.or_eq_true, or_imp, forall_and]
end

/-- C04: a chain works on data with a given set of fields, that is each of its
steps (also inside Splits) finds all fields it needs, exactly when the set
contains the fields that `GetChainRequiredFields` reports. -/
theorem runsWith_iff (available : Fields) (chain : List Step) :
    RunsWith available chain ↔ Subset (chainRequired chain) available :=
  visits_iff available chain

/-- C04: with the reported fields loaded every step finds its fields. -/
theorem runsWith_chainRequired (chain : List Step) : RunsWith (chainRequired chain) chain :=
  (runsWith_iff _ _).2 fun _ h => h

/-- C04, minimality: without one of the reported fields some step misses a field. -/
theorem not_runsWith_of_missing (chain : List Step) (available : Fields) (f : Field)
    (h : chainRequired chain f = true) (hm : available f = false) :
    ¬ RunsWith available chain := by
  rw [runsWith_iff]
  intro hs
  have := hs f h
  simp [hm] at this

example : chainRequired exampleChain .uvw = true ∧ (Fields.single .data) .uvw = false := by decide

/-! ### C05 -/

private theorem provided_of_plain {s : Step} (h : s.isOutput = false) :
    s.event = .provides s.provided ∧ ∀ hist, s.outputs hist = [] := by
  cases s with
  | plain r p => exact ⟨rfl, fun _ => by simp [Step.outputs]⟩
  | writer => cases h
  | updater => cases h
  | split => cases h

private theorem event_of_output {s : Step} (h : s.isOutput = true) (fields : Fields) :
    s.event = .output ∧ (s.setFieldsToWrite fields).event = .output := by
  cases s with
  | plain => cases h
  | writer => simp [Step.event, Step.setFieldsToWrite]
  | updater => simp [Step.event, Step.setFieldsToWrite]
  | split => simp [Step.event, Step.setFieldsToWrite]

mutual
private theorem step_told (i : Fields) (h : List Event)
    (hi : ∀ f, i f = true ↔ ProvidedSinceOutput f h) : (s : Step) → s.isOutput = true →
    ∀ o ∈ (s.setFieldsToWrite i).outputs h, ToldToWrite o.1 o.2
  | .plain _ _, ho => by cases ho
  | .writer r w, _ => by
    simp only [Step.setFieldsToWrite, Step.outputs, List.mem_singleton]
    rintro o rfl
    exact hi
  | .updater c w, _ => by
    simp only [Step.setFieldsToWrite, Step.outputs, List.mem_singleton]
    rintro o rfl
    intro f
    cases f <;> simp [updaterToWrite, hi]
  | .split subs, _ => by
    simp only [Step.setFieldsToWrite, Step.outputs]
    exact chains_told i h hi subs

private theorem chain_told (i : Fields) (h : List Event)
    (hi : ∀ f, i f = true ↔ ProvidedSinceOutput f h) : (c : List Step) →
    ∀ o ∈ outputs h (setChain i c), ToldToWrite o.1 o.2
  | [] => by simp [setChain, outputs]
  | s :: c => by
    intro o ho
    simp only [setChain] at ho
    split at ho <;> rename_i hs
    · simp only [outputs, List.mem_append] at ho
      rcases ho with ho | ho
      · exact step_told i h hi s hs o ho
      · refine chain_told Fields.none _ ?_ c o ho
        intro f
        rw [(event_of_output hs i).2]
        simp [Fields.none, ProvidedSinceOutput]
    · have hs' : s.isOutput = false := by simpa using hs
      have hp := provided_of_plain hs'
      simp only [outputs, hp.2 h, List.nil_append] at ho
      refine chain_told (Fields.union i s.provided) _ ?_ c o ho
      intro f
      rw [hp.1]
      simp only [Fields.union, Bool.or_eq_true, ProvidedSinceOutput, hi]
      exact or_comm

private theorem chains_told (i : Fields) (h : List Event)
    (hi : ∀ f, i f = true ↔ ProvidedSinceOutput f h) : (cs : List (List Step)) →
    ∀ o ∈ outputsAll h (setChains i cs), ToldToWrite o.1 o.2
  | [] => by simp [setChains, outputsAll]
  | c :: cs => by
    intro o ho
    simp only [setChains, outputsAll, List.mem_append] at ho
    rcases ho with ho | ho
    · exact chain_told i h hi c o ho
    · exact chains_told i h hi cs o ho
end

private theorem provides_only (i : Fields) (f : Field) :
    i f = true ↔ ProvidedSinceOutput f [.provides i] := by
  simp [ProvidedSinceOutput]

/-- C05: after `SetChainProvidedFields` every output step of the chain (also
inside Splits) is told to write exactly the fields provided by the steps since
the previous output step, or by the initial set if there is none; update steps
additionally write the columns the user named. -/
theorem setChain_toldToWrite (initial : Fields) (chain : List Step) :
    ∀ o ∈ outputs [.provides initial] (setChain initial chain), ToldToWrite o.1 o.2 :=
  chain_told initial _ (provides_only initial) chain

mutual
private theorem step_hist (i : Fields) (h : List Event) : (s : Step) →
    ((s.setFieldsToWrite i).outputs h).map Prod.fst = (s.outputs h).map Prod.fst
  | .plain _ _ => by simp [Step.setFieldsToWrite, Step.outputs]
  | .writer _ _ => by simp [Step.setFieldsToWrite, Step.outputs]
  | .updater _ _ => by simp [Step.setFieldsToWrite, Step.outputs]
  | .split subs => by
    simp only [Step.setFieldsToWrite, Step.outputs]
    exact chains_hist i h subs

private theorem chain_hist (i : Fields) (h : List Event) : (c : List Step) →
    (outputs h (setChain i c)).map Prod.fst = (outputs h c).map Prod.fst
  | [] => by simp [setChain]
  | s :: c => by
    simp only [setChain]
    split <;> rename_i hs
    · have h1 := step_hist i h s
      have h2 := chain_hist Fields.none (.output :: h) c
      simp only [outputs, List.map_append, h1, (event_of_output hs i).1, (event_of_output hs i).2, h2]
    · have h2 := chain_hist (Fields.union i s.provided) (s.event :: h) c
      simp only [outputs, List.map_append, h2]

private theorem chains_hist (i : Fields) (h : List Event) : (cs : List (List Step)) →
    (outputsAll h (setChains i cs)).map Prod.fst = (outputsAll h cs).map Prod.fst
  | [] => by simp [setChains]
  | c :: cs => by
    have h1 := chain_hist i h c
    have h2 := chains_hist i h cs
    simp only [setChains, outputsAll, List.map_append, h1, h2]
end

/-- C05: no output step is lost, added or moved: the same output steps with the
same histories are there before and after. -/
theorem setChain_sameOutputs (initial : Fields) (chain : List Step) (history : List Event) :
    (outputs history (setChain initial chain)).map Prod.fst = (outputs history chain).map Prod.fst :=
  chain_hist initial history chain

/-- C05: the returned set is exactly what was provided after the last output step. -/
theorem chainProvided_iff (initial : Fields) (chain : List Step) (f : Field) :
    chainProvided initial chain f = true ↔
      ProvidedSinceOutput f (historyAfter [.provides initial] chain) := by
  suffices h : ∀ (i : Fields) (h : List Event), (∀ f, i f = true ↔ ProvidedSinceOutput f h) →
      (chainProvided i chain f = true ↔ ProvidedSinceOutput f (historyAfter h chain)) from
    h initial _ (provides_only initial)
  induction chain with
  | nil => intro i h hi; simp [chainProvided, historyAfter, hi]
  | cons s c ih =>
    intro i h hi
    have e : historyAfter h (s :: c) = historyAfter (s.event :: h) c := by
      simp [historyAfter]
    rw [e]
    simp only [chainProvided]
    split <;> rename_i hs
    · apply ih
      intro f
      rw [(event_of_output hs i).1]
      simp [Fields.none, ProvidedSinceOutput]
    · apply ih
      intro f
      rw [(provided_of_plain (by simpa using hs)).1]
      simp only [Fields.union, Bool.or_eq_true, ProvidedSinceOutput, hi]
      exact or_comm

example : (outputs [.provides (Fields.single .uvw)] (setChain (Fields.single .uvw) exampleChain)).length = 2 ∧
    (setChain (Fields.single .uvw) exampleChain).length = 3 ∧
    chainProvided Fields.none (exampleChain.take 2) .flags = true := by decide

/-! ### C05 and C04 for the whole program -/

private theorem mem_setChain_last {i : Fields} {c : List Step} :
    ((setChain i c).getLast?.map Step.isOutput) = (c.getLast?.map Step.isOutput) := by
  induction c generalizing i with
  | nil => simp [setChain]
  | cons s c ih =>
    simp only [setChain]
    split <;> rename_i hs
    · cases c with
      | nil =>
        simp only [setChain, List.getLast?_singleton, Option.map_some]
        cases s <;> simp_all [Step.isOutput, Step.setFieldsToWrite]
      | cons d c =>
        have := ih (i := Fields.none)
        have hne : setChain Fields.none (d :: c) ≠ [] := by
          simp only [setChain]; split <;> simp
        rw [List.getLast?_cons_of_ne_nil hne, this, List.getLast?_cons_cons]
    · cases c with
      | nil => simp [setChain]
      | cons d c =>
        have := ih (i := Fields.union i s.provided)
        have hne : setChain (Fields.union i s.provided) (d :: c) ≠ [] := by
          simp only [setChain]; split <;> simp
        rw [List.getLast?_cons_of_ne_nil hne, this, List.getLast?_cons_cons]

/-- C04 for the main chain: with what the reader is told to read, every step of
the chain that `MakeMainSteps` builds finds the fields it needs. -/
theorem makeMainSteps_runs (steps : List Step) (outNameGiven : Bool) (output : Step) :
    RunsWith (fieldsToRead steps outNameGiven output) (makeMainSteps steps outNameGiven output) :=
  runsWith_chainRequired _

private theorem historyAfter_append (h : List Event) (c d : List Step) :
    historyAfter h (c ++ d) = historyAfter (historyAfter h c) d := by
  simp [historyAfter]

private theorem setChain_events (i : Fields) (c : List Step) :
    (setChain i c).map Step.event = c.map Step.event := by
  induction c generalizing i with
  | nil => simp [setChain]
  | cons s c ih =>
    simp only [setChain]
    split <;> rename_i hs
    · simp [ih, (event_of_output hs i).1, (event_of_output hs i).2]
    · simp [ih]

private theorem outputs_append (h : List Event) (c d : List Step) :
    outputs h (c ++ d) = outputs h c ++ outputs (historyAfter h c) d := by
  induction c generalizing h with
  | nil => simp [outputs, historyAfter]
  | cons s c ih => simp [outputs, ih, historyAfter]

/-- C05 for the main chain: the chain built by `MakeMainSteps` is a part `core`,
possibly followed by a null step.  All output steps in `core` are told to write
exactly what was provided since the previous output step, and nothing that was
provided is left unwritten at the end of `core`. -/
theorem makeMainSteps_nothing_unwritten (steps : List Step) (outNameGiven : Bool) (output : Step)
    (hout : output.isOutput = true) :
    ∃ core, (makeMainSteps steps outNameGiven output = core ∨
        makeMainSteps steps outNameGiven output = core ++ [nullStep]) ∧
      (∀ o ∈ outputs [] core, ToldToWrite o.1 o.2) ∧
      (∀ f, ¬ ProvidedSinceOutput f (historyAfter [] core)) ∧
      core.length ≥ steps.length := by
  have hnone : ∀ f, Fields.none f = true ↔ ProvidedSinceOutput f [] := by
    simp [Fields.none, ProvidedSinceOutput]
  have hlen : ∀ (i : Fields) (c : List Step), (setChain i c).length = c.length := by
    intro i c
    have := congrArg List.length (setChain_events i c)
    simpa using this
  have hhist : historyAfter [] (setChain Fields.none steps) = historyAfter [] steps := by
    simp [historyAfter, setChain_events]
  have hprov : ∀ f, chainProvided Fields.none steps f = true ↔
      ProvidedSinceOutput f (historyAfter [] steps) := by
    intro f
    suffices h : ∀ (i : Fields) (h : List Event), (∀ f, i f = true ↔ ProvidedSinceOutput f h) →
        (chainProvided i steps f = true ↔ ProvidedSinceOutput f (historyAfter h steps)) from
      h _ _ hnone
    intro i h hi
    clear hhist hlen
    induction steps generalizing i h with
    | nil => simp [chainProvided, historyAfter, hi]
    | cons s c ih =>
      have e : historyAfter h (s :: c) = historyAfter (s.event :: h) c := by
        simp [historyAfter]
      rw [e]
      simp only [chainProvided]
      split <;> rename_i hs
      · apply ih
        intro f
        rw [(event_of_output hs i).1]
        simp [Fields.none, ProvidedSinceOutput]
      · apply ih
        intro f
        rw [(provided_of_plain (by simpa using hs)).1]
        simp only [Fields.union, Bool.or_eq_true, ProvidedSinceOutput, hi]
        exact or_comm
  unfold makeMainSteps
  simp only
  generalize hcore : (if (!((setChain Fields.none steps).getLast?.map Step.isOutput).getD false &&
      (outNameGiven || (chainProvided Fields.none steps .data || chainProvided Fields.none steps .flags ||
        chainProvided Fields.none steps .weights || chainProvided Fields.none steps .uvw))) = true then
      setChain Fields.none steps ++ [output.setFieldsToWrite (chainProvided Fields.none steps)]
    else setChain Fields.none steps) = core
  refine ⟨core, ?_, ?_⟩
  · split
    · exact Or.inl rfl
    · exact Or.inr rfl
  rw [mem_setChain_last] at hcore
  split at hcore <;> rename_i hc
  · subst hcore
    refine ⟨?_, ?_, by simp [hlen]⟩
    · intro o ho
      rw [outputs_append] at ho
      rcases List.mem_append.1 ho with ho | ho
      · exact chain_told _ _ hnone steps o ho
      · simp only [outputs, List.append_nil] at ho
        refine step_told _ _ ?_ output hout o ho
        intro f; rw [hhist, hprov]
    · intro f
      rw [historyAfter_append]
      simp [historyAfter, (event_of_output hout _).2, ProvidedSinceOutput]
  · subst hcore
    refine ⟨chain_told _ _ hnone steps, ?_, by simp [hlen]⟩
    intro f
    rw [hhist]
    by_cases hl : (steps.getLast?.map Step.isOutput).getD false = true
    · obtain ⟨pre, last, rfl⟩ : ∃ pre last, steps = pre ++ [last] := by
        rcases List.eq_nil_or_concat steps with h | ⟨pre, last, h⟩
        · subst h; simp at hl
        · exact ⟨pre, last, by simpa using h⟩
      simp only [List.getLast?_append, List.getLast?_singleton] at hl
      simp only [Option.some_or, Option.map_some, Option.getD_some] at hl
      rw [historyAfter_append]
      simp [historyAfter, (event_of_output hl Fields.none).1, ProvidedSinceOutput]
    · rw [← hprov]
      simp only [Bool.not_eq_true] at hl
      simp only [hl, Bool.not_false, Bool.true_and, Bool.or_eq_true, not_or] at hc
      cases f with
      | data => exact hc.2.1.1.1
      | flags => exact hc.2.1.1.2
      | weights => exact hc.2.1.2
      | uvw => exact hc.2.2

example : (Step.updater Fields.none Fields.none).isOutput = true ∧
    (makeMainSteps (exampleChain.take 2) false (.updater Fields.none Fields.none)).length = 4 ∧
    (makeMainSteps exampleChain false (.updater Fields.none Fields.none)).length = 3 ∧
    fieldsToRead (exampleChain.take 2) false (.updater Fields.none Fields.none) .uvw = true ∧
    fieldsToRead (exampleChain.take 2) false (.updater Fields.none Fields.none) .flags = false := by
  decide

/-! ### C54: an update step finds the fields it writes -/

/-- C54 does not hold: with `msin.weightcolumn=WEIGHT` the update step decides to
write data and weights after the reader was told which fields to read.  Here the
only user step is a flagger; the reader loads neither data nor weights, and the
update step writes both. -/
theorem updater_misses_fields :
    ¬ ∀ (steps : List Step) (outNameGiven : Bool) (output : Step) (weightColumnIsWEIGHT : Bool),
      output.isOutput = true →
      RunsWith (fieldsToRead steps outNameGiven output)
        (updateInfo weightColumnIsWEIGHT (makeMainSteps steps outNameGiven output)) := by
  intro h
  have h1 := h [.plain (Fields.single .flags) (Fields.single .flags)] false
    (.updater Fields.none Fields.none) true rfl
  rw [runsWith_iff] at h1
  have h2 := h1 .weights (by decide)
  revert h2
  decide

mutual
private theorem step_updateInfo (b : Bool) : (s : Step) → (h : List Event) →
    (∀ o ∈ s.outputs h, b = false ∨ o.2.namesWeightColumn = true) →
    s.updateInfo b = s
  | .plain _ _, _, _ => by simp [Step.updateInfo]
  | .writer _ _, _, _ => by simp [Step.updateInfo]
  | .updater cols w, h, hn => by
    have := hn (h, .updater cols w) (by simp [Step.outputs])
    simp only [Step.namesWeightColumn] at this
    simp only [Step.updateInfo, updaterWrites]
    rcases this with rfl | hc
    · simp
    · simp [hc]
  | .split subs, h, hn => by
    simp only [Step.updateInfo]
    rw [chains_updateInfo b subs h (by simpa only [Step.outputs] using hn)]

private theorem chain_updateInfo (b : Bool) : (c : List Step) → (h : List Event) →
    (∀ o ∈ outputs h c, b = false ∨ o.2.namesWeightColumn = true) →
    updateInfo b c = c
  | [], _, _ => by simp [updateInfo]
  | s :: c, h, hn => by
    simp only [outputs, List.mem_append] at hn
    simp only [updateInfo]
    rw [step_updateInfo b s h (fun o ho => hn o (Or.inl ho)),
      chain_updateInfo b c _ (fun o ho => hn o (Or.inr ho))]

private theorem chains_updateInfo (b : Bool) : (cs : List (List Step)) → (h : List Event) →
    (∀ o ∈ outputsAll h cs, b = false ∨ o.2.namesWeightColumn = true) →
    updateInfoAll b cs = cs
  | [], _, _ => by simp [updateInfoAll]
  | c :: cs, h, hn => by
    simp only [outputsAll, List.mem_append] at hn
    simp only [updateInfoAll]
    rw [chain_updateInfo b c h (fun o ho => hn o (Or.inl ho)),
      chains_updateInfo b cs h (fun o ho => hn o (Or.inr ho))]
end

/-- C54, the part that holds: if the input weights do not come from the WEIGHT
column, or every update step has its own weight column name, then after
`updateInfo` every step (in particular every update step, for the fields it
writes) finds its fields.  Missing: input from the WEIGHT column without an
explicit output weight column, where the claim is false (above). -/
theorem updater_finds_fields_partial (steps : List Step) (outNameGiven : Bool) (output : Step)
    (weightColumnIsWEIGHT : Bool)
    (h : ∀ o ∈ outputs [] (makeMainSteps steps outNameGiven output),
      weightColumnIsWEIGHT = false ∨ o.2.namesWeightColumn = true) :
    RunsWith (fieldsToRead steps outNameGiven output)
      (updateInfo weightColumnIsWEIGHT (makeMainSteps steps outNameGiven output)) := by
  rw [chain_updateInfo _ _ _ h]
  exact makeMainSteps_runs _ _ _

example : ∀ o ∈ outputs [] (makeMainSteps (exampleChain.take 2) false
      (.updater (Fields.single .weights) Fields.none)),
      true = false ∨ o.2.namesWeightColumn = true := by
  have h : ((outputs [] (makeMainSteps (exampleChain.take 2) false
      (.updater (Fields.single .weights) Fields.none))).all fun o => o.2.namesWeightColumn) = true ∧
      (outputs [] (makeMainSteps (exampleChain.take 2) false
      (.updater (Fields.single .weights) Fields.none))).length = 2 := by
    decide
  exact fun o ho => Or.inr (List.all_eq_true.1 h.1 o ho)

end DP3.Chain
