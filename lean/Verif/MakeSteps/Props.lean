import Verif.MakeSteps.Model
import Mathlib.Tactic.SplitIfs

/-!
# Properties of the creation of the chain of steps

C274 row numbers in updates, C275 compatible chains, C276 types from names, C277 a named output.
-/

namespace DP3.MakeSteps

set_option linter.unusedSimpArgs false

/-! ## C276: types from names -/

theorem dropDigits_append (base ds : Name) (hd : ∀ c ∈ ds, c.isDigit = true)
    (hb : ∀ c, base.getLast? = some c → c.isDigit = false) : dropDigits (base ++ ds) = base := by
  unfold dropDigits
  rw [List.reverse_append, List.dropWhile_append_of_pos (by simpa using hd)]
  cases h : base.reverse with
  | nil => simp at h; subst h; rfl
  | cons c cs =>
    have hl : base.getLast? = some c := by rw [← List.head?_reverse, h]; rfl
    rw [List.dropWhile_cons_of_neg (by simp [hb c hl]), ← h, List.reverse_reverse]

/-- C276: a step without a type has the type of its name without digits at the end, in lower case. -/
theorem type_of_name (base ds : Name) (hd : ∀ c ∈ ds, c.isDigit = true)
    (hb : ∀ c, base.getLast? = some c → c.isDigit = false) :
    stepType none (base ++ ds) = base.map Char.toLower := by
  simp [stepType, dropDigits_append base ds hd hb]

example : (∀ c ∈ "12".toList, c.isDigit = true) ∧ (∀ c, "h5parmPredict".toList.getLast? = some c → c.isDigit = false) ∧
    stepType none "h5parmPredict12".toList = "h5parmpredict".toList := by decide +kernel

/-- C276: a given type is used, whatever the name. -/
theorem type_given (t name : Name) : stepType (some t) name = t.map Char.toLower := rfl

example : stepType (some "Average".toList) "count3".toList = "average".toList := by decide +kernel

/-- The other types of steps, base/DP3.cc:176-179, 200-201, 234-235, 250-263. -/
def otherTypes : List Name :=
  ["bdaaverage", "bdaaverager", "bdaexpander", "columnreader", "grouppredict", "split", "explode", "ddecal", "null",
    "wscleanwriter"].map String.toList

/-- All types of steps, except of output steps, base/DP3.cc:172-268. -/
def knownTypes : List Name := stdTypes.map String.toList ++ typedTypes.map String.toList ++ otherTypes

/-- C276: each type of step can be used as a name, with any number. -/
theorem known_name (abs : Name → Name) (e : Entry) (current : Name) (t : MsType) (base ds : Name)
    (hb : base ∈ knownTypes) (hd : ∀ c ∈ ds, c.isDigit = true) (ht : e.type = none) (hs : e.step = base ++ ds) :
    ∃ s, single base t = some s ∧ makeOne abs e current t = some (.proc s e.changes, current) := by
  have h1 : ∀ b ∈ knownTypes, (b.getLast?.map Char.isDigit = some false ∧ b.map Char.toLower = b ∧
      (single b .regular).isSome = true ∧ (single b .bda).isSome = true) := by decide +kernel
  obtain ⟨hl, hlow, hr, hbd⟩ := h1 base hb
  have ht' : stepType e.type e.step = base := by
    rw [ht, hs, type_of_name base ds hd (by intro c hc; rw [hc] at hl; simpa using hl), hlow]
  have : (single base t).isSome = true := by cases t <;> assumption
  obtain ⟨s, hs'⟩ := Option.isSome_iff_exists.mp this
  exact ⟨s, hs', by simp [makeOne, ht', hs']⟩

example : "average".toList ∈ knownTypes ∧ (∀ c ∈ "07".toList, c.isDigit = true) := by decide +kernel

/-- C276: a type that is neither that of a step nor of an output step is refused. -/
theorem unknown_refused (abs : Name → Name) (e : Entry) (current : Name) (t : MsType)
    (h : stepType e.type e.step ∉ knownTypes) (ho : stepType e.type e.step ∉ outTypes) :
    makeOne abs e current t = none := by
  have hn : single (stepType e.type e.step) t = none := by
    generalize stepType e.type e.step = ty at h
    rw [knownTypes, List.mem_append, List.mem_append, not_or, not_or] at h
    obtain ⟨⟨h1, h2⟩, h3⟩ := h
    unfold single
    rw [if_neg h1, if_neg h2, if_neg, if_neg, if_neg, if_neg, if_neg, if_neg, if_neg, if_neg]
    all_goals
      intro hh
      apply h3
      first
        | (rw [hh]; decide +kernel)
        | (rcases hh with hh | hh <;> (rw [hh]; decide +kernel))
  simp only [makeOne, hn, if_neg ho]

example : stepType none "12".toList ∉ knownTypes ∧ stepType none "12".toList ∉ outTypes ∧
    stepType none "averag1".toList ∉ knownTypes ∧ stepType none "averag1".toList ∉ outTypes := by decide +kernel

/-! ## C275: compatible chains -/

theorem makeOut_kind {abs : Name → Name} {n current : Name} {t : MsType} {r : Kind × Name}
    (h : makeOut abs n current t = some r) :
    (t = .bda ∧ r = (.bdaWriter n, abs n)) ∨ (t = .regular ∧ r = (.updater current, abs current)) ∨
      (t = .regular ∧ r = (.writer n, abs n)) := by
  unfold makeOut MsOutput.makeOutput at h
  split_ifs at h <;> cases t <;> simp_all [outputKind]

theorem makeOne_kind {abs : Name → Name} {e : Entry} {current : Name} {t : MsType} {r : Kind × Name}
    (h : makeOne abs e current t = some r) :
    (∃ s, r = (.proc s e.changes, current)) ∨ ∃ n, makeOut abs n current t = some r := by
  unfold makeOne at h
  split at h
  · exact .inl ⟨_, by simpa using h.symm⟩
  · split_ifs at h
    obtain ⟨n, _, hn⟩ := Option.bind_eq_some_iff.mp h
    exact .inr ⟨n, hn⟩

theorem makeOne_handles {abs : Name → Name} {e : Entry} {current : Name} {t : MsType} {r : Kind × Name}
    (h : makeOne abs e current t = some r) (ha : r.1.accepts t = true) :
    r.1.handles t = true ∧ ∀ n, r.1 ≠ .bdaWriter n := by
  rcases makeOne_kind h with ⟨s, rfl⟩ | ⟨n, hn⟩
  · cases s <;> simp_all [Kind.accepts, Kind.handles]
  · rcases makeOut_kind hn with ⟨rfl, rfl⟩ | ⟨rfl, rfl⟩ | ⟨rfl, rfl⟩ <;> simp_all [Kind.accepts, Kind.handles]

theorem emits_outputs {k : Kind} {t : MsType} (he : k.emits = some t) (hc : ∀ c, k ≠ .proc (.column .bda) c) :
    k.outputs = t := by
  cases k with
  | proc s c =>
    cases s with
    | column t0 => cases t0 <;> simp_all [Kind.emits, Kind.outputs]
    | _ => simp_all [Kind.emits, Kind.outputs]
  | _ => simp_all [Kind.emits, Kind.outputs]

theorem canFollow_accepts {l k : Kind} (h : canFollow (some l) k = true) : k.accepts l.outputs = true := by
  unfold canFollow at h
  split at h <;> simp_all

theorem makeLoop_handled {abs : Name → Name} {t0 : MsType} {es : List Entry} :
    ∀ {l : Kind} {current : Name} {ks : List Kind}, makeLoop abs t0 (some l) current es = some ks →
      (∀ c, .proc (.column .bda) c ∉ ks) → handled l.outputs ks = true ∧ ∀ n, .bdaWriter n ∉ ks := by
  induction es with
  | nil => intro l current ks h _; simp [makeLoop] at h; subst h; simp [handled]
  | cons e es ih =>
    intro l current ks h hc
    simp only [makeLoop, Option.map_some, Option.getD_some] at h
    obtain ⟨r, hr, h⟩ := Option.bind_eq_some_iff.mp h
    split_ifs at h with hf
    obtain ⟨ks', hk, rfl⟩ := Option.map_eq_some_iff.mp h
    obtain ⟨h1, h2⟩ := makeOne_handles hr (canFollow_accepts hf)
    obtain ⟨h3, h4⟩ := ih hk (fun c hm => hc c (List.mem_cons_of_mem _ hm))
    refine ⟨?_, ?_⟩
    · simp only [handled, h1, Bool.true_and]
      split
      · rfl
      · next t' he => rwa [← emits_outputs he (fun c hh => hc c (by simp [hh]))]
    · intro n hm
      rcases List.mem_cons.mp hm with hm | hm
      · exact h2 n hm.symm
      · exact h4 n hm

/-- C275: in a chain that is created, each step can process what it gets, if the first one can process the input and no
column is read for BDA data. -/
theorem compatible_partial (abs : Name → Name) (t0 : MsType) (input : Name) (es : List Entry) (ks : List Kind)
    (hk : makeSteps abs t0 input es = some ks) (h0 : ∀ k, ks.head? = some k → k.handles t0 = true)
    (hc : ∀ c, .proc (.column .bda) c ∉ ks) : handled t0 ks = true := by
  unfold makeSteps at hk
  cases es with
  | nil => simp [makeLoop] at hk; subst hk; rfl
  | cons e es =>
    simp only [makeLoop, Option.map_none, Option.getD_none] at hk
    obtain ⟨r, hr, h⟩ := Option.bind_eq_some_iff.mp hk
    split_ifs at h with hf
    obtain ⟨ks', hk', rfl⟩ := Option.map_eq_some_iff.mp h
    simp only [handled, h0 r.1 rfl, Bool.true_and]
    split
    · rfl
    · next t' he =>
      rw [← emits_outputs he (fun c hh => hc c (by simp [hh]))]
      exact (makeLoop_handled hk' (fun c hm => hc c (List.mem_cons_of_mem _ hm))).1

example : makeSteps id .regular "/a.ms".toList
      [{ step := "bdaaverage".toList }, { step := "predict".toList }, { step := "bdaexpander".toList },
        { step := "average1".toList, changes := true }] =
    some [.proc .bdaAverager false, .proc (.typed .bda) false, .proc .expander false, .proc .std true] := by
  decide +kernel

theorem handled_append {k : Kind} {ks : List Kind} : ∀ {t0 : MsType}, handled t0 ks = true →
    (∀ c, .proc (.column .bda) c ∉ ks) → k.handles ((ks.getLast?.map Kind.outputs).getD t0) = true →
    handled t0 (ks ++ [k]) = true := by
  induction ks with
  | nil => intro t0 _ _ h; simp at h; simp [handled, h]; split <;> rfl
  | cons a ks ih =>
    intro t0 h hc hk
    simp only [handled, Bool.and_eq_true] at h
    simp only [List.cons_append, handled, h.1, Bool.true_and]
    have h2 := h.2
    split
    · rfl
    · next t' he =>
      rw [he] at h2
      refine ih h2 (fun c hm => hc c (List.mem_cons_of_mem _ hm)) ?_
      rw [← emits_outputs he (fun c hh => hc c (by simp [hh]))]
      rw [List.getLast?_cons] at hk
      cases hl : ks.getLast? <;> simpa [hl] using hk

theorem makeOut_handles {abs : Name → Name} {n current : Name} {t : MsType} {r : Kind × Name}
    (h : makeOut abs n current t = some r) : r.1.handles t = true := by
  rcases makeOut_kind h with ⟨rfl, rfl⟩ | ⟨rfl, rfl⟩ | ⟨rfl, rfl⟩ <;> rfl

/-- What `makeMain` gives: the steps in the parset, possibly with an output step. -/
theorem makeMain_kind {abs : Name → Name} {t0 : MsType} {input : Name} {es : List Entry} {a b : Option Name} {p : Bool}
    {ks : List Kind} (h : makeMain abs t0 input es a b p = some ks) :
    ∃ ks0, makeSteps abs t0 input es = some ks0 ∧ (ks = ks0 ∨ ∃ n r,
      makeOut abs n input ((ks0.getLast?.map Kind.outputs).getD t0) = some r ∧ ks = ks0 ++ [r.1]) := by
  unfold makeMain at h
  obtain ⟨ks0, hk, h⟩ := Option.bind_eq_some_iff.mp h
  refine ⟨ks0, hk, ?_⟩
  by_cases h1 : (ks0.getLast?.map Kind.isOutput).getD false = true
  · rw [if_pos h1] at h
    exact .inl (by simpa using h.symm)
  · rw [if_neg h1] at h
    obtain ⟨n, _, h⟩ := Option.bind_eq_some_iff.mp h
    by_cases h2 : n ≠ [] ∨ p = true
    · rw [if_pos h2] at h
      obtain ⟨r, hr, rfl⟩ := Option.map_eq_some_iff.mp h
      exact .inr ⟨_, r, hr, rfl⟩
    · rw [if_neg h2] at h
      exact .inl (by simpa using h.symm)

/-- C275: the same with the output step at the end. -/
theorem main_compatible_partial (abs : Name → Name) (t0 : MsType) (input : Name) (es : List Entry) (a b : Option Name)
    (p : Bool) (ks : List Kind) (h : makeMain abs t0 input es a b p = some ks)
    (h0 : ∀ k, ks.head? = some k → k.handles t0 = true) (hc : ∀ c, .proc (.column .bda) c ∉ ks) :
    handled t0 ks = true := by
  obtain ⟨ks0, hk, rfl | ⟨n, r, hr, rfl⟩⟩ := makeMain_kind h
  · exact compatible_partial abs t0 input es ks hk h0 hc
  · have hc' : ∀ c, Kind.proc (.column .bda) c ∉ ks0 := fun c hm => hc c (List.mem_append_left _ hm)
    refine handled_append (compatible_partial abs t0 input es ks0 hk ?_ hc') hc' (makeOut_handles hr)
    intro k hh
    exact h0 k (by cases ks0 <;> simp_all)

example : makeMain id .regular "/a.ms".toList [{ step := "bdaaverage".toList }] none (some "/b.ms".toList) true =
      some [.proc .bdaAverager false, .bdaWriter "/b.ms".toList] ∧
    handled .regular [.proc .bdaAverager false, .bdaWriter "/b.ms".toList] = true := by decide +kernel

/-- C275 does not hold: the first step is not checked, for any measurement set with BDA data. -/
theorem first_unchecked (abs : Name → Name) (input : Name) :
    makeSteps abs .bda input [{ step := "average".toList }] = some [.proc .std false] ∧
      handled .bda [.proc .std false] = false := by
  have h : single (stepType none "average".toList) .bda = some .std := by decide +kernel
  refine ⟨?_, by decide⟩
  simp only [makeSteps, makeLoop, makeOne, Option.map_none, Option.getD_none, h, Option.bind_some, canFollow, if_true,
    Option.map_some]

theorem makeSteps_two (abs : Name → Name) (t0 : MsType) (input : Name) (e1 e2 : Entry) (s1 s2 : Sort')
    (h1 : single (stepType e1.type e1.step) t0 = some s1)
    (h2 : single (stepType e2.type e2.step) (Kind.proc s1 e1.changes).outputs = some s2) :
    makeSteps abs t0 input [e1, e2] =
      if canFollow (some (.proc s1 e1.changes)) (.proc s2 e2.changes) = true then
        some [.proc s1 e1.changes, .proc s2 e2.changes]
      else none := by
  simp only [makeSteps, makeLoop, makeOne, Option.map_none, Option.getD_none, h1, Option.bind_some, Option.map_some,
    Option.getD_some, h2]
  rw [if_pos (show canFollow none (.proc s1 e1.changes) = true from rfl)]
  split_ifs <;> rfl

/-- C275 does not hold: a step that reads a column from BDA data says that it outputs regular data, so a step for regular
data after it is accepted and one for BDA data is refused. -/
theorem column_wrong (abs : Name → Name) (input : Name) :
    makeSteps abs .bda input [{ step := "columnreader".toList }, { step := "average".toList }] =
        some [.proc (.column .bda) false, .proc .std false] ∧
      handled .bda [.proc (.column .bda) false, .proc .std false] = false ∧
      makeSteps abs .bda input [{ step := "columnreader".toList }, { step := "bdaexpander".toList }] = none ∧
      handled .bda [.proc (.column .bda) false, .proc .expander false] = true := by
  have h1 : single (stepType none "columnreader".toList) .bda = some (.column .bda) := by decide +kernel
  have h2 : single (stepType none "average".toList) .regular = some .std := by decide +kernel
  have h3 : single (stepType none "bdaexpander".toList) .regular = some .expander := by decide +kernel
  refine ⟨?_, by decide, ?_, by decide⟩
  · rw [makeSteps_two abs .bda input _ _ _ _ h1 h2]; rfl
  · rw [makeSteps_two abs .bda input _ _ _ _ h1 h3]; rfl

/-- C275 does not hold: an output step for BDA data in the list of steps is refused unless it is the first one. -/
theorem bda_out_first (abs : Name → Name) (t0 : MsType) (input : Name) (es : List Entry) (ks : List Kind)
    (hk : makeSteps abs t0 input es = some ks) (n : Name) (hc : ∀ c, .proc (.column .bda) c ∉ ks)
    (hm : .bdaWriter n ∈ ks) : ks.head? = some (.bdaWriter n) := by
  unfold makeSteps at hk
  cases es with
  | nil => simp [makeLoop] at hk; subst hk; simp at hm
  | cons e es =>
    simp only [makeLoop, Option.map_none, Option.getD_none] at hk
    obtain ⟨r, hr, h⟩ := Option.bind_eq_some_iff.mp hk
    split_ifs at h with hf
    obtain ⟨ks', hk', rfl⟩ := Option.map_eq_some_iff.mp h
    rcases List.mem_cons.mp hm with hm | hm
    · simp [hm]
    · exact absurd hm ((makeLoop_handled hk' (fun c hm => hc c (List.mem_cons_of_mem _ hm))).2 n)

example : makeSteps id .bda "/a.ms".toList [{ step := "out".toList, name := some "/b.ms".toList }] =
      some [.bdaWriter "/b.ms".toList] ∧
    makeSteps id .regular "/a.ms".toList
        [{ step := "bdaaverage".toList }, { step := "out".toList, name := some "/b.ms".toList }] = none ∧
    handled .regular [.proc .bdaAverager false, .bdaWriter "/b.ms".toList] = true := by decide +kernel

/-! ## C274: row numbers in updates -/

theorem makeLoop_rows {abs : Name → Name} (hid : ∀ x, abs (abs x) = abs x) {t0 : MsType} {es : List Entry} :
    ∀ {last : Option Kind} {current : Name} {changed : Bool} {ks : List Kind} {l : List (Name × Name)},
      abs current = current → makeLoop abs t0 last current es = some ks → updates abs current changed ks = some l →
      ∀ p ∈ l, p.1 = p.2 := by
  induction es with
  | nil => intro last current changed ks l _ h hu; simp [makeLoop] at h; subst h; simp [updates] at hu; simp [hu]
  | cons e es ih =>
    intro last current changed ks l ha h hu
    simp only [makeLoop] at h
    obtain ⟨r, hr, h⟩ := Option.bind_eq_some_iff.mp h
    split_ifs at h with hf
    obtain ⟨ks', hk, rfl⟩ := Option.map_eq_some_iff.mp h
    rcases makeOne_kind hr with ⟨s, rfl⟩ | ⟨n, hn⟩
    · simp only [updates] at hu
      split_ifs at hu with hs
      · simp at hu; simp [hu]
      · exact ih ha hk hu
    · rcases makeOut_kind hn with ⟨-, rfl⟩ | ⟨-, rfl⟩ | ⟨-, rfl⟩
      · simp [updates] at hu; simp [hu]
      · simp only [updates] at hu
        split_ifs at hu
        obtain ⟨l', hl, rfl⟩ := Option.map_eq_some_iff.mp hu
        intro p hp
        rcases List.mem_cons.mp hp with rfl | hp
        · rfl
        · refine ih ha (by simpa [ha] using hk) hl p hp
      · simp only [updates] at hu
        exact ih (hid n) hk hu

/-- C274: in the list of steps, each update is of the measurement set to which the row numbers in the buffer belong. -/
theorem rows_steps (abs : Name → Name) (hid : ∀ x, abs (abs x) = abs x) (t0 : MsType) (input : Name)
    (hin : abs input = input) (es : List Entry) (ks : List Kind) (l : List (Name × Name))
    (hk : makeSteps abs t0 input es = some ks) (hu : updates abs input false ks = some l) : ∀ p ∈ l, p.1 = p.2 :=
  makeLoop_rows hid hin hk hu

example : (makeSteps id .regular "/a.ms".toList
      [{ step := "out1".toList, name := some [] }, { step := "average".toList, changes := true },
        { step := "out2".toList, name := some "/b.ms".toList }, { step := "count".toList },
        { step := "out3".toList, name := some ".".toList }]).bind (updates id "/a.ms".toList false) =
    some [("/a.ms".toList, "/a.ms".toList), ("/b.ms".toList, "/b.ms".toList)] := by decide +kernel

theorem updates_append {abs : Name → Name} {k : Kind} {ks : List Kind} : ∀ {rows : Name} {changed : Bool}
    {l : List (Name × Name)}, (∀ n, .writer n ∉ ks) → updates abs rows changed (ks ++ [k]) = some l →
    ∃ l', updates abs rows changed ks = some l' ∧ ∀ p ∈ l, p ∈ l' ∨ ∃ n, k = .updater n ∧ p = (n, rows) := by
  induction ks with
  | nil =>
    intro rows changed l _ h
    refine ⟨[], rfl, ?_⟩
    cases k with
    | updater n =>
      simp only [List.nil_append, updates] at h
      split_ifs at h
      simp at h; subst h; simp
    | proc s c => simp [updates] at h; simp [h]
    | writer n => simp [updates] at h; simp [h]
    | bdaWriter n => simp [updates] at h; simp [h]
  | cons a ks ih =>
    intro rows changed l hw h
    have hw' : ∀ n, Kind.writer n ∉ ks := fun n hm => hw n (List.mem_cons_of_mem _ hm)
    cases a with
    | writer n => exact absurd List.mem_cons_self (hw n)
    | bdaWriter n => simp [updates] at h; exact ⟨[], by simp [updates], by simp [h]⟩
    | proc s c =>
      simp only [List.cons_append, updates] at h ⊢
      split_ifs at h ⊢ with hs
      · exact ⟨[], rfl, by simp at h; simp [h]⟩
      · exact ih hw' h
    | updater n =>
      simp only [List.cons_append, updates] at h ⊢
      split_ifs at h ⊢ with hs
      obtain ⟨l1, h1, rfl⟩ := Option.map_eq_some_iff.mp h
      obtain ⟨l', h2, h3⟩ := ih hw' h1
      refine ⟨(n, rows) :: l', by simp [h2], ?_⟩
      intro p hp
      rcases List.mem_cons.mp hp with rfl | hp
      · simp
      · rcases h3 p hp with h3 | h3
        · exact .inl (List.mem_cons_of_mem _ h3)
        · exact .inr h3

/-- C274: the same for the whole chain, if no step before the last one writes a new measurement set. -/
theorem rows_main_partial (abs : Name → Name) (hid : ∀ x, abs (abs x) = abs x) (t0 : MsType) (input : Name)
    (hin : abs input = input) (es : List Entry) (a b : Option Name) (p : Bool) (ks : List Kind) (l : List (Name × Name))
    (hk : makeMain abs t0 input es a b p = some ks) (hw : ∀ n, .writer n ∉ ks.dropLast)
    (hu : updates abs input false ks = some l) : ∀ q ∈ l, q.1 = q.2 := by
  obtain ⟨ks0, hk0, rfl | ⟨n, r, hr, rfl⟩⟩ := makeMain_kind hk
  · exact rows_steps abs hid t0 input hin es ks l hk0 hu
  · rw [List.dropLast_concat] at hw
    obtain ⟨l', h1, h2⟩ := updates_append hw hu
    intro q hq
    rcases h2 q hq with h | ⟨m, hm, rfl⟩
    · exact rows_steps abs hid t0 input hin es ks0 l' hk0 h1 q h
    · rcases makeOut_kind hr with ⟨-, rfl⟩ | ⟨-, rfl⟩ | ⟨-, rfl⟩
      · simp at hm
      · simpa using hm.symm
      · simp at hm

example : (makeMain id .regular "/a.ms".toList
      [{ step := "out1".toList, name := some [] }, { step := "preflag".toList }] none (some []) true) =
      some [.updater "/a.ms".toList, .proc .std false, .updater "/a.ms".toList] ∧
    updates id "/a.ms".toList false [.updater "/a.ms".toList, .proc .std false, .updater "/a.ms".toList] =
      some [("/a.ms".toList, "/a.ms".toList), ("/a.ms".toList, "/a.ms".toList)] := by decide +kernel

/-- C274 does not hold: after averaging and writing of a new measurement set `n`, the output step at the end updates the
input, with the row numbers of `n`; that metadata changed is not noticed. -/
theorem rows_final_wrong (abs : Name → Name) (input n : Name) (hi : input ≠ []) (hn : n ≠ []) (hd : n ≠ ['.'])
    (hne : input ≠ abs n) :
    makeMain abs .regular input
        [{ step := "average".toList, changes := true }, { step := "out".toList, name := some n },
          { step := "preflag".toList }] none (some ['.']) true =
      some [.proc .std true, .writer n, .proc .std false, .updater input] ∧
    updates abs input false [.proc .std true, .writer n, .proc .std false, .updater input] = some [(input, abs n)] := by
  have h1 : single (stepType none "average".toList) .regular = some .std := by decide +kernel
  have h2 : single (stepType none "out".toList) .regular = none := by decide +kernel
  have h2' : stepType none "out".toList ∈ outTypes := by decide +kernel
  have h3 : single (stepType none "preflag".toList) .regular = some .std := by decide +kernel
  have ho : makeOut abs n input .regular = some (.writer n, abs n) := by
    simp [makeOut, MsOutput.makeOutput, hn, hd, hne, outputKind]
  have hf : makeOut abs ['.'] input .regular = some (.updater input, abs input) := by
    simp [makeOut, MsOutput.makeOutput, hi, outputKind]
  refine ⟨?_, by simp [updates]⟩
  have hs : makeSteps abs .regular input
      [{ step := "average".toList, changes := true }, { step := "out".toList, name := some n },
        { step := "preflag".toList }] = some [.proc .std true, .writer n, .proc .std false] := by
    simp only [makeSteps, makeLoop, makeOne, h1, h2, h2', h3, ho, Option.map_none, Option.map_some, Option.getD_none, Option.getD_some, Option.bind_some, canFollow,
      Kind.outputs, Kind.accepts, decide_true, if_true, reduceCtorEq, decide_false, Bool.false_eq_true, if_false]
  unfold makeMain
  rw [hs]
  simp [hf, Kind.outputs, Kind.isOutput]

example : "/a.ms".toList ≠ [] ∧ "/b.ms".toList ≠ [] ∧ "/b.ms".toList ≠ ['.'] ∧ "/a.ms".toList ≠ id "/b.ms".toList := by
  decide +kernel

/-! ## C277: a named output -/

/-- C277: if the steps do not end with an output step, a named output is written or updated at the end. -/
theorem msout_made_partial (abs : Name → Name) (t0 : MsType) (input : Name) (es : List Entry) (n : Name) (p : Bool)
    (ks0 ks : List Kind) (hn : n ≠ []) (h0 : makeSteps abs t0 input es = some ks0)
    (hl : ∀ k, ks0.getLast? = some k → k.isOutput = false)
    (h : makeMain abs t0 input es none (some n) p = some ks) :
    ∃ k, ks = ks0 ++ [k] ∧ (if n = ['.'] ∨ abs n = input then k = .updater input else k = .writer n ∨ k = .bdaWriter n) := by
  have hl' : (ks0.getLast?.map Kind.isOutput).getD false = false := by
    cases hh : ks0.getLast? <;> simp_all
  simp only [makeMain, h0, Option.bind_some, hl', Bool.false_eq_true, if_false, Option.or, hn, ne_eq, not_false_eq_true,
    true_or, if_true, Option.getD_none, Option.getD_some] at h
  obtain ⟨r, hr, rfl⟩ := Option.map_eq_some_iff.mp h
  refine ⟨r.1, rfl, ?_⟩
  generalize (ks0.getLast?.map Kind.outputs).getD t0 = t at hr
  unfold makeOut MsOutput.makeOutput at hr
  by_cases h1 : n = ['.']
  · by_cases h2 : input = [] <;> cases t <;> simp_all [outputKind]
    rw [← hr]
  · by_cases h2 : input = abs n
    · cases t <;> simp_all [outputKind]
      rw [← hr]
    · have h2' : ¬ abs n = input := fun hh => h2 hh.symm
      cases t <;> simp_all [outputKind] <;> simp [← hr]

example : makeSteps id .regular "/a.ms".toList [{ step := "count".toList }] = some [.proc .std false] ∧
    makeMain id .regular "/a.ms".toList [{ step := "count".toList }] none (some "/b.ms".toList) false =
      some [.proc .std false, .writer "/b.ms".toList] := by decide +kernel

/-- C277 does not hold: if the steps end with an output step, which includes a null step and the writer for WSClean, a
named output is not made. -/
theorem msout_ignored (abs : Name → Name) (t0 : MsType) (input : Name) (es : List Entry) (a b : Option Name) (p : Bool)
    (ks0 : List Kind) (k : Kind) (h0 : makeSteps abs t0 input es = some (ks0 ++ [k])) (hk : k.isOutput = true) :
    makeMain abs t0 input es a b p = some (ks0 ++ [k]) := by
  simp [makeMain, h0, hk]

example : makeSteps id .regular "/a.ms".toList [{ step := "average".toList, changes := true }, { step := "null".toList }] =
      some ([.proc .std true] ++ [.proc .null false]) ∧ Kind.isOutput (.proc .null false) = true := by decide +kernel

end DP3.MakeSteps
