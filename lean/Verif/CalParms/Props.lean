import Verif.CalParms.Model
import Mathlib.Data.List.Nodup

/-!
# C193-C197: settings, parameters and solutions of applycal
-/

namespace DP3.CalParms

set_option linter.unusedSimpArgs false

/-! ## C193: settings -/

private theorem inherit_self (ps : Parset) (p key d : Name) : inherit ps p p key d = (ps (p ++ key)).getD d := by
  unfold inherit
  cases ps (p ++ key) <;> rfl

private theorem inherit_or (ps : Parset) (p q key d : Name) :
    inherit ps p q key d = ((ps (p ++ key)).or (ps (q ++ key))).getD d := by
  unfold inherit
  cases ps (p ++ key) <;> rfl

/-- C193 (`interpolation`, `usemodeldata` and `soltab` have to be set for the sub step if at all, see
`interpolation_not_inherited`): a sub step has the settings that it would have if every setting that it lacks
were copied from its step. -/
theorem settings_inherited_partial (ps filled : Parset) (pre dpre : Name) (sub : Bool) (pd : Name)
    (opens : Name → Bool) (hf : ∀ key, filled (pre ++ key) = (ps (pre ++ key)).or (ps (dpre ++ key)))
    (hi : (ps (pre ++ "interpolation".toList)).isSome ∨ ps (dpre ++ "interpolation".toList) = none)
    (hu : (ps (pre ++ "usemodeldata".toList)).isSome ∨ ps (dpre ++ "usemodeldata".toList) = none)
    (hs : (ps (pre ++ "soltab".toList)).isSome ∨ ps (dpre ++ "soltab".toList) = none) :
    settings ps pre dpre sub pd opens = settings filled pre pre sub pd opens := by
  have own : ∀ key : Name, ((ps (pre ++ key)).isSome ∨ ps (dpre ++ key) = none) → filled (pre ++ key) = ps (pre ++ key) := by
    intro key h
    rw [hf]
    rcases h with h | h
    · obtain ⟨x, hx⟩ := Option.isSome_iff_exists.mp h
      rw [hx]; rfl
    · rw [h]; simp
  have h1 := own _ hi
  have h2 := own _ hu
  have h3 := own _ hs
  have he : ∀ key d : Name, inherit filled pre pre key d = inherit ps pre dpre key d := by
    intro key d
    rw [inherit_self, inherit_or, hf]
  have h4 : inherit filled pre pre "interpolation".toList "nearest".toList =
      inherit ps pre pre "interpolation".toList "nearest".toList := by
    rw [inherit_self, inherit_self, h1]
  have h5 : (filled (pre ++ "correction".toList)).or (filled (pre ++ "correction".toList)) =
      (ps (pre ++ "correction".toList)).or (ps (dpre ++ "correction".toList)) := by
    rw [hf]
    cases (ps (pre ++ "correction".toList)).or (ps (dpre ++ "correction".toList)) <;> rfl
  simp only [settings]
  rw [h4, h5, h2, h3]
  simp only [he]

/-- A ParameterSet with the settings of a step and of its sub steps `a` and `b`. -/
def samplePs : Parset := fun k =>
  if k = "c.parmdb".toList then some "x.h5".toList
  else if k = "c.correction".toList then some "phase000".toList
  else if k = "c.a.correction".toList then some "tec000".toList
  else if k = "c.interpolation".toList then some "linear".toList
  else if k = "c.b.interpolation".toList then some "linear".toList
  else none

/-- C193: the interpolation of the step is not used for its sub steps. -/
theorem interpolation_not_inherited :
    (settings samplePs "c.a.".toList "c.".toList false [] (fun _ => true)).map Settings.interpolation =
      .ok "nearest".toList ∧
    (settings samplePs "c.".toList "c.".toList false [] (fun _ => true)).map Settings.interpolation =
      .ok "linear".toList := by decide +kernel

/-- C193: without its own setting, a sub step always interpolates with the nearest value. -/
theorem interpolation_default (ps : Parset) (pre dpre : Name) (sub : Bool) (pd : Name) (opens : Name → Bool)
    (s : Settings) (h : settings ps pre dpre sub pd opens = .ok s) (hn : ps (pre ++ "interpolation".toList) = none)
    (h5 : isH5 s.parmdb = true) : s.interpolation = "nearest".toList := by
  simp only [settings] at h
  rw [inherit_self, hn] at h
  cases g5 : (ps (pre ++ "correction".toList)).or (ps (dpre ++ "correction".toList)) with
  | none =>
    rw [g5] at h
    split_ifs at h with g1 g2 g3 g4 g6
    all_goals
      obtain rfl := Except.ok.inj h
      first | rfl | exact absurd h5 g3
  | some c =>
    rw [g5] at h
    split_ifs at h with g1 g2 g3 g4 g6
    all_goals
      obtain rfl := Except.ok.inj h
      first | rfl | exact absurd h5 g3

example : (settings samplePs "c.b.".toList "c.".toList false [] (fun _ => true)).map
    (fun s => (s.parmdb, s.correction, s.interpolation)) =
      .ok ("x.h5".toList, "phase000".toList, "linear".toList) ∧
    (settings samplePs "c.a.".toList "c.".toList false [] (fun _ => true)).map Settings.correction =
      .ok "tec000".toList ∧
    (samplePs ("c.b.".toList ++ "interpolation".toList)).isSome = true ∧
    samplePs ("c.".toList ++ "usemodeldata".toList) = none ∧
    samplePs ("c.".toList ++ "soltab".toList) = none := by decide +kernel

/-- C193: there is a step for each name, with the settings under its name; an empty list, the default value in the
documentation, is not defined. -/
theorem step_prefixes (pre : Name) (l : List Name) :
    (l ≠ [] → (∀ n ∈ l, n ≠ []) →
      stepPrefixes pre (some l) = .ok (l.map fun n => pre ++ n ++ ".".toList)) ∧
    stepPrefixes pre none = .ok [pre] ∧ stepPrefixes pre (some []) = .error .ub := by
  refine ⟨?_, rfl, rfl⟩
  intro h1 h2
  cases l with
  | nil => exact absurd rfl h1
  | cons a l =>
    simp only [stepPrefixes]
    congr 1
    apply List.map_congr_left
    intro n hn
    rw [subPrefix, if_neg (h2 n hn)]

/-- C193: a ParmDB in a directory with `.h5` in its name is taken for an H5Parm. -/
theorem h5_directory : isH5 "run.h5s/parmdb".toList = true ∧ isH5 "run/parmdb".toList = false := by decide +kernel

/-! ## C194: the parameters that are read -/

private theorem has_iff (l : List Name) (p : Name) : has l p = true ↔ ∃ n ∈ l, p <+: n := by
  simp [has, List.any_eq_true, List.isPrefixOf_iff_prefix]

private theorem prefix_both {p q n : Name} (h1 : p <+: n) (h2 : q <+: n) : p.isPrefixOf q = true ∨ q.isPrefixOf p = true := by
  rcases List.prefix_or_prefix_of_prefix h1 h2 with h | h
  · exact .inl (List.isPrefixOf_iff_prefix.mpr h)
  · exact .inr (List.isPrefixOf_iff_prefix.mpr h)

/-- The names of the parts of all elements. -/
def gainParts (ap : Bool) : List Name :=
  (["Gain:0:0".toList, "Gain:0:1".toList, "Gain:1:0".toList, "Gain:1:1".toList].map fun e =>
    if ap then [e ++ ":Ampl".toList, e ++ ":Phase".toList] else [e ++ ":Real".toList, e ++ ":Imag".toList]).flatten

/-- C194 (see `phases_not_read` for a ParmDB with phases only): if the values of a ParmDB are gains in one of both
representations, with an amplitude or real part for the first element, and an element 0:1 if there are off-diagonal
elements, then all values are read. -/
theorem gains_read_partial (n : Names) (ap : Bool) (k : Kind) (hk : k = .diagonal ∨ k = .fullJones)
    (hall : ∀ m ∈ n.values, ∃ p ∈ gainParts ap, p <+: m)
    (hfirst : ∃ m ∈ n.values, (if ap then "Gain:0:0:Ampl".toList else "Gain:0:0:Real".toList) <+: m)
    (hoff : ∀ m ∈ n.values, "Gain:0:1:".toList <+: m ∨ "Gain:1:0:".toList <+: m →
      ∃ m' ∈ n.values, "Gain:0:1:".toList <+: m') :
    ∃ k' l, selectParms n k = .ok (k', l) ∧ (k' = .diagonal ∨ k' = .fullJones) ∧
      ∀ m ∈ n.values, ∃ e ∈ l, e.common = false ∧ e.name <+: m := by
  have hap : detectAP n = .ok ap := by
    cases ap with
    | false =>
      have h0 : has n.values "Gain:0:0:Real".toList = true := (has_iff _ _).mpr (by simpa using hfirst)
      rw [detectAP, if_pos h0]
    | true =>
      have h0 : has n.values "Gain:0:0:Real".toList ≠ true := by
        intro h
        obtain ⟨m, hm, hp⟩ := (has_iff _ _).mp h
        obtain ⟨p, hp1, hp2⟩ := hall m hm
        have := prefix_both hp hp2
        clear hp2
        revert this
        revert p
        decide +kernel
      rw [detectAP, if_neg h0, if_pos]
      rw [Bool.or_eq_true]
      exact .inl ((has_iff _ _).mpr (by simpa using hfirst))
  have hk' : detectFull n k = .diagonal ∨ detectFull n k = .fullJones := by
    unfold detectFull
    split_ifs
    · exact .inr rfl
    · exact hk
  have hl : ∃ l, exprsOf n (detectFull n k) ap = .ok l ∧ ∀ m ∈ n.values, ∃ e ∈ l, e.common = false ∧ e.name <+: m := by
    by_cases hd : detectFull n k = .diagonal
    · rw [hd]
      refine ⟨_, rfl, ?_⟩
      have hno : ¬ ∃ m' ∈ n.values, "Gain:0:1:".toList <+: m' := by
        intro h
        have h2 : detectFull n k = .fullJones := by
          rw [detectFull, if_pos]
          refine ⟨hk, ?_⟩
          rw [(has_iff _ _).mpr h]; rfl
        rw [hd] at h2; cases h2
      intro m hm
      obtain ⟨p, hp, hpm⟩ := hall m hm
      have hdiag : p ∈ (parts ap "Gain:0:0".toList ++ parts ap "Gain:1:1".toList).map Expr.name ∨
          "Gain:0:1:".toList.isPrefixOf p = true ∨ "Gain:1:0:".toList.isPrefixOf p = true := by
        revert hp
        clear hpm
        revert p
        cases ap <;> decide +kernel
      rcases hdiag with h | h | h
      · obtain ⟨e, he, rfl⟩ := List.mem_map.mp h
        refine ⟨e, he, ?_, hpm⟩
        revert he
        clear hpm hp h
        revert e
        cases ap <;> decide +kernel
      · exact absurd (hoff m hm (.inl ((List.isPrefixOf_iff_prefix.mp h).trans hpm))) hno
      · exact absurd (hoff m hm (.inr ((List.isPrefixOf_iff_prefix.mp h).trans hpm))) hno
    · rw [(hk'.resolve_left hd)]
      refine ⟨_, rfl, ?_⟩
      intro m hm
      obtain ⟨p, hp, hpm⟩ := hall m hm
      have hfull : p ∈ (parts ap "Gain:0:0".toList ++ parts ap "Gain:0:1".toList ++ parts ap "Gain:1:0".toList ++
          parts ap "Gain:1:1".toList).map Expr.name := by
        revert hp
        clear hpm
        revert p
        cases ap <;> decide +kernel
      obtain ⟨e, he, rfl⟩ := List.mem_map.mp hfull
      refine ⟨e, he, ?_, hpm⟩
      revert he
      clear hpm hp hfull
      revert e
      cases ap <;> decide +kernel
  obtain ⟨l, h1, h2⟩ := hl
  refine ⟨detectFull n k, l, ?_, hk', h2⟩
  simp only [selectParms]
  rw [if_pos hk', hap]
  simp only
  rw [h1]
  rfl

/-- A ParmDB with amplitudes and phases. -/
def sampleNames : Names :=
  ⟨["Gain:0:0:Ampl:A".toList, "Gain:0:0:Phase:A".toList, "Gain:1:1:Ampl:A".toList, "Gain:1:1:Phase:A".toList], []⟩

example : (∀ m ∈ sampleNames.values, ∃ p ∈ gainParts true, p.isPrefixOf m = true) ∧
    (∃ m ∈ sampleNames.values, "Gain:0:0:Ampl".toList.isPrefixOf m = true) ∧
    (∀ m ∈ sampleNames.values, "Gain:0:1:".toList.isPrefixOf m = false ∧ "Gain:1:0:".toList.isPrefixOf m = false) ∧
    (selectParms sampleNames .diagonal).map Prod.fst = .ok .diagonal ∧
    (selectParms { sampleNames with defaults := ["Gain:0:1:Real".toList] } .diagonal).map Prod.fst =
      .ok .fullJones := by decide +kernel

/-- C194: phases without amplitudes are not read: with a default for the real part, only real and imaginary parts
are read, so that the phases are not applied; without it there is an exception (the second name that is tried
is `Phase:0:0:Ampl`). -/
theorem phases_not_read :
    let phases : List Name := ["Gain:0:0:Phase:A".toList, "Gain:1:1:Phase:A".toList]
    (selectParms ⟨phases, ["Gain:0:0:Real".toList, "Gain:0:0:Ampl".toList]⟩ .diagonal).map
      (fun r => r.2.map Expr.name) = .ok ["Gain:0:0:Real".toList, "Gain:0:0:Imag".toList, "Gain:1:1:Real".toList,
        "Gain:1:1:Imag".toList] ∧
    (selectParms ⟨phases, []⟩ .diagonal).map Prod.fst = .error .throws := by decide +kernel

/-- C194: weights for full Jones corrections that are not inverted are refused, but not when a ParmDB turns out to
have full Jones matrices. -/
theorem fullJones_unchecked : weightsCheck .fullJones true false = .error .throws ∧
    weightsCheck .diagonal true false = .ok () ∧
    (selectParms { sampleNames with defaults := ["Gain:0:1:Real".toList] } .diagonal).map Prod.fst =
      .ok .fullJones := by decide +kernel

/-! ## C195: the values of each antenna -/

variable {K : Type}

private theorem hasPart_iff (p s : Name) : hasPart p s = true ↔ p <:+: s := by
  induction s with
  | nil => cases p <;> simp [hasPart]
  | cons c cs ih =>
    rw [hasPart, Bool.or_eq_true, ih, List.isPrefixOf_iff_prefix, List.infix_cons_iff]

private theorem firstName_mem (l : List (Name × List K)) (h : l ≠ []) : ∃ v ∈ l, firstName l = some v.1 := by
  induction l with
  | nil => exact absurd rfl h
  | cons v vs ih =>
    cases vs with
    | nil => exact ⟨v, by simp, rfl⟩
    | cons w ws =>
      obtain ⟨u, hu, he⟩ := ih (by simp)
      rw [firstName, he]
      · simp only
        split_ifs
        · exact ⟨u, List.mem_cons_of_mem _ hu, rfl⟩
        · exact ⟨v, by simp, rfl⟩
      · simp

/-- The names of all values for an expression are those of antennas, with the same name before the antenna and the
same text after it. -/
def Uniform (db : DB K) (e : Expr) (e0 post : Name) : Prop :=
  valuesMap db e ≠ [] ∧ e0 ∈ e.names ∧ ':' ∉ (if e.common then e0 else []) ∧
  (∀ v ∈ valuesMap db e, ∃ a, v.1 = e0 ++ ":".toList ++ a ++ post) ∧
  (post = ":phase_center".toList ∨
    (post = [] ∧ ∀ v ∈ valuesMap db e, ¬ ":phase_center".toList <:+: v.1))

private theorem resolve_uniform (db : DB K) (e : Expr) (e0 post : Name) (h : Uniform db e e0 post) :
    resolve db e = (⟨false, e0⟩, post) := by
  obtain ⟨h1, h2, h3, h4, h5⟩ := h
  obtain ⟨v, hv, he⟩ := firstName_mem _ h1
  obtain ⟨a, ha⟩ := h4 v hv
  simp only [resolve]
  rw [he]
  simp only
  congr 1
  · rcases Bool.eq_false_or_eq_true e.common with hc | hc
    · rw [if_pos hc] at h3 ⊢
      rw [ha]
      congr 1
      rw [List.append_assoc, List.append_assoc, List.takeWhile_append_of_pos (by
        intro c hc'
        simp only [decide_eq_true_eq]
        rintro rfl
        exact h3 hc')]
      show e0 ++ List.takeWhile _ (':' :: (a ++ post)) = e0
      rw [List.takeWhile_cons_of_neg (by simp), List.append_nil]
    · rw [if_neg (by rw [hc]; decide)]
      rw [Expr.names, if_neg (by rw [hc]; decide), List.mem_singleton] at h2
      rw [h2]
      cases e
      simp only at hc
      rw [hc]
  · rcases h5 with rfl | ⟨rfl, h5⟩
    · rw [if_pos]
      rw [hasPart_iff, ha]
      exact ⟨e0 ++ ":".toList ++ a, [], by simp⟩
    · rw [if_neg]
      rw [hasPart_iff]
      exact h5 v hv

private theorem own_values (db : DB K) (e : Expr) (e0 name : Name) (h0 : e0 ∈ e.names) (hp : e0 <+: name)
    (hn : (db.values.map Prod.fst).Nodup) (v : List K) (hv : (name, v) ∈ db.values) :
    (valuesMap db e).find? (fun w => [name].contains w.1) = some (name, v) := by
  have hmem : (name, v) ∈ valuesMap db e := by
    rw [valuesMap, List.mem_filter]
    refine ⟨hv, ?_⟩
    rw [List.any_eq_true]
    exact ⟨e0, h0, List.isPrefixOf_iff_prefix.mpr hp⟩
  cases hf : (valuesMap db e).find? (fun w => [name].contains w.1) with
  | none =>
    rw [List.find?_eq_none] at hf
    exact absurd (hf _ hmem) (by simp)
  | some w =>
    have h1 := List.find?_some hf
    have h2 := List.mem_of_find?_eq_some hf
    simp only [List.contains_cons, List.contains_nil, Bool.or_false, beq_iff_eq] at h1
    rw [valuesMap, List.mem_filter] at h2
    have : w = (name, v) := List.inj_on_of_nodup_map hn h2.1 hv h1
    rw [this]

/-- C195 (see `patch_hides_values` and `common_mixed` for other ParmDBs): if the names of the values for an expression
are those of antennas in one form, every antenna has its own values, otherwise its own default, otherwise the
default for all antennas; without any of them a gain is zero, and anything else is refused. -/
theorem antenna_values_partial [Zero K] (db : DB K) (e : Expr) (e0 post ant : Name) (size : Nat)
    (hu : Uniform db e e0 post) (hn : (db.values.map Prod.fst).Nodup) :
    let name := e0 ++ ":".toList ++ ant ++ post
    (∀ v, (name, v) ∈ db.values → antennaValues db e ant size = if v.length = size then .ok v else .error .throws) ∧
    (name ∉ db.values.map Prod.fst →
      (∀ d, (db.defaults.find? fun d => d.1 = name) = some d → antennaValues db e ant size = single size d.2) ∧
      ((db.defaults.find? fun d => d.1 = name) = none →
        (∀ d, (db.defaults.find? fun d => d.1 = e0) = some d → antennaValues db e ant size = single size d.2) ∧
        ((db.defaults.find? fun d => d.1 = e0) = none → antennaValues db e ant size =
          if "Gain:".toList <+: e0 then .ok (List.replicate size 0) else .error .throws))) := by
  intro name
  have hr := resolve_uniform db e e0 post hu
  have h0 := hu.2.1
  have hp : e0 <+: name := ⟨":".toList ++ ant ++ post, by simp [name]⟩
  have hnames : (⟨false, e0⟩ : Expr).names = [e0] := rfl
  have hval : ∀ o, (valuesMap db e).find? (fun w => [name].contains w.1) = o → antennaValues db e ant size =
      (match o with
       | some v => if v.2.length = size then .ok v.2 else .error .throws
       | none =>
         match defValues db [name] with
         | [v] => single size v
         | _ =>
           match defValues db [e0] with
           | [v] => single size v
           | _ => if "Gain:".toList.isPrefixOf e0 = true then .ok (List.replicate size 0) else .error .throws) := by
    intro o ho
    subst ho
    simp only [antennaValues, hr, hnames, List.map_cons, List.map_nil, Bool.false_eq_true, if_false, true_and]
    rfl
  refine ⟨?_, ?_⟩
  · intro v hv
    rw [hval _ (own_values db e e0 name h0 hp hn v hv)]
  · intro hno
    have hnone : (valuesMap db e).find? (fun w => [name].contains w.1) = none := by
      rw [List.find?_eq_none]
      intro w hw
      rw [valuesMap, List.mem_filter] at hw
      simp only [List.contains_cons, List.contains_nil, Bool.or_false, beq_iff_eq]
      intro h
      exact hno (List.mem_map.mpr ⟨w, hw.1, h⟩)
    have h1 := hval _ hnone
    simp only at h1
    refine ⟨?_, ?_⟩
    · intro d hd
      rw [h1]
      simp only [defValues, List.filterMap_cons, List.filterMap_nil, hd, Option.map_some]
    · intro hd
      refine ⟨?_, ?_⟩
      · intro d hd'
        rw [h1]
        simp only [defValues, List.filterMap_cons, List.filterMap_nil, hd, hd', Option.map_some, Option.map_none]
      · intro hd'
        rw [h1]
        simp only [defValues, List.filterMap_cons, List.filterMap_nil, hd, hd', Option.map_none]
        simp only [List.isPrefixOf_iff_prefix]

/-- Values for two antennas, and defaults. -/
def sampleDb : DB ℚ :=
  ⟨[("CommonScalarPhase:A".toList, [1, 2]), ("CommonScalarPhase:B".toList, [3, 4])],
   [("CommonScalarPhase:C".toList, [7]), ("CommonScalarPhase".toList, [8])]⟩

example : valuesMap sampleDb ⟨true, "ScalarPhase".toList⟩ = sampleDb.values ∧
    (sampleDb.values.map Prod.fst).Nodup ∧
    ["A", "B", "C", "D"].map (fun a => antennaValues sampleDb ⟨true, "ScalarPhase".toList⟩ a.toList 2) =
      [.ok [1, 2], .ok [3, 4], .ok [7, 7], .ok [8, 8]] := by decide +kernel

example : Uniform sampleDb ⟨true, "ScalarPhase".toList⟩ "CommonScalarPhase".toList [] := by
  have hv : valuesMap sampleDb ⟨true, "ScalarPhase".toList⟩ = sampleDb.values := by decide +kernel
  refine ⟨?_, by decide +kernel, by decide +kernel, ?_, .inr ⟨rfl, ?_⟩⟩
  · rw [hv]; exact List.cons_ne_nil _ _
  · rw [hv]
    intro v h
    rcases List.mem_pair.mp h with rfl | rfl
    · exact ⟨"A".toList, rfl⟩
    · exact ⟨"B".toList, rfl⟩
  · rw [hv]
    intro v h
    rw [← hasPart_iff]
    rcases List.mem_pair.mp h with rfl | rfl <;> decide +kernel

/-- C195: values for another direction, whose name comes before `phase_center`, hide the values of the phase center:
all gains are zero. -/
theorem patch_hides_values :
    let db : DB ℚ := ⟨[("Gain:0:0:Real:A:phase_center".toList, [5]), ("Gain:0:0:Real:A:3C196".toList, [6])], []⟩
    let db1 : DB ℚ := ⟨[("Gain:0:0:Real:A:phase_center".toList, [5])], []⟩
    antennaValues db ⟨false, "Gain:0:0:Real".toList⟩ "A".toList 1 = .ok [0] ∧
    antennaValues db1 ⟨false, "Gain:0:0:Real".toList⟩ "A".toList 1 = .ok [5] := by decide +kernel

/-- C195: with common values for one antenna and other values for another one, the latter are not found. -/
theorem common_mixed :
    let db : DB ℚ := ⟨[("CommonScalarPhase:A".toList, [5]), ("ScalarPhase:B".toList, [6])], []⟩
    antennaValues db ⟨true, "ScalarPhase".toList⟩ "A".toList 1 = .ok [5] ∧
    antennaValues db ⟨true, "ScalarPhase".toList⟩ "B".toList 1 = .error .throws := by decide +kernel

/-! ## C196: solutions of the buffer -/

/-- C196 (see `other_direction` and `shape_unchecked`): the solution that is applied is one of the buffer: that of
the direction, or the only one; it has the number of channels of the data, and for the first channel two or
four values for each antenna, up to a remainder. -/
theorem buffer_solution_partial {S : Type} (sols : List (Name × List (List S))) (d : Name) (nc na : Nat)
    (s : Name × List (List S)) (h : bufferSolution sols d nc na = .ok s) :
    s ∈ sols ∧ (s.1 = d ∨ (sols = [s] ∧ ∀ t ∈ sols, t.1 ≠ d)) ∧ s.2.length = nc ∧
    ∃ v, s.2.head? = some v ∧ (v.length / na = 2 ∨ v.length / na = 4) := by
  have tail : ∀ s' : Name × List (List S), checkShape s' nc na = .ok s →
      s = s' ∧ s'.2.length = nc ∧ ∃ v, s'.2.head? = some v ∧ (v.length / na = 2 ∨ v.length / na = 4) := by
    intro s' hs
    simp only [checkShape] at hs
    cases hh : s'.2.head? with
    | none => rw [hh] at hs; cases hs
    | some v =>
      rw [hh] at hs
      simp only at hs
      by_cases g1 : na = 0
      · rw [if_pos g1] at hs; cases hs
      · rw [if_neg g1] at hs
        by_cases g2 : s'.2.length ≠ nc ∨ (v.length / na ≠ 2 ∧ v.length / na ≠ 4)
        · rw [if_pos g2] at hs; cases hs
        · rw [if_neg g2] at hs
          have := Except.ok.inj hs
          push Not at g2
          refine ⟨this.symm, g2.1, v, rfl, ?_⟩
          by_cases h2 : v.length / na = 2
          · exact .inl h2
          · exact .inr (g2.2 h2)
  simp only [bufferSolution] at h
  by_cases h0 : sols.length = 0
  · rw [if_pos h0] at h; cases h
  rw [if_neg h0] at h
  cases hf : sols.find? (fun s => decide (s.1 = d)) with
  | some s' =>
    rw [hf] at h
    simp only at h
    obtain ⟨rfl, t2, t3⟩ := tail s' h
    exact ⟨List.mem_of_find?_eq_some hf, .inl (by simpa using List.find?_some hf), t2, t3⟩
  | none =>
    rw [hf] at h
    simp only at h
    by_cases h1 : sols.length = 1
    · rw [if_pos h1] at h
      obtain ⟨s', rfl⟩ := List.length_eq_one_iff.mp h1
      simp only [List.head?_cons] at h
      obtain ⟨rfl, t2, t3⟩ := tail s' h
      refine ⟨by simp, .inr ⟨rfl, ?_⟩, t2, t3⟩
      rw [List.find?_eq_none] at hf
      intro t ht
      simpa using hf t ht
    · rw [if_neg h1] at h
      cases h

example : bufferSolution [("a".toList, [[1, 2], [3, 4]]), ("b".toList, [[5, 6], [7, 8]])] "b".toList 2 1 =
    .ok ("b".toList, [[5, 6], [7, 8]]) := by decide +kernel

/-- C196: the only solution of the buffer is applied also when another direction is asked for. -/
theorem other_direction : bufferSolution [("a".toList, [[1, 2]])] "b".toList 1 1 = .ok ("a".toList, [[1, 2]]) := by
  decide +kernel

/-- C196: only the first channel is checked, and a remainder is not noticed. -/
theorem shape_unchecked : bufferSolution [("a".toList, [[1, 2], []])] "a".toList 2 1 = .ok ("a".toList, [[1, 2], []]) ∧
    bufferSolution [("a".toList, [[1, 2, 3, 4, 5]])] "a".toList 1 2 = .ok ("a".toList, [[1, 2, 3, 4, 5]]) := by
  decide +kernel

/-! ## C197: directions of an H5Parm -/

private theorem dirIndex_spec (l : List Name) (d : Name) (i : Nat) (h : dirIndex l d = .ok i) : l[i]? = some d := by
  simp only [dirIndex] at h
  cases hf : l.findIdx? (fun x => decide (x = d)) with
  | none => rw [hf] at h; cases h
  | some j =>
    rw [hf] at h
    obtain rfl := Except.ok.inj h
    rw [List.findIdx?_eq_some_iff_getElem] at hf
    obtain ⟨h1, h2, -⟩ := hf
    rw [List.getElem?_eq_getElem h1]
    simpa using h2

/-- C197 (see `single_direction`): with more than one direction in the H5Parm, the one that is applied has the name
that was asked for; without a name it is refused. -/
theorem h5_direction_partial (d : Name) (l : List Name) (hl : 1 < l.length) :
    (∀ i, h5Direction false d (some l) = .ok i → l[i]? = some d) ∧
    (d ≠ [] → d ∈ l → ∃ i, h5Direction false d (some l) = .ok i) ∧
    h5Direction false [] (some l) = .error .throws := by
  have hne : h5Direction false [] (some l) = .error .throws := by
    simp only [h5Direction, and_self, if_true]
    rw [if_pos (by omega)]
  refine ⟨?_, ?_, hne⟩
  · intro i h
    by_cases hd : d = []
    · rw [hd, hne] at h; cases h
    · simp only [h5Direction, hd, and_false, if_false, ne_eq, not_false_eq_true, true_and, hl, if_true] at h
      exact dirIndex_spec l d i h
  · intro hd hm
    simp only [h5Direction, hd, and_false, if_false, ne_eq, not_false_eq_true, true_and, hl, if_true, dirIndex]
    cases hf : l.findIdx? (fun x => decide (x = d)) with
    | none =>
      rw [List.findIdx?_eq_none_iff] at hf
      exact absurd (hf d hm) (by simp)
    | some j => exact ⟨j, rfl⟩

example : h5Direction false "[b]".toList (some ["[a]".toList, "[b]".toList]) = .ok 1 := by decide +kernel

/-- C197: the only direction of an H5Parm is used for any name. -/
theorem single_direction : h5Direction false "[b]".toList (some ["[a]".toList]) = .ok 0 := by decide +kernel

/-- C197 (see `nested_direction`): the model data `step.patch` get the solutions of the direction `[patch]`. -/
theorem model_direction_partial (step patch : Name) (l : List Name) (hs : '.' ∉ step) :
    (∀ i, modelDirection l (step ++ ".".toList ++ patch) = .ok i → l[i]? = some ("[".toList ++ patch ++ "]".toList)) ∧
    ("[".toList ++ patch ++ "]".toList ∈ l → ∃ i, modelDirection l (step ++ ".".toList ++ patch) = .ok i) := by
  have hp : directionPatch (step ++ ".".toList ++ patch) = .ok ("[".toList ++ patch ++ "]".toList) := by
    simp only [directionPatch]
    rw [List.append_assoc, List.dropWhile_append_of_pos (by
      intro c hc
      simp only [decide_eq_true_eq]
      rintro rfl
      exact hs hc)]
    have hd : ".".toList ++ patch = '.' :: patch := rfl
    rw [hd, List.dropWhile_cons_of_neg (by simp)]
  simp only [modelDirection]
  rw [hp]
  simp only
  refine ⟨fun i h => dirIndex_spec l _ i h, ?_⟩
  intro hm
  simp only [dirIndex]
  cases hf : l.findIdx? (fun x => decide (x = "[".toList ++ patch ++ "]".toList)) with
  | none =>
    rw [List.findIdx?_eq_none_iff] at hf
    exact absurd (hf _ hm) (by simp)
  | some j => exact ⟨j, rfl⟩

example : modelDirection ["[P1]".toList, "[P2]".toList] "wg.P2".toList = .ok 1 := by decide +kernel

/-- C197: model data whose step has a name with a dot, and model data of a column of the measurement set, whose name
has none, have no direction. -/
theorem nested_direction : modelDirection ["[P1]".toList] "dde.wg.P1".toList = .error .throws ∧
    modelDirection ["[P1]".toList] "MODEL_DATA".toList = .error .throws := by decide +kernel

end DP3.CalParms
