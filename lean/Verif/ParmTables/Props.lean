import Verif.ParmTables.Model
import Mathlib.Tactic.Linarith
import Mathlib.Data.List.Nodup
import Mathlib.Data.List.Basic

/-! Properties of the tables of a ParmDB, parmdb/ParmDBCasa.cc. -/

namespace DP3.ParmTables
set_option linter.unusedSimpArgs false
set_option linter.unusedSectionVars false

variable {I D V : Type}

/-! ## The specification: a list of stored values with the names themselves, and a list of default values -/

/-- What a user of a ParmDB thinks of. -/
structure Abs (D V : Type) where
  values : List (Name × D × V)
  defaults : List (Name × V)

/-- The value with a name, for lists in which each name is at most once. -/
def Abs.default? (a : Abs D V) (name : Name) : Option V := (a.defaults.find? fun p => decide (p.1 = name)).map Prod.snd

/-- The effect of a call on the specification. -/
def Abs.step (a : Abs D V) : Op I D V → Abs D V
  | .store name _ dom val => { a with values := a.values ++ [(name, dom, val)] }
  | .delete pat sel => { a with values := a.values.filter fun r => !(pat r.1 && sel r.2.1) }
  | .putDef name val =>
    if a.defaults.any fun p => decide (p.1 = name) then
      { a with defaults := a.defaults.map fun p => if p.1 = name then (name, val) else p }
    else { a with defaults := a.defaults ++ [(name, val)] }
  | .deleteDef pat => { a with defaults := a.defaults.filter fun p => !pat p.1 }
  | .getDef _ => a
  | .clear => ⟨[], []⟩

/-- The values of a state: names instead of ids. -/
def St.abs (s : St I D V) : Abs D V where
  values := s.rows.map fun r => (((s.names[r.1]?).map Prod.fst).getD [], r.2)
  defaults := s.defs

/-- The tables fit together. -/
structure Inv (s : St I D V) : Prop where
  uid : s.uid = s.names.length
  nodup : (s.names.map Prod.fst).Nodup
  ids : ∀ r ∈ s.rows, r.1 < s.names.length
  defs : (s.defs.map Prod.fst).Nodup
  cache : s.cache = none ∨ s.cache = some s.defs

theorem inv_fresh : Inv (fresh : St I D V) := by
  refine ⟨rfl, ?_, ?_, ?_, Or.inl rfl⟩ <;> simp [fresh]

/-! ## Looking up names -/

theorem getNameId_spec {s : St I D V} (h : (s.names.map Prod.fst).Nodup) (name : Name) :
    (name ∉ s.names.map Prod.fst ∧ getNameId s name = .ok none) ∨
    (∃ i info, s.names[i]? = some (name, info) ∧ getNameId s name = .ok (some i)) := by
  by_cases hm : name ∈ s.names.map Prod.fst
  · right
    obtain ⟨i, hi, he⟩ := List.getElem_of_mem hm
    rw [List.length_map] at hi
    rw [List.getElem_map] at he
    refine ⟨i, (s.names[i]).2, by rw [List.getElem?_eq_getElem hi, ← he], ?_⟩
    have hf : ((List.range s.names.length).filter fun (j : Nat) => decide ((s.names[j]?).map Prod.fst = some name)) = [i] := by
      have hiff : ∀ j ∈ List.range s.names.length,
          decide ((s.names[j]?).map Prod.fst = some name) = decide (j = i) := by
        intro j hj
        have hj' : j < s.names.length := List.mem_range.1 hj
        rw [List.getElem?_eq_getElem hj']
        simp only [Option.map_some, Option.some.injEq, decide_eq_decide]
        constructor
        · intro hjn
          have h1 : (s.names.map Prod.fst)[j]'(by rwa [List.length_map]) = (s.names.map Prod.fst)[i]'(by rwa [List.length_map]) := by
            rw [List.getElem_map, List.getElem_map, hjn, he]
          exact (List.Nodup.getElem_inj_iff h).1 h1
        · rintro rfl
          exact he
      rw [List.filter_congr hiff]
      have : (List.range s.names.length).filter (fun j => decide (j = i)) = List.replicate ((List.range s.names.length).count i) i := by
        rw [← List.filter_eq]
      rw [this, List.count_eq_one_of_mem List.nodup_range (List.mem_range.2 hi)]
      rfl
    simp only [getNameId, hf]
  · left
    refine ⟨hm, ?_⟩
    have hf : ((List.range s.names.length).filter fun (j : Nat) => decide ((s.names[j]?).map Prod.fst = some name)) = [] := by
      rw [List.filter_eq_nil_iff]
      intro j hj
      have hj' : j < s.names.length := List.mem_range.1 hj
      rw [List.getElem?_eq_getElem hj']
      simp only [Option.map_some, Option.some.injEq, decide_eq_true_eq]
      intro hjn
      exact hm (List.mem_map.2 ⟨_, List.getElem_mem hj', hjn⟩)
    simp only [getNameId, hf]

/-! ## C256: values are got as they were put -/

/-- Every call but `clearTables` succeeds, keeps the tables consistent, and has the effect that it should have. -/
theorem step_refines [Inhabited I] {s : St I D V} (h : Inv s) (op : Op I D V) (hop : op ≠ .clear) :
    (step s op).2 = .ok () ∧ Inv (step s op).1 ∧ (step s op).1.abs = s.abs.step op := by
  cases op with
  | clear => exact absurd rfl hop
  | delete pat sel =>
    refine ⟨rfl, ⟨h.uid, h.nodup, ?_, h.defs, h.cache⟩, ?_⟩
    · intro r hr
      exact h.ids r (List.mem_filter.1 hr).1
    · simp only [step, deleteValues, St.abs, Abs.step, Abs.mk.injEq, and_true]
      rw [List.filter_map]
      congr 1
      apply List.filter_congr
      intro r hr
      have hi := h.ids r hr
      simp only [Function.comp, List.getElem?_eq_getElem hi, Option.map_some, Option.any_some, Option.getD_some]
  | deleteDef pat =>
    refine ⟨rfl, ⟨h.uid, h.nodup, h.ids, ?_, Or.inl rfl⟩, rfl⟩
    simp only [step, deleteDefValues]
    exact h.defs.sublist (List.Sublist.map _ List.filter_sublist)
  | getDef name =>
    refine ⟨rfl, ⟨h.uid, h.nodup, h.ids, h.defs, ?_⟩, rfl⟩
    right
    simp only [step, getDefValue]
    rcases h.cache with hc | hc <;> rw [hc] <;> rfl
  | putDef name val =>
    have key : (s.defs.filter fun p => decide (p.1 = name)).length = (s.defs.map Prod.fst).count name := by
      rw [List.count_eq_length_filter, List.filter_map, List.length_map]
      congr 1
      apply List.filter_congr
      intro p _
      simp only [Function.comp, beq_eq_decide]
    by_cases hm : name ∈ s.defs.map Prod.fst
    · have hc : (s.defs.filter fun p => decide (p.1 = name)).length = 1 := by
        rw [key]; exact List.count_eq_one_of_mem h.defs hm
      have hany : (s.defs.any fun p => decide (p.1 = name)) = true := by
        obtain ⟨p, hp, hn⟩ := List.mem_map.1 hm
        exact List.any_eq_true.2 ⟨p, hp, by simpa using hn⟩
      simp only [step, putDefValue, Bool.not_true, Bool.false_eq_true, if_false, hc]
      refine ⟨trivial, ⟨h.uid, h.nodup, h.ids, ?_, Or.inl rfl⟩, ?_⟩
      · have : (s.defs.map fun p => if p.1 = name then (name, val) else p).map Prod.fst = s.defs.map Prod.fst := by
          rw [List.map_map]
          apply List.map_congr_left
          intro p _
          by_cases hp : p.1 = name
          · simp [Function.comp, hp]
          · simp [Function.comp, hp]
        dsimp only
        rw [this]
        exact h.defs
      · simp only [St.abs, Abs.step, hany, if_true]
    · have hc : (s.defs.filter fun p => decide (p.1 = name)).length = 0 := by
        rw [key]; exact List.count_eq_zero_of_not_mem hm
      have hany : (s.defs.any fun p => decide (p.1 = name)) = false := by
        rw [List.any_eq_false]
        intro p hp hn
        exact hm (List.mem_map.2 ⟨p, hp, by simpa using hn⟩)
      simp only [step, putDefValue, Bool.not_true, Bool.false_eq_true, if_false, hc]
      refine ⟨trivial, ⟨h.uid, h.nodup, h.ids, ?_, Or.inl rfl⟩, ?_⟩
      · dsimp only
        rw [List.map_append, List.nodup_append]
        refine ⟨h.defs, by simp, ?_⟩
        intro a ha b hb hab
        simp only [List.map_cons, List.map_nil, List.mem_singleton] at hb
        exact hm (by rw [← hb, ← hab]; exact ha)
      · simp only [St.abs, Abs.step, hany, Bool.false_eq_true, if_false]
  | store name info dom val =>
    rcases getNameId_spec h.nodup name with ⟨hm, he⟩ | ⟨i, inf, hi, he⟩
    · simp only [step, store, he, putNewValue, putName, h.uid, if_true]
      refine ⟨rfl, ⟨by simp, ?_, ?_, h.defs, h.cache⟩, ?_⟩
      · dsimp only
        rw [List.map_append, List.nodup_append]
        refine ⟨h.nodup, by simp, ?_⟩
        intro a ha b hb hab
        simp only [List.map_cons, List.map_nil, List.mem_singleton] at hb
        exact hm (by rw [← hb, ← hab]; exact ha)
      · intro r hr
        simp only [List.mem_append, List.mem_singleton] at hr
        simp only [List.length_append, List.length_singleton]
        rcases hr with hr | rfl
        · have := h.ids r hr; omega
        · dsimp only; omega
      · simp only [St.abs, Abs.step, Abs.mk.injEq, and_true, List.map_append, List.map_cons, List.map_nil]
        congr 1
        · apply List.map_congr_left
          intro r hr
          rw [List.getElem?_append_left (h.ids r hr)]
        · simp
    · simp only [step, store, he, putNewValue]
      have hlt : i < s.names.length := (List.getElem?_eq_some_iff.1 hi).1
      refine ⟨rfl, ⟨h.uid, h.nodup, ?_, h.defs, h.cache⟩, ?_⟩
      · intro r hr
        simp only [List.mem_append, List.mem_singleton] at hr
        rcases hr with hr | rfl
        · exact h.ids r hr
        · exact hlt
      · simp only [St.abs, Abs.step, Abs.mk.injEq, and_true, List.map_append, List.map_cons, List.map_nil, hi, Option.map_some,
          Option.getD_some]

/-- C256: after any sequence of calls without `clearTables`, all of which succeed, the tables have what the calls say. -/
theorem run_refines [Inhabited I] (ops : List (Op I D V)) (hops : ∀ op ∈ ops, op ≠ .clear) {s : St I D V} (h : Inv s) :
    (∀ r ∈ (run s ops).2, r = .ok ()) ∧ Inv (run s ops).1 ∧ (run s ops).1.abs = ops.foldl Abs.step s.abs := by
  induction ops generalizing s with
  | nil => exact ⟨by simp [run], h, rfl⟩
  | cons op ops ih =>
    obtain ⟨h1, h2, h3⟩ := step_refines h op (hops op (by simp))
    obtain ⟨i1, i2, i3⟩ := ih (fun o ho => hops o (by simp [ho])) h2
    refine ⟨?_, i2, ?_⟩
    · intro r hr
      simp only [run, List.mem_cons] at hr
      rcases hr with rfl | hr
      · exact h1
      · exact i1 r hr
    · simp only [run, List.foldl_cons, i3, h3]

/-- The domains and values without the row numbers. -/
def found : List (D × V × Nat) ⊕ Option V → Option (List (D × V))
  | .inl l => some (l.map fun r => (r.1, r.2.1))
  | .inr _ => none

theorem filter_zipIdx {α : Type} (l : List α) (p : α → Bool) (k : Nat) :
    ((l.zipIdx k).filter fun r => p r.1).map Prod.fst = l.filter p := by
  induction l generalizing k with
  | nil => rfl
  | cons a l ih =>
    simp only [List.zipIdx_cons, List.filter_cons]
    by_cases hp : p a = true
    · simp only [hp, if_true, List.map_cons, ih]
    · simp only [hp, Bool.false_eq_true, if_false, ih]

theorem id_eq_iff {s : St I D V} (h : Inv s) {i : Nat} {name : Name} {info : I} (hi : s.names[i]? = some (name, info))
    {r : Nat × D × V} (hr : r ∈ s.rows) : r.1 = i ↔ ((s.names[r.1]?).map Prod.fst).getD [] = name := by
  have hrl := h.ids r hr
  obtain ⟨hil, hie⟩ := List.getElem?_eq_some_iff.1 hi
  rw [List.getElem?_eq_getElem hrl]
  simp only [Option.map_some, Option.getD_some]
  constructor
  · intro e
    simp only [e, hie]
  · intro e
    have h1 : (s.names.map Prod.fst)[r.1]'(by rwa [List.length_map]) = (s.names.map Prod.fst)[i]'(by rwa [List.length_map]) := by
      rw [List.getElem_map, List.getElem_map, e, hie]
    exact (List.Nodup.getElem_inj_iff h.nodup).1 h1

/-- C256: reading a name gives exactly the values that are stored for this name in the selected domains, in the order in which they were
stored, and the default value if there are none. -/
theorem load_spec {s : St I D V} (h : Inv s) (name : Name) (sel : D → Bool) :
    let mine := (s.abs.values.filter fun r => decide (r.1 = name) && sel r.2.1).map Prod.snd
    ∃ res, (load s name sel).2 = .ok res ∧ Inv (load s name sel).1 ∧ (load s name sel).1.abs = s.abs ∧
      found res = (if mine = [] then none else some mine) ∧
      (mine = [] → res = .inr (search s.abs.defaults (name.length + 1) name)) := by
  have hdef : ∀ n : Name, Inv (getDefValue s n).1 ∧ (getDefValue s n).1.abs = s.abs ∧
      (getDefValue s n).2 = search s.abs.defaults (n.length + 1) n := by
    intro n
    refine ⟨⟨h.uid, h.nodup, h.ids, h.defs, ?_⟩, rfl, ?_⟩
    · right
      simp only [getDefValue]
      rcases h.cache with hc | hc <;> rw [hc] <;> rfl
    · simp only [getDefValue, St.abs]
      rcases h.cache with hc | hc <;> rw [hc] <;> rfl
  intro mine
  rcases getNameId_spec h.nodup name with ⟨hm, he⟩ | ⟨i, inf, hi, he⟩
  · have hmine : mine = [] := by
      simp only [mine, List.map_eq_nil_iff, List.filter_eq_nil_iff]
      intro r hr hc
      simp only [Bool.and_eq_true, decide_eq_true_eq] at hc
      simp only [St.abs, List.mem_map] at hr
      obtain ⟨q, hq, rfl⟩ := hr
      have hl := h.ids q hq
      rw [List.getElem?_eq_getElem hl] at hc
      exact hm (List.mem_map.2 ⟨_, List.getElem_mem hl, hc.1⟩)
    obtain ⟨d1, d2, d3⟩ := hdef name
    refine ⟨.inr (search s.abs.defaults (name.length + 1) name), ?_, ?_, ?_, ?_, fun _ => rfl⟩
    · simp only [load, he, d3]
    · simp only [load, he]; exact d1
    · simp only [load, he]; exact d2
    · rw [if_pos hmine]; rfl
  · have hsel : mine = (s.rows.filter fun r => decide (r.1 = i) && sel r.2.1).map Prod.snd := by
      simp only [mine, St.abs]
      rw [List.filter_map, List.map_map]
      have : (s.rows.filter ((fun r : Name × D × V => decide (r.1 = name) && sel r.2.1) ∘
          fun r => (((s.names[r.1]?).map Prod.fst).getD [], r.2))) = s.rows.filter fun r => decide (r.1 = i) && sel r.2.1 := by
        apply List.filter_congr
        intro r hr
        simp only [Function.comp]
        congr 1
        rw [decide_eq_decide]
        exact (id_eq_iff h hi hr).symm
      rw [this]
      rfl
    have hz := filter_zipIdx s.rows (fun r => decide (r.1 = i) && sel r.2.1) 0
    cases hq : s.rows.zipIdx.filter fun r => decide (r.1.1 = i) && sel r.1.2.1 with
    | nil =>
      rw [hq] at hz
      have hmine : mine = [] := by rw [hsel, ← hz]; rfl
      obtain ⟨d1, d2, d3⟩ := hdef name
      refine ⟨.inr (search s.abs.defaults (name.length + 1) name), ?_, ?_, ?_, ?_, fun _ => rfl⟩
      · simp only [load, he, getValues, hi, hq, d3, Except.map]
      · simp only [load, he, getValues, hi, hq]; exact d1
      · simp only [load, he, getValues, hi, hq]; exact d2
      · rw [if_pos hmine]; rfl
    | cons a l =>
      rw [hq] at hz
      have hmine : mine = (a :: l).map fun r => r.1.2 := by
        rw [hsel, ← hz, List.map_map]; rfl
      have hne : mine ≠ [] := by rw [hmine]; simp
      refine ⟨.inl ((a :: l).map fun r => (r.1.2.1, r.1.2.2, r.2)), ?_, ?_, ?_, ?_, fun h0 => absurd h0 hne⟩
      · simp only [load, he, getValues, hi, hq, Except.map]
      · simp only [load, he, getValues, hi, hq]; exact h
      · simp only [load, he, getValues, hi, hq]
      · rw [if_neg hne, hmine]
        simp only [found, List.map_map]
        rfl

/-- C256, the whole: what is stored in new tables is read back, for all sequences of calls without `clearTables`. -/
theorem stored_values_read [Inhabited I] (ops : List (Op I D V)) (hops : ∀ op ∈ ops, op ≠ .clear) (name : Name) (sel : D → Bool) :
    let a := ops.foldl Abs.step (⟨[], []⟩ : Abs D V)
    let mine := (a.values.filter fun r => decide (r.1 = name) && sel r.2.1).map Prod.snd
    ∃ res, (load (run (fresh : St I D V) ops).1 name sel).2 = .ok res ∧
      found res = (if mine = [] then none else some mine) ∧
      (mine = [] → res = .inr (search a.defaults (name.length + 1) name)) := by
  obtain ⟨_, h2, h3⟩ := run_refines ops hops (inv_fresh (I := I) (D := D) (V := V))
  obtain ⟨res, r1, _, _, r4, r5⟩ := load_spec h2 name sel
  have e : (fresh : St I D V).abs = ⟨[], []⟩ := rfl
  rw [e] at h3
  rw [h3] at r4 r5
  exact ⟨res, r1, r4, r5⟩

/-- Two values of one name, one of another, and a deletion. -/
example :
    (load (run (fresh : St Unit Nat Nat)
      [.store ['a'] () 1 10, .store ['b'] () 1 20, .store ['a'] () 2 30, .delete (fun n => n == ['a']) (fun d => d == 1)]).1
      ['a'] (fun _ => true)).2.map found = .ok (some [(2, 30)]) := by decide

/-! ## C257: nothing works after clearTables -/

/-- The names are fewer than the keyword says. -/
def Broken (s : St I D V) : Prop := s.names.length < s.uid

theorem broken_step [Inhabited I] {s : St I D V} (h : Broken s) (op : Op I D V) : Broken (step s op).1 := by
  unfold Broken at *
  cases op with
  | clear => simp only [step, clearTables, List.length_nil]; omega
  | delete pat sel => exact h
  | deleteDef pat => exact h
  | getDef name => exact h
  | putDef name val =>
    simp only [step, putDefValue, Bool.not_true, Bool.false_eq_true, if_false]
    split <;> exact h
  | store name info dom val =>
    simp only [step, store]
    split
    · exact h
    · rename_i id _
      cases id with
      | some i => exact h
      | none =>
        simp only [putNewValue, putName, if_neg (Nat.ne_of_lt h), List.length_append, List.length_singleton]
        omega

/-- C257 is violated: after `clearTables` of tables with a name, no name that is not in the tables can be stored, whatever is done in
between; this is not mended by anything. -/
theorem clear_breaks [Inhabited I] (s : St I D V) (h : Inv s) (hn : s.names ≠ []) (ops : List (Op I D V)) (name : Name) (info : I)
    (dom : D) (val : V) (hname : name ∉ (run (clearTables s) ops).1.names.map Prod.fst) :
    (store (run (clearTables s) ops).1 name info dom val).2 = .error .refused := by
  have hb : Broken (run (clearTables s) ops).1 := by
    have h0 : Broken (clearTables s) := by
      unfold Broken
      simp only [clearTables, List.length_nil, h.uid]
      exact List.length_pos_iff.2 hn
    clear hname
    generalize clearTables s = t at h0 ⊢
    induction ops generalizing t with
    | nil => exact h0
    | cons op ops ih => exact ih _ (broken_step h0 op)
  generalize (run (clearTables s) ops).1 = t at hb hname
  have he : getNameId t name = .ok none := by
    have hf : ((List.range t.names.length).filter fun (j : Nat) => decide ((t.names[j]?).map Prod.fst = some name)) = [] := by
      rw [List.filter_eq_nil_iff]
      intro j hj
      have hj' : j < t.names.length := List.mem_range.1 hj
      rw [List.getElem?_eq_getElem hj']
      simp only [Option.map_some, Option.some.injEq, decide_eq_true_eq]
      intro hjn
      exact hname (List.mem_map.2 ⟨_, List.getElem_mem hj', hjn⟩)
    simp only [getNameId, hf]
  simp only [store, he, putNewValue, putName, if_neg (Nat.ne_of_lt hb)]

/-- C257 is violated: default values that were used once are still there after `clearTables`. -/
theorem clear_keeps_defaults (s : St I D V) (h : Inv s) (used name : Name) :
    (getDefValue (clearTables (getDefValue s used).1) name).2 = search s.defs (name.length + 1) name := by
  simp only [getDefValue, clearTables, Option.getD_some]
  rcases h.cache with hc | hc <;> rw [hc] <;> rfl

example : (store (clearTables (run (fresh : St Unit Nat Nat) [.store ['a'] () 1 10]).1) ['a'] () 1 10).2 = .error .refused ∧
    (getDefValue (clearTables (run (fresh : St Unit Nat Nat) [.putDef ['a'] 7, .getDef ['b']]).1) ['a']).2 = some 7 := by decide

/-! ## C258: row numbers -/

/-- A call that does not remove rows. -/
def KeepsRows : Op I D V → Prop
  | .delete _ _ => False
  | .clear => False
  | _ => True

theorem step_keeps [Inhabited I] (s : St I D V) (op : Op I D V) (hk : KeepsRows op) : ∃ more, (step s op).1.rows = s.rows ++ more := by
  cases op with
  | delete _ _ => exact absurd hk (by simp [KeepsRows])
  | clear => exact absurd hk (by simp [KeepsRows])
  | deleteDef pat => exact ⟨[], by simp [step, deleteDefValues]⟩
  | getDef name => exact ⟨[], by simp [step, getDefValue]⟩
  | putDef name val =>
    refine ⟨[], ?_⟩
    simp only [step, putDefValue, Bool.not_true, Bool.false_eq_true, if_false, List.append_nil]
    split <;> rfl
  | store name info dom val =>
    simp only [step, store]
    cases getNameId s name with
    | error e => exact ⟨[], by simp⟩
    | ok id =>
      cases id with
      | some i => exact ⟨[(i, dom, val)], rfl⟩
      | none =>
        by_cases hu : s.names.length = s.uid
        · exact ⟨[(s.uid, dom, val)], by simp only [putNewValue, putName, if_pos hu]⟩
        · exact ⟨[], by simp only [putNewValue, putName, if_neg hu, List.append_nil]⟩

/-- C258: the row number that storing a value gives stays right as long as nothing is deleted: a new value for it replaces exactly
this value. -/
theorem update_row [Inhabited I] {Sh : Type} [DecidableEq Sh] (shape : V → Sh) (s : St I D V) (name : Name) (info : I) (dom : D)
    (val : V) (ops : List (Op I D V)) (hk : ∀ op ∈ ops, KeepsRows op) (id row : Nat)
    (hs : (store s name info dom val).2 = .ok (id, row)) (dom' : D) (val' : V) :
    let t := (run (store s name info dom val).1 ops).1
    t.rows[row]? = some (id, dom, val) ∧ (putOldValue shape t row dom' val').2 = .ok () ∧
    (putOldValue shape t row dom' val').1.rows = t.rows.set row (id, if shape val = shape val' then dom else dom', val') := by
  intro t
  have h0 : (store s name info dom val).1.rows[row]? = some (id, dom, val) := by
    simp only [store] at hs ⊢
    cases hg : getNameId s name with
    | error e => rw [hg] at hs; cases hs
    | ok o =>
      rw [hg] at hs
      cases o with
      | some i =>
        simp only [putNewValue] at hs ⊢
        cases hs
        simp
      | none =>
        by_cases hu : s.names.length = s.uid
        · simp only [putNewValue, putName, if_pos hu] at hs ⊢
          cases hs
          simp
        · simp only [putNewValue, putName, if_neg hu] at hs
          cases hs
  have h1 : ∀ (ops : List (Op I D V)) (u : St I D V), (∀ op ∈ ops, KeepsRows op) → u.rows[row]? = some (id, dom, val) →
      (run u ops).1.rows[row]? = some (id, dom, val) := by
    intro ops
    induction ops with
    | nil => intro u _ hu; exact hu
    | cons op ops ih =>
      intro u hk hu
      obtain ⟨more, hm⟩ := step_keeps u op (hk op (by simp))
      refine ih _ (fun o ho => hk o (by simp [ho])) ?_
      rw [hm, List.getElem?_append_left (List.getElem?_eq_some_iff.1 hu).1]
      exact hu
  have h2 : t.rows[row]? = some (id, dom, val) := h1 ops _ hk h0
  refine ⟨h2, ?_, ?_⟩
  · simp only [putOldValue, h2]
  · simp only [putOldValue, h2]

/-- C258 is violated: after values of one parameter were deleted, a new value for another one replaces that of a third one. -/
theorem update_after_delete :
    ∃ (t : St Unit Nat Nat) (id row : Nat),
      let s := (run (fresh : St Unit Nat Nat) [.store ['a'] () 1 10]).1
      (store s ['b'] () 1 20).2 = .ok (id, row) ∧
      t = (run (store s ['b'] () 1 20).1 [.store ['c'] () 1 30, .delete (fun n => n == ['a']) (fun _ => true)]).1 ∧
      t.abs.values = [(['b'], 1, 20), (['c'], 1, 30)] ∧
      (putOldValue (fun _ => ()) t row 1 21).1.abs.values = [(['b'], 1, 20), (['c'], 1, 21)] :=
  ⟨_, 1, 1, by decide, rfl, by decide, by decide⟩

/-- C258 is violated: a new domain of an old value is not stored when the shape of the values is the same. -/
theorem update_loses_domain {Sh : Type} [DecidableEq Sh] (shape : V → Sh) (s : St I D V) (id row : Nat) (dom dom' : D) (val val' : V)
    (hr : s.rows[row]? = some (id, dom, val)) (hsh : shape val = shape val') :
    (putOldValue shape s row dom' val').1.rows[row]? = some (id, dom, val') := by
  simp only [putOldValue, hr, hsh, if_true]
  rw [List.getElem?_set_self (List.getElem?_eq_some_iff.1 hr).1]

/-! ## C259: two users of a ParmDB -/

/-- C259 is violated: two users that looked for the id of a new name before either stored a value both add the name, after which the name
cannot be used anymore. -/
theorem name_twice [Inhabited I] (s : St I D V) (h : Inv s) (name : Name) (hn : getNameId s name = .ok none) (i1 i2 : I) (d1 d2 : D)
    (v1 v2 : V) :
    let s1 := putNewValue s name none i1 d1 v1
    let s2 := putNewValue s1.1 name none i2 d2 v2
    (∃ r, s1.2 = .ok r) ∧ (∃ r, s2.2 = .ok r) ∧ getNameId s2.1 name = .error .refused := by
  have hu := h.uid
  have hs1 : putNewValue s name none i1 d1 v1 =
      ({ s with names := s.names ++ [(name, i1)], uid := s.uid + 1, rows := s.rows ++ [(s.uid, d1, v1)] }, .ok (s.uid, s.rows.length)) := by
    simp only [putNewValue, putName, if_pos hu.symm]
  intro s1 s2
  have e1 : s1 = _ := hs1
  have hs2 : s2 = ({ s with
      names := s.names ++ [(name, i1)] ++ [(name, i2)], uid := s.uid + 1 + 1,
      rows := s.rows ++ [(s.uid, d1, v1)] ++ [(s.uid + 1, d2, v2)] }, .ok (s.uid + 1, s.rows.length + 1)) := by
    simp only [s2, e1, putNewValue, putName]
    rw [if_pos (by simp [hu])]
    simp
  rw [e1, hs2]
  refine ⟨⟨_, rfl⟩, ⟨_, rfl⟩, ?_⟩
  rcases getNameId_spec h.nodup name with ⟨hm, _⟩ | ⟨i, inf, _, he⟩
  · have hf : ((List.range (s.names.length + 1 + 1)).filter fun (j : Nat) =>
        decide (((s.names ++ [(name, i1)] ++ [(name, i2)])[j]?).map Prod.fst = some name)) = [s.names.length, s.names.length + 1] := by
      rw [List.range_succ, List.range_succ, List.filter_append, List.filter_append]
      have h0 : ((List.range s.names.length).filter fun (j : Nat) =>
          decide (((s.names ++ [(name, i1)] ++ [(name, i2)])[j]?).map Prod.fst = some name)) = [] := by
        rw [List.filter_eq_nil_iff]
        intro j hj
        have hj' : j < s.names.length := List.mem_range.1 hj
        rw [List.append_assoc, List.getElem?_append_left hj', List.getElem?_eq_getElem hj']
        simp only [Option.map_some, Option.some.injEq, decide_eq_true_eq]
        intro hjn
        exact hm (List.mem_map.2 ⟨_, List.getElem_mem hj', hjn⟩)
      rw [h0]
      simp
    simp only [getNameId, List.length_append, List.length_singleton]
    rw [hf]
  · rw [hn] at he; cases he

/-! ## C260: default values of categories -/

/-- `p` is the name itself or one of the categories it is in: the name is `p`, or starts with `p` and a colon. -/
def Category (p name : Name) : Prop := p = name ∨ ∃ t, name = p ++ ':' :: t

theorem parent_spec (name : Name) :
    (parent name = none ∧ ':' ∉ name) ∨ ∃ p t, parent name = some p ∧ name = p ++ ':' :: t ∧ ':' ∉ t := by
  unfold parent
  have hsplit := List.takeWhile_append_dropWhile (p := fun c => decide (c ≠ ':')) (l := name.reverse)
  have htake : ':' ∉ name.reverse.takeWhile (fun c => decide (c ≠ ':')) := by
    intro h
    have := List.all_eq_true.1 (List.all_takeWhile (p := fun c => decide (c ≠ ':')) (l := name.reverse)) _ h
    simp at this
  cases hd : name.reverse.dropWhile (fun c => decide (c ≠ ':')) with
  | nil =>
    left
    rw [hd, List.append_nil] at hsplit
    refine ⟨rfl, ?_⟩
    rw [hsplit] at htake
    simpa using htake
  | cons c t =>
    right
    have hc : c = ':' := by
      have := List.head?_dropWhile_not (fun c => decide (c ≠ ':')) name.reverse
      rw [hd] at this
      simpa using this
    refine ⟨t.reverse, (name.reverse.takeWhile (fun c => decide (c ≠ ':'))).reverse, rfl, ?_, by simpa using htake⟩
    rw [hd, hc] at hsplit
    have := congrArg List.reverse hsplit
    simpa [List.append_assoc] using this.symm

theorem category_parent {p q t name : Name} (hn : name = q ++ ':' :: t) (ht : ':' ∉ t) (hp : Category p name) :
    p = name ∨ Category p q := by
  rcases hp with rfl | ⟨u, hu⟩
  · left; rfl
  · right
    have he : p ++ ':' :: u = q ++ ':' :: t := hu.symm.trans hn
    rcases List.append_eq_append_iff.1 he with ⟨x, h1, h2⟩ | ⟨x, h1, h2⟩
    · cases x with
      | nil => left; simpa using h1.symm
      | cons a x =>
        simp only [List.cons_append, List.cons.injEq] at h2
        right
        exact ⟨x, by rw [h1, ← h2.1]⟩
    · cases x with
      | nil => left; simpa using h1
      | cons a x =>
        simp only [List.cons_append, List.cons.injEq] at h2
        exact absurd (by rw [h2.2]; simp) ht

theorem search_spec (l : List (Name × V)) (fuel : Nat) (name : Name) (hf : name.length < fuel) :
    (search l fuel name = none → ∀ p, Category p name → lookup l p = none) ∧
    ∀ v, search l fuel name = some v → ∃ p, Category p name ∧ lookup l p = some v ∧
      ∀ q, Category q name → p.length < q.length → lookup l q = none := by
  induction fuel generalizing name with
  | zero => omega
  | succ fuel ih =>
    simp only [search]
    cases hl : lookup l name with
    | some v =>
      simp only [reduceCtorEq, false_implies, Option.some.injEq, true_and]
      rintro w rfl
      refine ⟨name, Or.inl rfl, hl, ?_⟩
      rintro q (rfl | ⟨t, ht⟩) hlen
      · omega
      · rw [ht, List.length_append] at hlen; omega
    | none =>
      rcases parent_spec name with ⟨hp, hno⟩ | ⟨p, t, hp, hn, ht⟩
      · simp only [hp, reduceCtorEq, false_implies, implies_true, and_true, forall_const]
        rintro q (rfl | ⟨t, ht⟩)
        · exact hl
        · exact absurd (by rw [ht]; simp) hno
      · simp only [hp]
        have hlen : p.length < fuel := by rw [hn, List.length_append, List.length_cons] at hf; omega
        obtain ⟨i1, i2⟩ := ih p hlen
        have lift : ∀ q, Category q p → Category q name := by
          rintro q (rfl | ⟨u, hu⟩)
          · exact Or.inr ⟨t, hn⟩
          · exact Or.inr ⟨u ++ ':' :: t, by rw [hn, hu]; simp⟩
        constructor
        · intro h q hq
          rcases category_parent hn ht hq with rfl | hq
          · exact hl
          · exact i1 h q hq
        · intro v hv
          obtain ⟨q, q1, q2, q3⟩ := i2 v hv
          refine ⟨q, lift q q1, q2, fun r hr hlen => ?_⟩
          rcases category_parent hn ht hr with rfl | hr
          · exact hl
          · exact q3 r hr hlen

/-- C260: after any sequence of calls without `clearTables`, the default value of a name is that of the most specific category that has
one now: there is none for a longer one. -/
theorem default_spec [Inhabited I] (ops : List (Op I D V)) (hops : ∀ op ∈ ops, op ≠ .clear) (name : Name) :
    let a := ops.foldl Abs.step (⟨[], []⟩ : Abs D V)
    let r := (getDefValue (run (fresh : St I D V) ops).1 name).2
    (r = none ↔ ∀ p, Category p name → a.default? p = none) ∧
    ∀ v, r = some v → ∃ p, Category p name ∧ a.default? p = some v ∧ ∀ q, Category q name → p.length < q.length → a.default? q = none := by
  obtain ⟨_, h2, h3⟩ := run_refines ops hops (inv_fresh (I := I) (D := D) (V := V))
  have e : (fresh : St I D V).abs = ⟨[], []⟩ := rfl
  rw [e] at h3
  intro a r
  have hdefs : (run (fresh : St I D V) ops).1.defs = a.defaults := congrArg Abs.defaults h3
  have hr : r = search a.defaults (name.length + 1) name := by
    simp only [r, getDefValue]
    rw [← hdefs]
    rcases h2.cache with hc | hc <;> rw [hc] <;> rfl
  have hnd : (a.defaults.map Prod.fst).Nodup := by rw [← hdefs]; exact h2.defs
  have hlook : ∀ p, lookup a.defaults p = a.default? p := by
    intro p
    unfold lookup Abs.default?
    congr 1
    generalize a.defaults = l at hnd
    induction l with
    | nil => rfl
    | cons x l ih =>
      rw [List.map_cons, List.nodup_cons] at hnd
      rw [List.reverse_cons, List.find?_append, ih hnd.2, List.find?_cons]
      by_cases hx : x.1 = p
      · have hnone : l.find? (fun q => decide (q.1 = p)) = none := by
          rw [List.find?_eq_none]
          intro q hq hqp
          simp only [decide_eq_true_eq] at hqp
          exact hnd.1 (by rw [hx, ← hqp]; exact List.mem_map.2 ⟨q, hq, rfl⟩)
        simp [hx, hnone]
      · simp [hx]
  obtain ⟨s1, s2⟩ := search_spec a.defaults (name.length + 1) name (by omega)
  rw [hr]
  refine ⟨⟨?_, ?_⟩, ?_⟩
  · intro h p hp
    rw [← hlook]; exact s1 h p hp
  · intro h
    cases hs : search a.defaults (name.length + 1) name with
    | none => rfl
    | some v =>
      obtain ⟨p, hp, hv, _⟩ := s2 v hs
      rw [hlook, h p hp] at hv
      cases hv
  · intro v hv
    obtain ⟨p, h1, h2, h3⟩ := s2 v hv
    refine ⟨p, h1, by rw [← hlook]; exact h2, fun q hq hl => by rw [← hlook]; exact h3 q hq hl⟩

example : (getDefValue (run (fresh : St Unit Nat Nat)
      [.putDef "Gain".toList 1, .getDef [], .putDef "Gain:0:0".toList 2, .putDef "Gain:0".toList 3]).1 "Gain:0:0:Real".toList).2 = some 2 := by
  decide

end DP3.ParmTables
