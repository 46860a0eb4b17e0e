import Verif.ParmSet.Model
import Mathlib.Tactic.SplitIfs
import Mathlib.Data.List.Nodup
import Mathlib.Data.List.Perm.Subperm

/-!
# Properties of the set of parameters

C287 identifiers of parameters, C288 values of new parameters.
-/

namespace DP3.ParmSet

set_option linter.unusedSimpArgs false

/-- What adding parameters keeps: names and ParmDBs occur once, and the ParmDB of each parameter is known. -/
structure Ok (s : PSet) : Prop where
  names : (s.parms.map Key.name).Nodup
  dbs : s.dbs.Nodup
  known : ∀ k ∈ s.parms, k.db ∈ s.dbs

theorem lookup_none (s : PSet) (name : String) : lookup s name = none ↔ name ∉ s.parms.map Key.name := by
  simp [lookup, List.findIdx?_eq_none_iff]

theorem lookup_some (s : PSet) (name : String) (i : Nat) (h : lookup s name = some i) :
    s.parms[i]?.map Key.name = some name := by
  unfold lookup at h
  rw [List.findIdx?_eq_some_iff_getElem] at h
  obtain ⟨hi, hn, -⟩ := h
  simp only [decide_eq_true_eq] at hn
  simp [List.getElem?_eq_getElem hi, hn]

theorem addParm_ok (nameIds : Nat → String → Option Nat) (s : PSet) (db : Nat) (name : String) (h : Ok s) :
    Ok (addParm nameIds s db name).2 := by
  unfold addParm
  cases hl : lookup s name with
  | some i => exact h
  | none =>
    have hn := (lookup_none s name).mp hl
    refine ⟨?_, ?_, ?_⟩
    · simp only [List.map_append, List.map_cons, List.map_nil]
      rw [List.nodup_append]
      refine ⟨h.names, by simp, ?_⟩
      intro a ha b hb hab
      simp only [List.mem_singleton] at hb
      exact hn (by rw [← hb, ← hab]; exact ha)
    · by_cases hd : db ∈ s.dbs
      · simp [hd, h.dbs]
      · simp only [hd, if_false]
        rw [List.nodup_append]
        refine ⟨h.dbs, by simp, ?_⟩
        intro a ha b hb hab
        simp only [List.mem_singleton] at hb
        exact hd (by rw [← hb, ← hab]; exact ha)
    · intro k hk
      simp only [List.mem_append, List.mem_singleton] at hk
      by_cases hd : db ∈ s.dbs
      · simp only [hd, if_true]
        rcases hk with hk | rfl
        · exact h.known k hk
        · exact hd
      · simp only [hd, if_false, List.mem_append, List.mem_singleton]
        rcases hk with hk | rfl
        · exact .inl (h.known k hk)
        · exact .inr rfl

theorem build_ok (nameIds : Nat → String → Option Nat) (reqs : List (Nat × String)) : Ok (build nameIds reqs) := by
  unfold build
  have h0 : Ok ⟨[], []⟩ := ⟨by simp, by simp, by simp⟩
  generalize (⟨[], []⟩ : PSet) = s at h0
  induction reqs generalizing s with
  | nil => exact h0
  | cons r rs ih => exact ih _ (addParm_ok nameIds s r.1 r.2 h0)

/-! ## C287: identifiers of parameters -/

/-- C287: the id that is given belongs to the name, no other parameter has the name, and the ids given before stay the same. -/
theorem addParm_id (nameIds : Nat → String → Option Nat) (reqs : List (Nat × String)) (db : Nat) (name : String) :
    let s := build nameIds reqs
    let r := addParm nameIds s db name
    r.2.parms[r.1]?.map Key.name = some name ∧ (r.2.parms.map Key.name).Nodup ∧
      ∀ j < s.parms.length, r.2.parms[j]? = s.parms[j]? := by
  intro s r
  refine ⟨?_, (addParm_ok nameIds s db name (build_ok nameIds reqs)).names, ?_⟩
  · simp only [r, addParm]
    cases hl : lookup s name with
    | some i => exact lookup_some s name i hl
    | none => simp
  · intro j hj
    simp only [r, addParm]
    cases hl : lookup s name with
    | some i => rfl
    | none => simp [List.getElem?_append_left hj]

example : (addParm (fun _ _ => some 4) (build (fun _ _ => some 4) [(0, "a"), (1, "b"), (0, "a")]) 1 "c").1 = 2 ∧
    (addParm (fun _ _ => some 4) (build (fun _ _ => some 4) [(0, "a"), (1, "b")]) 0 "b").1 = 1 := by decide +kernel

/-- C287: the parameter is that of the given ParmDB, if its name has not been added before. -/
theorem addParm_db_partial (nameIds : Nat → String → Option Nat) (s : PSet) (db : Nat) (name : String)
    (h : name ∉ s.parms.map Key.name) :
    (addParm nameIds s db name).2.parms[(addParm nameIds s db name).1]? = some ⟨db, name, nameIds db name⟩ := by
  have hl := (lookup_none s name).mpr h
  simp [addParm, hl]

example : "c" ∉ (build (fun _ _ => some 4) [(0, "a"), (1, "b")]).parms.map Key.name := by decide +kernel

/-- C287 does not hold if a name is in two ParmDBs: the second one is ignored, and its parameter is that of the first one. -/
theorem addParm_other_db (nameIds : Nat → String → Option Nat) (db db' : Nat) (name : String) (h : db ≠ db') :
    let s := build nameIds [(db, name)]
    let r := addParm nameIds s db' name
    r.2.parms[r.1]?.map Key.db = some db ∧ db' ∉ r.2.dbs := by
  simp [build, addParm, lookup, Ne.symm h]

example : (0 : Nat) ≠ 1 := by decide

/-! ## C288: values of new parameters -/

theorem mem_ofDb (s : PSet) (start db j : Nat) :
    j ∈ ofDb s start db ↔ start ≤ j ∧ s.parms[j]?.map Key.db = some db := by
  simp only [ofDb, List.mem_filter, List.mem_range, Bool.and_eq_true, decide_eq_true_eq]
  constructor
  · exact fun h => h.2
  · intro h
    refine ⟨?_, h⟩
    by_contra hj
    rw [List.getElem?_eq_none (by omega)] at h
    simp at h

theorem nodup_ofDb (s : PSet) (start db : Nat) : (ofDb s start db).Nodup := List.Nodup.filter _ List.nodup_range

theorem fill_nil (s : PSet) (start : Nat) (dbs : List Nat) (h : (dbs.flatMap (ofDb s start)).length = 0) :
    ∀ todo, fill s start dbs todo = [] := by
  induction dbs with
  | nil => intro todo; rfl
  | cons db dbs ih =>
    intro todo
    simp only [List.flatMap_cons, List.length_append] at h
    have h1 : ofDb s start db = [] := List.eq_nil_of_length_eq_zero (by omega)
    simp [fill, h1, ih (by omega)]

theorem fill_all (s : PSet) (start : Nat) (dbs : List Nat) : ∀ todo, (dbs.flatMap (ofDb s start)).length ≤ todo →
    fill s start dbs todo = dbs.flatMap fun db => (ofDb s start db).map fun j => (j, db) := by
  induction dbs with
  | nil => intro todo _; rfl
  | cons db dbs ih =>
    intro todo h
    simp only [List.flatMap_cons, List.length_append] at h
    have hn : ((ofDb s start db).filter (stored s)).length ≤ (ofDb s start db).length := List.length_filter_le _ _
    simp only [fill, List.flatMap_cons]
    congr 1
    split_ifs with hc
    · rw [← ih 0 (by omega), fill_nil s start dbs (by omega)]
    · exact ih _ (by omega)

theorem flatMap_le (s : PSet) (start : Nat) (h : s.dbs.Nodup) :
    (s.dbs.flatMap (ofDb s start)).length ≤ s.parms.length - start := by
  have hn : (s.dbs.flatMap (ofDb s start)).Nodup := by
    rw [List.nodup_flatMap]
    refine ⟨fun db _ => nodup_ofDb s start db, h.imp ?_⟩
    intro a b hab j ha hb
    rw [mem_ofDb] at ha hb
    rw [ha.2] at hb
    exact hab (Option.some.inj hb.2)
  have hs : s.dbs.flatMap (ofDb s start) ⊆ List.range' start (s.parms.length - start) := by
    intro j hj
    rw [List.mem_flatMap] at hj
    obtain ⟨db, -, hj⟩ := hj
    have h1 := (mem_ofDb s start db j).mp hj
    have h2 : j < s.parms.length := by
      by_contra hc
      rw [List.getElem?_eq_none (by omega)] at h1
      simp at h1
    rw [List.mem_range'_1]
    omega
  simpa using (List.subperm_of_subset hn hs).length_le

/-- C288: each parameter added since the last time gets values, once, from its own ParmDB; the others keep theirs. -/
theorem getValues_new (nameIds : Nat → String → Option Nat) (reqs : List (Nat × String)) (start : Nat) :
    let s := build nameIds reqs
    (getValues s start).Nodup ∧
      ∀ j db, (j, db) ∈ getValues s start ↔ start ≤ j ∧ s.parms[j]?.map Key.db = some db := by
  intro s
  have hok : Ok s := build_ok nameIds reqs
  have hf : getValues s start = s.dbs.flatMap fun db => (ofDb s start db).map fun j => (j, db) :=
    fill_all s start s.dbs _ (flatMap_le s start hok.dbs)
  rw [hf]
  constructor
  · rw [List.nodup_flatMap]
    refine ⟨fun db _ => (nodup_ofDb s start db).map fun a b hab => (Prod.mk.inj hab).1, hok.dbs.imp ?_⟩
    intro a b hab p ha hb
    rw [List.mem_map] at ha hb
    obtain ⟨_, _, rfl⟩ := ha
    obtain ⟨_, _, hp⟩ := hb
    exact hab (Prod.mk.inj hp).2.symm
  · intro j db
    simp only [List.mem_flatMap, List.mem_map, Prod.mk.injEq]
    constructor
    · rintro ⟨db', -, j', hj, rfl, rfl⟩
      exact (mem_ofDb s start _ _).mp hj
    · intro hj
      refine ⟨db, ?_, j, (mem_ofDb s start db j).mpr hj, rfl, rfl⟩
      cases hk : s.parms[j]? with
      | none => rw [hk] at hj; simp at hj
      | some k =>
        rw [hk] at hj
        have : k.db = db := by simpa using hj.2
        rw [← this]
        exact hok.known k (List.mem_of_getElem? hk)

example : getValues (build (fun db n => if n = "b" then none else some db) [(5, "a"), (7, "b"), (5, "c"), (7, "d")]) 1 =
    [(2, 5), (1, 7), (3, 7)] := by decide +kernel

end DP3.ParmSet
