import Verif.ParmTables.Registry
import Mathlib.Tactic.Linarith
import Mathlib.Data.List.Nodup
import Mathlib.Data.List.Basic

/-! Properties of the registry of open ParmDBs, parmdb/ParmDB.cc. -/

namespace DP3.ParmTables.Registry
set_option linter.unusedSimpArgs false

/-- The registry is consistent. -/
structure Inv (g : Reg) : Prop where
  /-- a name is registered once -/
  names : (g.names.map Prod.fst).Nodup
  /-- a rep exists once -/
  reps : (g.reps.map Prod.fst).Nodup
  /-- numbers of reps were given out -/
  old : ∀ p ∈ g.reps, p.1 < g.next
  /-- an entry for each registered name, with a rep that has this name -/
  named : ∀ p ∈ g.names, ∃ r c, g.dbs[p.2]? = some (some r) ∧ (r, p.1, c) ∈ g.reps
  /-- each rep is registered -/
  registered : ∀ p ∈ g.reps, ∃ i, (p.2.1, i) ∈ g.names ∧ g.dbs[i]? = some (some p.1)
  /-- each entry that is not free is that of a name -/
  entries : ∀ (i : Nat) r, g.dbs[i]? = some (some r) → ∃ n, (n, i) ∈ g.names
  /-- the count is the number of objects -/
  counts : ∀ p ∈ g.reps, p.2.2 = g.handles.count p.1 ∧ 0 < p.2.2
  /-- each object has a rep that exists -/
  handles : ∀ r ∈ g.handles, r ∈ g.reps.map Prod.fst
  /-- names and entries that are not free are as many -/
  size : g.names.length = g.dbs.countP (fun x => decide (x ≠ none))

theorem inv_empty : Inv empty := by
  constructor <;> simp [empty]

theorem findName_some {g : Reg} {name : String} {i : Nat} (h : findName g name = some i) : (name, i) ∈ g.names := by
  unfold findName at h
  rw [Option.map_eq_some_iff] at h
  obtain ⟨p, hp, rfl⟩ := h
  have h1 := List.mem_of_find?_eq_some hp
  have h2 := List.find?_some hp
  simp only [decide_eq_true_eq] at h2
  rw [← h2]
  exact h1

theorem findName_none {g : Reg} {name : String} (h : findName g name = none) : name ∉ g.names.map Prod.fst := by
  unfold findName at h
  rw [Option.map_eq_none_iff, List.find?_eq_none] at h
  intro hm
  obtain ⟨p, hp, hn⟩ := List.mem_map.1 hm
  exact h p hp (by simpa using hn)

theorem nodup_fst {α β : Type} {l : List (α × β)} (h : (l.map Prod.fst).Nodup) {a : α} {b c : β} (h1 : (a, b) ∈ l) (h2 : (a, c) ∈ l) :
    b = c := by
  have := List.inj_on_of_nodup_map h h1 h2 rfl
  exact (Prod.mk.inj this).2

theorem findName_of_mem {g : Reg} (h : Inv g) {name : String} {i : Nat} (hm : (name, i) ∈ g.names) : findName g name = some i := by
  cases hf : findName g name with
  | none => exact absurd (List.mem_map.2 ⟨_, hm, rfl⟩) (findName_none hf)
  | some j => rw [nodup_fst h.names hm (findName_some hf)]

/-- Adding an object for a rep that exists. -/
theorem link_inv {g : Reg} (h : Inv g) {r : Nat} (hr : r ∈ g.reps.map Prod.fst) :
    ∃ g', link g r = .ok g' ∧ Inv { g' with handles := g'.handles ++ [r] } ∧ g'.names = g.names ∧ g'.dbs = g.dbs ∧
      g'.handles = g.handles ∧ ∀ r' n, (∃ c, (r', n, c) ∈ g'.reps) ↔ ∃ c, (r', n, c) ∈ g.reps := by
  have hany : (g.reps.any fun p => decide (p.1 = r)) = true := by
    obtain ⟨p, hp, hn⟩ := List.mem_map.1 hr
    exact List.any_eq_true.2 ⟨p, hp, by simpa using hn⟩
  have hfst : (g.reps.map fun p => if p.1 = r then (p.1, p.2.1, p.2.2 + 1) else p).map Prod.fst = g.reps.map Prod.fst := by
    rw [List.map_map]
    apply List.map_congr_left
    intro p _
    by_cases hp : p.1 = r <;> simp [Function.comp, hp]
  have hmem : ∀ r' n, (∃ c, (r', n, c) ∈ g.reps.map fun p => if p.1 = r then (p.1, p.2.1, p.2.2 + 1) else p) ↔
      ∃ c, (r', n, c) ∈ g.reps := by
    intro r' n
    constructor
    · rintro ⟨c, hc⟩
      obtain ⟨⟨a, b, d⟩, hp, he⟩ := List.mem_map.1 hc
      by_cases hpr : a = r
      · simp only [hpr, if_true, Prod.mk.injEq] at he
        obtain ⟨rfl, rfl, _⟩ := he
        exact ⟨d, by rw [← hpr]; exact hp⟩
      · simp only [hpr, if_false, Prod.mk.injEq] at he
        obtain ⟨rfl, rfl, rfl⟩ := he
        exact ⟨d, hp⟩
    · rintro ⟨c, hc⟩
      by_cases hpr : r' = r
      · exact ⟨c + 1, List.mem_map.2 ⟨_, hc, by simp [hpr]⟩⟩
      · exact ⟨c, List.mem_map.2 ⟨_, hc, by simp [hpr]⟩⟩
  refine ⟨{ g with reps := g.reps.map fun p => if p.1 = r then (p.1, p.2.1, p.2.2 + 1) else p }, ?_, ?_, rfl, rfl, rfl, hmem⟩
  · simp only [link, hany, if_true]
  · refine ⟨h.names, ?_, ?_, ?_, ?_, h.entries, ?_, ?_, h.size⟩
    · dsimp only; rw [hfst]; exact h.reps
    · intro p hp
      obtain ⟨q, hq, rfl⟩ := List.mem_map.1 hp
      have := h.old q hq
      by_cases hqr : q.1 = r <;> simp [hqr] <;> omega
    · intro p hp
      obtain ⟨r', c, h1, h2⟩ := h.named p hp
      obtain ⟨c', h3⟩ := (hmem r' p.1).2 ⟨c, h2⟩
      exact ⟨r', c', h1, h3⟩
    · intro p hp
      obtain ⟨c, hc⟩ := (hmem p.1 p.2.1).1 ⟨p.2.2, hp⟩
      exact h.registered (p.1, p.2.1, c) hc
    · intro p hp
      obtain ⟨q, hq, rfl⟩ := List.mem_map.1 hp
      obtain ⟨h1, h2⟩ := h.counts q hq
      by_cases hqr : q.1 = r
      · simp only [hqr, if_true, List.count_append, List.count_singleton_self]
        rw [← hqr]
        omega
      · simp only [hqr, if_false, List.count_append]
        rw [List.count_singleton]
        have : (r == q.1) = false := by simpa using fun e => hqr e.symm
        simp only [this, Bool.false_eq_true, if_false]
        omega
    · intro x hx
      dsimp only
      rw [hfst]
      simp only [List.mem_append, List.mem_singleton] at hx
      rcases hx with hx | rfl
      · exact h.handles x hx
      · exact hr

theorem freeEntry_spec {dbs : List (Option Nat)} (h : dbs.countP (fun x => decide (x ≠ none)) ≠ dbs.length) :
    dbs[freeEntry dbs]? = some none := by
  have hex : ∃ x ∈ dbs, decide (x = none) = true := by
    by_contra hc
    apply h
    rw [List.countP_eq_length]
    intro x hx
    simp only [decide_eq_true_eq, ne_eq]
    intro hn
    exact hc ⟨x, hx, by simpa using hn⟩
  have hlt := List.findIdx_lt_length_of_exists (p := fun x => decide (x = (none : Option Nat))) hex
  have := List.findIdx_getElem (w := hlt)
  unfold freeEntry
  rw [List.getElem?_eq_getElem hlt]
  simpa using this

theorem countP_set {dbs : List (Option Nat)} {i : Nat} (r : Nat) (h : dbs[i]? = some none) :
    (dbs.set i (some r)).countP (fun x => decide (x ≠ none)) = dbs.countP (fun x => decide (x ≠ none)) + 1 := by
  induction dbs generalizing i with
  | nil => simp at h
  | cons x xs ih =>
    cases i with
    | zero =>
      simp only [List.getElem?_cons_zero, Option.some.injEq] at h
      subst h
      simp
    | succ i =>
      simp only [List.getElem?_cons_succ] at h
      simp only [List.set_cons_succ, List.countP_cons, ih h]
      omega

theorem countP_unset {dbs : List (Option Nat)} {i r : Nat} (h : dbs[i]? = some (some r)) :
    (dbs.set i none).countP (fun x => decide (x ≠ none)) + 1 = dbs.countP (fun x => decide (x ≠ none)) := by
  induction dbs generalizing i with
  | nil => simp at h
  | cons x xs ih =>
    cases i with
    | zero =>
      simp only [List.getElem?_cons_zero, Option.some.injEq] at h
      subst h
      simp
    | succ i =>
      simp only [List.getElem?_cons_succ] at h
      simp only [List.set_cons_succ, List.countP_cons]
      have := ih h
      omega

/-- Opening: what the program gets. -/
theorem open_inv {g : Reg} (h : Inv g) (name : String) :
    ∃ g' r, openDb g name = .ok (g', r) ∧ Inv g' ∧ g'.handles = g.handles ++ [r] ∧ (∃ c, (r, name, c) ∈ g'.reps) ∧
      ((∃ r' c, (r', name, c) ∈ g.reps) → ∃ c, (r, name, c) ∈ g.reps) ∧
      ((¬ ∃ r' c, (r', name, c) ∈ g.reps) → r ∉ g.reps.map Prod.fst ∧ r ∉ g.handles) ∧
      ∀ r' n c, (r', n, c) ∈ g.reps → ∃ c', (r', n, c') ∈ g'.reps := by
  cases hf : findName g name with
  | some i =>
    have hm := findName_some hf
    obtain ⟨r, c, hi, hc⟩ := h.named _ hm
    obtain ⟨g', hl, hinv, e1, e2, e3, e4⟩ := link_inv h (List.mem_map.2 ⟨_, hc, rfl⟩)
    refine ⟨{ g' with handles := g'.handles ++ [r] }, r, ?_, hinv, by simp [e3], (e4 r name).2 ⟨c, hc⟩, fun _ => ⟨c, hc⟩,
      fun hn => absurd ⟨r, c, hc⟩ hn, fun r' n c hc => (e4 r' n).2 ⟨c, hc⟩⟩
    simp only [openDb, hf, hi, hl, Except.map]
  | none =>
    have hnm := findName_none hf
    have hnext : g.next ∉ g.reps.map Prod.fst := by
      intro hx
      obtain ⟨p, hp, he⟩ := List.mem_map.1 hx
      have := h.old p hp
      omega
    have hnoname : ∀ p ∈ g.reps, p.2.1 ≠ name := by
      intro p hp he
      obtain ⟨i, hi, _⟩ := h.registered p hp
      exact hnm (by rw [← he]; exact List.mem_map.2 ⟨_, hi, rfl⟩)
    have hh : g.next ∉ g.handles := fun hx => hnext (h.handles _ hx)
    -- the entry of the new rep
    obtain ⟨dbnr, dbs, ho, hnew, hold, hcount, hback⟩ : ∃ dbnr dbs,
        openDb g name = .ok (⟨g.names ++ [(name, dbnr)], dbs, g.reps ++ [(g.next, name, 1)], g.next + 1, g.handles ++ [g.next]⟩, g.next) ∧
        dbs[dbnr]? = some (some g.next) ∧ (∀ (i : Nat) r, g.dbs[i]? = some (some r) → dbs[i]? = some (some r)) ∧
        dbs.countP (fun x => decide (x ≠ none)) = g.dbs.countP (fun x => decide (x ≠ none)) + 1 ∧
        (∀ (i : Nat) r, dbs[i]? = some (some r) → i = dbnr ∨ g.dbs[i]? = some (some r)) := by
      by_cases hs : g.dbs.length = g.names.length
      · refine ⟨g.dbs.length, g.dbs ++ [some g.next], ?_, by simp, ?_, by simp, ?_⟩
        · simp only [openDb, hf, if_pos hs]
        · intro i r hi
          rw [List.getElem?_append_left (List.getElem?_eq_some_iff.1 hi).1, hi]
        · intro i r hi
          rcases Nat.lt_trichotomy i g.dbs.length with hlt | heq | hgt
          · right; rwa [List.getElem?_append_left hlt] at hi
          · left; exact heq
          · rw [List.getElem?_eq_none (by simp; omega)] at hi; cases hi
      · have hfree := freeEntry_spec (dbs := g.dbs) (by rw [← h.size]; omega)
        have hlt := (List.getElem?_eq_some_iff.1 hfree).1
        refine ⟨freeEntry g.dbs, g.dbs.set (freeEntry g.dbs) (some g.next), ?_, ?_, ?_, countP_set _ hfree, ?_⟩
        · simp only [openDb, hf, if_neg hs]
        · rw [List.getElem?_set_self hlt]
        · intro i r hi
          rw [List.getElem?_set_ne]
          · exact hi
          · intro e
            rw [← e, hfree] at hi
            cases hi
        · intro i r hi
          by_cases he : i = freeEntry g.dbs
          · left; exact he
          · right; rwa [List.getElem?_set_ne (Ne.symm he)] at hi
    refine ⟨_, g.next, ho, ?_, rfl, ⟨1, by simp⟩, ?_, fun _ => ⟨hnext, hh⟩, fun r' n c hc => ⟨c, by simp [hc]⟩⟩
    · refine ⟨?_, ?_, ?_, ?_, ?_, ?_, ?_, ?_, ?_⟩
      · dsimp only
        rw [List.map_append, List.nodup_append]
        refine ⟨h.names, by simp, ?_⟩
        intro a ha b hb hab
        simp only [List.map_cons, List.map_nil, List.mem_singleton] at hb
        exact hnm (by rw [← hb, ← hab]; exact ha)
      · dsimp only
        rw [List.map_append, List.nodup_append]
        refine ⟨h.reps, by simp, ?_⟩
        intro a ha b hb hab
        simp only [List.map_cons, List.map_nil, List.mem_singleton] at hb
        exact hnext (by rw [← hb, ← hab]; exact ha)
      · intro p hp
        simp only [List.mem_append, List.mem_singleton] at hp
        rcases hp with hp | rfl
        · have := h.old p hp; dsimp only; omega
        · dsimp only; omega
      · intro p hp
        simp only [List.mem_append, List.mem_singleton] at hp
        rcases hp with hp | rfl
        · obtain ⟨r, c, h1, h2⟩ := h.named p hp
          exact ⟨r, c, hold _ _ h1, by simp [h2]⟩
        · exact ⟨g.next, 1, hnew, by simp⟩
      · intro p hp
        simp only [List.mem_append, List.mem_singleton] at hp
        rcases hp with hp | rfl
        · obtain ⟨i, h1, h2⟩ := h.registered p hp
          exact ⟨i, by simp [h1], hold _ _ h2⟩
        · exact ⟨dbnr, by simp, hnew⟩
      · intro i r hi
        rcases hback i r hi with rfl | hi
        · exact ⟨name, by simp⟩
        · obtain ⟨n, hn⟩ := h.entries i r hi
          exact ⟨n, by simp [hn]⟩
      · intro p hp
        simp only [List.mem_append, List.mem_singleton] at hp
        dsimp only
        rcases hp with hp | rfl
        · obtain ⟨h1, h2⟩ := h.counts p hp
          refine ⟨?_, h2⟩
          rw [List.count_append, List.count_singleton]
          have : (g.next == p.1) = false := by
            have := h.old p hp
            simp only [beq_eq_false_iff_ne, ne_eq]
            omega
          simp only [this, Bool.false_eq_true, if_false]
          omega
        · simp [List.count_append, List.count_eq_zero_of_not_mem hh]
      · intro x hx
        simp only [List.mem_append, List.mem_singleton] at hx
        dsimp only
        rw [List.map_append]
        rcases hx with hx | rfl
        · exact List.mem_append_left _ (h.handles x hx)
        · simp
      · dsimp only
        rw [List.length_append, List.length_singleton, hcount, h.size]
    · rintro ⟨r', c, hc⟩
      exact absurd rfl (hnoname _ hc)

/-- Closing an object: never an exception or a use of something deleted. -/
theorem close_inv {g : Reg} (h : Inv g) {r : Nat} (hr : r ∈ g.handles) :
    ∃ g', closeDb g r = .ok g' ∧ Inv g' ∧ g'.handles = g.handles.erase r ∧
      (∀ r' n, r' ∈ g'.handles → ((∃ c, (r', n, c) ∈ g'.reps) ↔ ∃ c, (r', n, c) ∈ g.reps)) ∧
      (r ∉ g'.handles → r ∉ g'.reps.map Prod.fst) := by
  obtain ⟨⟨a, name, count⟩, hp, rfl⟩ := List.mem_map.1 (h.handles r hr)
  dsimp only at hr
  have hfind : (g.reps.find? fun p => decide (p.1 = a)) = some (a, name, count) := by
    cases hq : g.reps.find? fun p => decide (p.1 = a) with
    | none =>
      rw [List.find?_eq_none] at hq
      exact absurd (hq _ hp) (by simp)
    | some q =>
      have h1 := List.mem_of_find?_eq_some hq
      have h2 := List.find?_some hq
      simp only [decide_eq_true_eq] at h2
      obtain ⟨q1, q2⟩ := q
      dsimp only at h2
      subst h2
      rw [nodup_fst h.reps h1 hp]
  obtain ⟨hcount, hpos⟩ := h.counts _ hp
  dsimp only at hcount hpos
  obtain ⟨i, hi, hdb⟩ := h.registered _ hp
  dsimp only at hi hdb
  by_cases hc : count = 1
  · -- the last object
    have hnot : a ∉ g.handles.erase a := by
      rw [← List.count_eq_zero, List.count_erase_self]; omega
    have hrep : ∀ p, p ∈ g.reps.filter (fun p => decide (p.1 ≠ a)) ↔ p ∈ g.reps ∧ p.1 ≠ a := by
      intro p; rw [List.mem_filter]; simp
    have hnam : ∀ p, p ∈ g.names.filter (fun p => decide (p.1 ≠ name)) ↔ p ∈ g.names ∧ p.1 ≠ name := by
      intro p; rw [List.mem_filter]; simp
    -- names and reps belong together
    have hrn : ∀ p ∈ g.reps, p.2.1 = name → p.1 = a := by
      intro p hp' he
      obtain ⟨j, hj, hjd⟩ := h.registered p hp'
      rw [he] at hj
      have := nodup_fst h.names hi hj
      subst this
      rw [hdb] at hjd
      simpa using hjd.symm
    have hidx : ∀ p ∈ g.names, p.1 ≠ name → p.2 ≠ i := by
      intro p hp' hne he
      obtain ⟨r', c, h1, h2⟩ := h.named p hp'
      rw [he, hdb] at h1
      simp only [Option.some.injEq] at h1
      subst h1
      have := nodup_fst h.reps h2 hp
      exact hne (Prod.mk.inj this).1
    refine ⟨{ g with
          names := g.names.filter fun p => decide (p.1 ≠ name)
          dbs := g.dbs.set i none
          reps := g.reps.filter fun p => decide (p.1 ≠ a)
          handles := g.handles.erase a }, ?_, ?_, rfl, ?_, ?_⟩
    · simp only [closeDb, hfind, hc, if_true, findName_of_mem h hi]
    · refine ⟨?_, ?_, ?_, ?_, ?_, ?_, ?_, ?_, ?_⟩
      · exact h.names.sublist (List.Sublist.map _ List.filter_sublist)
      · exact h.reps.sublist (List.Sublist.map _ List.filter_sublist)
      · intro p hp'
        exact h.old p ((hrep p).1 hp').1
      · intro p hp'
        obtain ⟨h1, h2⟩ := (hnam p).1 hp'
        obtain ⟨r', c, h3, h4⟩ := h.named p h1
        refine ⟨r', c, ?_, (hrep _).2 ⟨h4, ?_⟩⟩
        · dsimp only
          rw [List.getElem?_set_ne (Ne.symm (hidx p h1 h2)), h3]
        · intro he
          dsimp only at he
          subst he
          exact h2 (Prod.mk.inj (nodup_fst h.reps h4 hp)).1
      · intro p hp'
        obtain ⟨h1, h2⟩ := (hrep p).1 hp'
        obtain ⟨j, h3, h4⟩ := h.registered p h1
        have hne : p.2.1 ≠ name := fun e => h2 (hrn p h1 e)
        refine ⟨j, (hnam _).2 ⟨h3, hne⟩, ?_⟩
        dsimp only
        rw [List.getElem?_set_ne (Ne.symm (hidx _ h3 hne)), h4]
      · intro j r' hj
        dsimp only at hj
        have hji : j ≠ i := by
          rintro rfl
          rw [List.getElem?_set_self (List.getElem?_eq_some_iff.1 hdb).1] at hj
          cases hj
        rw [List.getElem?_set_ne (Ne.symm hji)] at hj
        obtain ⟨n, hn⟩ := h.entries j r' hj
        refine ⟨n, (hnam _).2 ⟨hn, ?_⟩⟩
        intro e
        dsimp only at e
        subst e
        exact hji (nodup_fst h.names hn hi)
      · intro p hp'
        obtain ⟨h1, h2⟩ := (hrep p).1 hp'
        obtain ⟨h3, h4⟩ := h.counts p h1
        refine ⟨?_, h4⟩
        dsimp only
        rw [List.count_erase_of_ne h2, h3]
      · intro x hx
        dsimp only at hx ⊢
        have hxa : x ≠ a := by rintro rfl; exact hnot hx
        obtain ⟨p, hp1, hp2⟩ := List.mem_map.1 (h.handles x (List.mem_of_mem_erase hx))
        exact List.mem_map.2 ⟨p, (hrep p).2 ⟨hp1, by rw [hp2]; exact hxa⟩, hp2⟩
      · dsimp only
        have h1 := countP_unset hdb
        have h2 : (g.names.filter fun p => decide (p.1 ≠ name)).length + 1 = g.names.length := by
          have hone : g.names.countP (fun p => decide (p.1 = name)) = 1 := by
            have hk := List.count_eq_one_of_mem h.names (List.mem_map.2 ⟨_, hi, rfl⟩)
            rw [List.count, List.countP_map] at hk
            rw [← hk]
            apply List.countP_congr
            intro p _
            simp [Function.comp]
          have hsum := List.length_eq_countP_add_countP (fun p : String × Nat => decide (p.1 = name)) (l := g.names)
          rw [← List.countP_eq_length_filter, hsum, hone]
          have : g.names.countP (fun p => decide (p.1 ≠ name)) = g.names.countP (fun p => decide ¬ (decide (p.1 = name)) = true) := by
            apply List.countP_congr
            intro p _
            simp
          rw [this]
          omega
        have := h.size
        omega
    · intro r' n hr'
      dsimp only at hr' ⊢
      have hne : r' ≠ a := by rintro rfl; exact hnot hr'
      constructor
      · rintro ⟨c, hc'⟩; exact ⟨c, ((hrep _).1 hc').1⟩
      · rintro ⟨c, hc'⟩; exact ⟨c, (hrep _).2 ⟨hc', hne⟩⟩
    · intro _ hx
      obtain ⟨p, hp1, hp2⟩ := List.mem_map.1 hx
      exact ((hrep p).1 hp1).2 hp2
  · -- other objects remain
    have hfst : (g.reps.map fun p => if p.1 = a then (p.1, p.2.1, p.2.2 - 1) else p).map Prod.fst = g.reps.map Prod.fst := by
      rw [List.map_map]
      apply List.map_congr_left
      intro p _
      by_cases hp : p.1 = a <;> simp [Function.comp, hp]
    have hmem : ∀ r' n, (∃ c, (r', n, c) ∈ g.reps.map fun p => if p.1 = a then (p.1, p.2.1, p.2.2 - 1) else p) ↔
        ∃ c, (r', n, c) ∈ g.reps := by
      intro r' n
      constructor
      · rintro ⟨c, hc⟩
        obtain ⟨⟨x, b, d⟩, hp, he⟩ := List.mem_map.1 hc
        by_cases hpr : x = a
        · simp only [hpr, if_true, Prod.mk.injEq] at he
          obtain ⟨rfl, rfl, _⟩ := he
          exact ⟨d, by rw [← hpr]; exact hp⟩
        · simp only [hpr, if_false, Prod.mk.injEq] at he
          obtain ⟨rfl, rfl, rfl⟩ := he
          exact ⟨d, hp⟩
      · rintro ⟨c, hc⟩
        by_cases hpr : r' = a
        · exact ⟨c - 1, List.mem_map.2 ⟨_, hc, by simp [hpr]⟩⟩
        · exact ⟨c, List.mem_map.2 ⟨_, hc, by simp [hpr]⟩⟩
    refine ⟨{ g with
        reps := g.reps.map fun p => if p.1 = a then (p.1, p.2.1, p.2.2 - 1) else p
        handles := g.handles.erase a }, ?_, ?_, rfl, fun r' n _ => hmem r' n, ?_⟩
    · simp only [closeDb, hfind, if_neg hc]
    · refine ⟨h.names, ?_, ?_, ?_, ?_, h.entries, ?_, ?_, h.size⟩
      · dsimp only; rw [hfst]; exact h.reps
      · intro p hp'
        obtain ⟨q, hq, rfl⟩ := List.mem_map.1 hp'
        have := h.old q hq
        by_cases hqr : q.1 = a <;> simp [hqr] <;> omega
      · intro p hp'
        obtain ⟨r', c, h1, h2⟩ := h.named p hp'
        obtain ⟨c', h3⟩ := (hmem r' p.1).2 ⟨c, h2⟩
        exact ⟨r', c', h1, h3⟩
      · intro p hp'
        obtain ⟨c, hc⟩ := (hmem p.1 p.2.1).1 ⟨p.2.2, hp'⟩
        exact h.registered (p.1, p.2.1, c) hc
      · intro p hp'
        obtain ⟨q, hq, rfl⟩ := List.mem_map.1 hp'
        obtain ⟨h1, h2⟩ := h.counts q hq
        by_cases hqr : q.1 = a
        · have hq2 : q = (a, name, count) := by
            obtain ⟨q1, q2⟩ := q
            dsimp only at hqr
            subst hqr
            rw [nodup_fst h.reps hq hp]
          subst hq2
          simp only [if_true, List.count_erase_self]
          omega
        · simp only [hqr, if_false]
          rw [List.count_erase_of_ne hqr]
          exact ⟨h1, h2⟩
      · intro x hx
        dsimp only at hx ⊢
        rw [hfst]
        exact h.handles x (List.mem_of_mem_erase hx)
    · intro hx
      exfalso
      apply hx
      dsimp only
      rw [← List.count_pos_iff, List.count_erase_self]
      omega

/-- Everything that a program can do keeps the registry consistent, and only an unknown number of a ParmDB is an error. -/
theorem step_inv {g : Reg} (h : Inv g) (op : Op) (res : Except Err Reg) (hs : step g op = some res) :
    (∃ g', res = .ok g' ∧ Inv g') ∨ (res = .error .refused ∧ ∃ i, op = .getDb i ∧ ∀ r, g.dbs[i]? ≠ some (some r)) := by
  cases op with
  | openDb name =>
    obtain ⟨g', r, he, hi, _⟩ := open_inv h name
    simp only [step, he, Except.map, Option.some.injEq] at hs
    exact Or.inl ⟨g', hs.symm, hi⟩
  | copyDb r =>
    simp only [step] at hs
    by_cases hr : r ∈ g.handles
    · rw [if_pos hr] at hs
      obtain ⟨g', hl, hinv, _⟩ := link_inv h (h.handles r hr)
      simp only [copyDb, hl, Except.map, Option.some.injEq] at hs
      exact Or.inl ⟨_, hs.symm, hinv⟩
    · rw [if_neg hr] at hs; cases hs
  | closeDb r =>
    simp only [step] at hs
    by_cases hr : r ∈ g.handles
    · rw [if_pos hr] at hs
      obtain ⟨g', hc, hinv, _⟩ := close_inv h hr
      simp only [hc, Option.some.injEq] at hs
      exact Or.inl ⟨_, hs.symm, hinv⟩
    · rw [if_neg hr] at hs; cases hs
  | getDb i =>
    by_cases hx : ∃ r, g.dbs[i]? = some (some r)
    · obtain ⟨r, hr⟩ := hx
      obtain ⟨n, hn⟩ := h.entries i r hr
      obtain ⟨r', c, h1, h2⟩ := h.named _ hn
      dsimp only at h1
      rw [hr] at h1
      simp only [Option.some.injEq] at h1
      subst h1
      obtain ⟨g', hl, hinv, _⟩ := link_inv h (List.mem_map.2 ⟨_, h2, rfl⟩)
      simp only [step, getDb, hr, copyDb, hl, Except.map, Option.some.injEq] at hs
      exact Or.inl ⟨_, hs.symm, hinv⟩
    · right
      have hno : ∀ r, g.dbs[i]? ≠ some (some r) := fun r hr => hx ⟨r, hr⟩
      refine ⟨?_, i, rfl, hno⟩
      simp only [step, getDb] at hs
      cases hd : g.dbs[i]? with
      | none => simpa [hd, Except.map] using hs.symm
      | some o =>
        cases o with
        | none => simpa [hd, Except.map] using hs.symm
        | some r => exact absurd hd (hno r)

theorem reach_inv {g : Reg} (h : Reach g) : Inv g := by
  induction h with
  | start => exact inv_empty
  | step g g' op _ hs ih =>
    rcases step_inv ih op _ hs with ⟨g'', he, hi⟩ | ⟨he, _⟩
    · cases he; exact hi
    · cases he

/-- C255: whatever is opened, copied, assigned and destroyed, and in what order, objects only refer to tables that are open; nothing that
was deleted is used, and no destructor throws. -/
theorem registry_safe {g : Reg} (h : Reach g) (op : Op) (res : Except Err Reg) (hs : step g op = some res) :
    res ≠ .error .ub ∧ (∀ r, op = .closeDb r → ∃ g', res = .ok g') ∧ ∀ r ∈ g.handles, ∃ n c, (r, n, c) ∈ g.reps := by
  have hi := reach_inv h
  refine ⟨?_, ?_, ?_⟩
  · rcases step_inv hi op res hs with ⟨g', rfl, _⟩ | ⟨rfl, _⟩ <;> simp
  · rintro r rfl
    rcases step_inv hi _ res hs with ⟨g', rfl, _⟩ | ⟨_, i, hc, _⟩
    · exact ⟨g', rfl⟩
    · cases hc
  · intro r hr
    obtain ⟨⟨a, n, c⟩, hp, rfl⟩ := List.mem_map.1 (hi.handles r hr)
    exact ⟨n, c, hp⟩

/-- C255: opening a table that is open gives an object with the same rep as the others; a table is open at most once. -/
theorem open_shares {g : Reg} (h : Reach g) (name : String) :
    ∃ g' r, openDb g name = .ok (g', r) ∧
      (∀ r' c, (r', name, c) ∈ g.reps → r' = r) ∧ ((∀ r' c, (r', name, c) ∉ g.reps) → r ∉ g.handles) ∧
      ∀ r1 r2 c1 c2 n, (r1, n, c1) ∈ g.reps → (r2, n, c2) ∈ g.reps → r1 = r2 := by
  have hi := reach_inv h
  have huniq : ∀ r1 r2 c1 c2 n, (r1, n, c1) ∈ g.reps → (r2, n, c2) ∈ g.reps → r1 = r2 := by
    intro r1 r2 c1 c2 n h1 h2
    obtain ⟨i, i1, i2⟩ := hi.registered _ h1
    obtain ⟨j, j1, j2⟩ := hi.registered _ h2
    have := nodup_fst hi.names i1 j1
    subst this
    rw [i2] at j2
    simpa using j2
  obtain ⟨g', r, he, _, _, _, h3, h4, _⟩ := open_inv hi name
  refine ⟨g', r, he, ?_, ?_, huniq⟩
  · intro r' c hc
    obtain ⟨c', hc'⟩ := h3 ⟨r', c, hc⟩
    exact huniq _ _ _ _ _ hc hc'
  · intro hn
    exact (h4 (by rintro ⟨r', c, hc⟩; exact hn r' c hc)).2

/-- C255: a table is closed when the last object is destroyed, and not before. -/
theorem closed_when_last {g : Reg} (h : Reach g) (r : Nat) : (∃ n c, (r, n, c) ∈ g.reps) ↔ r ∈ g.handles := by
  have hi := reach_inv h
  constructor
  · rintro ⟨n, c, hc⟩
    obtain ⟨h1, h2⟩ := hi.counts _ hc
    dsimp only at h1 h2
    rw [← List.count_pos_iff]
    omega
  · intro hr
    obtain ⟨⟨a, n, c⟩, hp, rfl⟩ := List.mem_map.1 (hi.handles r hr)
    exact ⟨n, c, hp⟩

/-- Two tables, of which the first is closed: its entry is used for a third one. -/
example : (do
    let (g, a) ← openDb empty "a"
    let (g, _) ← openDb g "b"
    let g ← closeDb g a
    let (g, _) ← openDb g "c"
    let (g, _) ← openDb g "b"
    pure (g.names, g.dbs, g.handles) : Except Err _) = .ok ([("b", 1), ("c", 0)], [some 2, some 1], [1, 2, 1]) := by decide

/-- C255: tables that are closed are made anew when asked for, or if they are not there. -/
theorem new_when_closed {g : Reg} (h : Reach g) (name : String) (hc : ∀ r ∈ g.handles, ∀ c, (r, name, c) ∉ g.reps) (force readable : Bool) :
    makesTables g name force readable = true ↔ force = true ∨ readable = false := by
  have hi := reach_inv h
  cases hf : findName g name with
  | some i =>
    obtain ⟨r, c, _, h2⟩ := hi.named _ (findName_some hf)
    exact absurd h2 (hc r ((closed_when_last h r).1 ⟨_, _, h2⟩) c)
  | none => cases force <;> cases readable <;> simp [makesTables, hf]

example : makesTables empty "a" true true = true ∧ makesTables empty "a" false true = false := by decide

/-- C255 is violated: while a ParmDB object for a table exists, asking for a new table (`forceNew`) gives the old one, with the values that
are in it. -/
theorem open_new_is_old {g : Reg} (h : Reach g) (name : String) (r c : Nat) (hr : (r, name, c) ∈ g.reps) (readable : Bool) :
    makesTables g name true readable = false ∧ ∃ g', openDb g name = .ok (g', r) := by
  obtain ⟨g', r', he, h1, _⟩ := open_shares h name
  rw [← h1 r c hr] at he
  refine ⟨?_, g', he⟩
  obtain ⟨i, hi, _⟩ := (reach_inv h).registered _ hr
  simp only [makesTables, findName_of_mem (reach_inv h) hi]

/-- A second object of a table that is open. -/
example : ∃ g, Reach g ∧ (0, "a", 2) ∈ g.reps ∧ makesTables g "a" true true = false :=
  ⟨⟨[("a", 0)], [some 0], [(0, "a", 2)], 1, [0, 0]⟩,
    .step _ _ (.copyDb 0) (.step _ _ (.openDb "a") .start rfl) rfl, by simp, by decide⟩

end DP3.ParmTables.Registry
