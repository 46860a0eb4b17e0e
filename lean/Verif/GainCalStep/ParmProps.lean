import Verif.GainCalStep.Model
import Verif.CalParms.Props

/-!
# C211 and C212: the solutions in a ParmDB or H5Parm
-/

namespace DP3.GainCalStep

open DP3.CalParms

set_option linter.unusedSimpArgs false
set_option linter.unusedSectionVars false

variable {K : Type}

/-- The names of a mode without antenna. -/
def Mode.stems (m : Mode) : List (Name × Nat × Nat) :=
  m.pols.flatMap fun pol => (List.range m.nParts).map fun part => (m.partName pol part, pol, part)

private theorem antennaNames_stems (m : Mode) (a : Name) : m.antennaNames a = m.stems.map fun n => (n.1 ++ a, n.2) := by
  simp [Mode.antennaNames, Mode.stems, List.map_flatMap, Function.comp_def]

private theorem values_stems (m : Mode) (ants : List Name) (value : Name → Nat → Nat → List K) :
    m.values ants value = ants.flatMap fun a => m.stems.map fun n => (n.1 ++ a, value a n.2.1 n.2.2) := by
  simp [Mode.values, antennaNames_stems, Function.comp_def]

private theorem mem_values (m : Mode) (ants : List Name) (value : Name → Nat → Nat → List K) (v : Name × List K) :
    v ∈ m.values ants value ↔ ∃ a ∈ ants, ∃ n ∈ m.stems, v = (n.1 ++ a, value a n.2.1 n.2.2) := by
  rw [values_stems]
  simp only [List.mem_flatMap, List.mem_map]
  constructor
  · rintro ⟨a, ha, n, hn, rfl⟩; exact ⟨a, ha, n, hn, rfl⟩
  · rintro ⟨a, ha, n, hn, rfl⟩; exact ⟨a, ha, n, hn, rfl⟩

/-- No name of a mode is the start of another one. -/
private theorem stems_prefix (m : Mode) : ∀ x ∈ m.stems, ∀ y ∈ m.stems, x.1.isPrefixOf y.1 = true → x = y := by
  cases m <;> decide +kernel

private theorem stems_nodup (m : Mode) : m.stems.Nodup := by
  cases m <;> decide +kernel

private theorem values_nodup (m : Mode) (ants : List Name) (value : Name → Nat → Nat → List K) (hn : ants.Nodup) :
    ((m.values ants value).map Prod.fst).Nodup := by
  rw [values_stems, List.map_flatMap]
  have hinj : ∀ x ∈ m.stems, ∀ y ∈ m.stems, ∀ a b : Name, x.1 ++ a = y.1 ++ b → x = y ∧ a = b := by
    intro x hx y hy a b h
    have h1 : x.1 <+: x.1 ++ a := List.prefix_append _ _
    have h2 : y.1 <+: x.1 ++ a := by rw [h]; exact List.prefix_append _ _
    have hxy : x = y := by
      rcases List.prefix_or_prefix_of_prefix h1 h2 with h' | h'
      · exact stems_prefix m x hx y hy (List.isPrefixOf_iff_prefix.mpr h')
      · exact (stems_prefix m y hy x hx (List.isPrefixOf_iff_prefix.mpr h')).symm
    subst hxy
    exact ⟨rfl, List.append_cancel_left h⟩
  rw [List.nodup_flatMap]
  constructor
  · intro a _
    rw [List.map_map]
    refine List.Nodup.map_on ?_ (stems_nodup m)
    intro x hx y hy h
    exact (hinj x hx y hy a a h).1
  · refine hn.imp ?_
    intro a b hab
    rw [Function.onFun, List.disjoint_left]
    intro z h1 h2
    simp only [List.mem_map] at h1 h2
    obtain ⟨_, ⟨x, hx, rfl⟩, rfl⟩ := h1
    obtain ⟨_, ⟨y, hy, rfl⟩, h⟩ := h2
    exact hab (hinj x hx y hy a b h.symm).2

private theorem mem_addNames (new : List Name) : ∀ (l : List Name) (n : Name), n ∈ new.foldl addName l ↔ n ∈ l ∨ n ∈ new := by
  induction new with
  | nil => simp
  | cons x new ih =>
    intro l n
    rw [List.foldl_cons, ih]
    unfold addName
    split_ifs with h
    · constructor
      · rintro (h1 | h1)
        · exact .inl h1
        · exact .inr (by simp [h1])
      · rintro (h1 | h1)
        · exact .inl h1
        · rcases List.mem_cons.mp h1 with rfl | h1
          · exact .inl h
          · exact .inr h1
    · simp only [List.mem_append, List.mem_singleton, List.mem_cons]
      tauto

/-- A ParmDB without anything. -/
def emptyStore : Store K := ⟨[], [], []⟩

variable [Zero K] [One K]

private theorem empty_values (m : Mode) (ants : List Name) (value : Name → Nat → Nat → List K) :
    ((emptyStore : Store K).gaincal m ants value).values = m.values ants value := by
  simp [Store.gaincal, emptyStore]

private theorem mem_names (m : Mode) (ants : List Name) (value : Name → Nat → Nat → List K) (n : Name) :
    n ∈ ((emptyStore : Store K).gaincal m ants value).names ↔ ∃ a ∈ ants, ∃ x ∈ m.stems, n = x.1 ++ a := by
  simp only [Store.gaincal, mem_addNames, emptyStore, List.not_mem_nil, false_or, List.mem_map, mem_values]
  constructor
  · rintro ⟨v, ⟨a, ha, x, hx, rfl⟩, rfl⟩; exact ⟨a, ha, x, hx, rfl⟩
  · rintro ⟨a, ha, x, hx, rfl⟩; exact ⟨_, ⟨a, ha, x, hx, rfl⟩, rfl⟩

/-- Which names are there, if the answer is the same for all antennas. -/
private theorem has_names (m : Mode) (ants : List Name) (value : Name → Nat → Nat → List K) (p : Name)
    (b : Name × Nat × Nat → Bool) (hne : ants ≠ []) (hb : ∀ a ∈ ants, ∀ x ∈ m.stems, p.isPrefixOf (x.1 ++ a) = b x) :
    has ((emptyStore : Store K).gaincal m ants value).names p = m.stems.any b := by
  rw [Bool.eq_iff_iff, has, List.any_eq_true, List.any_eq_true]
  constructor
  · rintro ⟨n, hn, hp⟩
    obtain ⟨a, ha, x, hx, rfl⟩ := (mem_names m ants value n).mp hn
    exact ⟨x, hx, by rw [← hb a ha x hx]; exact hp⟩
  · rintro ⟨x, hx, h⟩
    obtain ⟨a, ha⟩ := List.exists_mem_of_ne_nil ants hne
    exact ⟨x.1 ++ a, (mem_names m ants value _).mpr ⟨a, ha, x, hx, rfl⟩, by rw [hb a ha x hx]; exact h⟩

/-- Names of antennas. -/
def AntennaNames (ants : List Name) : Prop :=
  ants ≠ [] ∧ ants.Nodup ∧ ∀ a ∈ ants, ':' ∉ a ∧ ¬ "phase_center".toList <+: a

private theorem no_phase_center (s a : Name) (ha : ':' ∉ a) (hp : ¬ "phase_center".toList <+: a)
    (hs : ∀ i, i < s.length → s[i]? = some ':' → s[i + 1]? ≠ some 'p') : ¬ ":phase_center".toList <:+: s ++ a := by
  rintro ⟨u, v, h⟩
  have h0 : (s ++ a)[u.length]? = some ':' := by rw [← h]; simp
  have h1 : (s ++ a)[u.length + 1]? = some 'p' := by rw [← h]; simp
  rcases Nat.lt_or_ge u.length s.length with hu | hu
  · rw [List.getElem?_append_left hu] at h0
    rcases Nat.lt_or_ge (u.length + 1) s.length with hu1 | hu1
    · rw [List.getElem?_append_left hu1] at h1
      exact hs u.length hu h0 h1
    · refine hp ?_
      have h2 : (u ++ ":phase_center".toList ++ v).drop (u.length + 1) = "phase_center".toList ++ v := by simp
      rw [h, List.drop_append, List.drop_of_length_le (by omega), show u.length + 1 - s.length = 0 by omega] at h2
      simp only [List.drop_zero, List.nil_append] at h2
      rw [h2]
      exact List.prefix_append _ _
  · rw [List.getElem?_append_right hu] at h0
    exact ha (List.mem_of_getElem? h0)

private theorem stems_no_p (m : Mode) : ∀ x ∈ m.stems, ∀ i, i < x.1.length → x.1[i]? = some ':' → x.1[i + 1]? ≠ some 'p' := by
  cases m <;> decide +kernel

/-- Whether a pattern is the start of a name can be told from the name without the antenna. -/
private theorem prefix_stem (p s a : Name) (h : s.isPrefixOf p = true → p = s) :
    p.isPrefixOf (s ++ a) = p.isPrefixOf s := by
  rw [Bool.eq_iff_iff, List.isPrefixOf_iff_prefix, List.isPrefixOf_iff_prefix]
  constructor
  · intro hp
    rcases List.prefix_or_prefix_of_prefix hp (List.prefix_append s a) with h' | h'
    · exact h'
    · rw [h (List.isPrefixOf_iff_prefix.mpr h')]
      exact List.prefix_refl _
  · intro hp
    exact hp.trans (List.prefix_append _ _)

private theorem has_stems (m : Mode) (ants : List Name) (value : Name → Nat → Nat → List K) (p : Name)
    (hne : ants ≠ []) (hp : ∀ x ∈ m.stems, x.1.isPrefixOf p = true → p = x.1) :
    has ((emptyStore : Store K).gaincal m ants value).names p = m.stems.any fun x => p.isPrefixOf x.1 :=
  has_names m ants value p _ hne fun a _ x hx => prefix_stem p x.1 a (hp x hx)

/-- An expression has the values that were written. -/
private theorem written (m : Mode) (ants : List Name) (value : Name → Nat → Nat → List K) (ha : AntennaNames ants)
    (size : Nat) (hsize : ∀ a pol part, (value a pol part).length = size) (e : Expr) (e0 : Name) (x : Name × Nat × Nat)
    (hx : x ∈ m.stems) (hx0 : x.1 = e0 ++ ":".toList) (h0 : e0 ∈ e.names) (hc : ':' ∉ (if e.common then e0 else []))
    (ho : ∀ y ∈ m.stems, ∀ n ∈ e.names, (y.1.isPrefixOf n = true → n = y.1) ∧ (n.isPrefixOf y.1 = true → y = x))
    (a : Name) (hma : a ∈ ants) :
    antennaValues ((emptyStore : Store K).gaincal m ants value).db e a size = .ok (value a x.2.1 x.2.2) := by
  have hdb : ((emptyStore : Store K).gaincal m ants value).db.values = m.values ants value := empty_values m ants value
  have hmem : ∀ v ∈ valuesMap ((emptyStore : Store K).gaincal m ants value).db e, ∃ b ∈ ants,
      v = (e0 ++ ":".toList ++ b, value b x.2.1 x.2.2) := by
    intro v hv
    rw [valuesMap, List.mem_filter, hdb, mem_values] at hv
    obtain ⟨⟨b, hb, y, hy, rfl⟩, hp⟩ := hv
    rw [List.any_eq_true] at hp
    obtain ⟨n, hn, hp⟩ := hp
    obtain ⟨o1, o2⟩ := ho y hy n hn
    rw [prefix_stem n y.1 b o1] at hp
    obtain rfl := o2 hp
    exact ⟨b, hb, by rw [hx0]⟩
  have hown : (e0 ++ ":".toList ++ a ++ [], value a x.2.1 x.2.2) ∈ ((emptyStore : Store K).gaincal m ants value).db.values := by
    rw [hdb, mem_values]
    exact ⟨a, hma, x, hx, by rw [hx0, List.append_nil]⟩
  have hu : Uniform ((emptyStore : Store K).gaincal m ants value).db e e0 [] := by
    refine ⟨?_, h0, hc, ?_, .inr ⟨rfl, ?_⟩⟩
    · refine List.ne_nil_of_mem (a := (e0 ++ ":".toList ++ a ++ [], value a x.2.1 x.2.2)) ?_
      rw [valuesMap, List.mem_filter]
      refine ⟨hown, ?_⟩
      rw [List.any_eq_true]
      exact ⟨e0, h0, List.isPrefixOf_iff_prefix.mpr ⟨":".toList ++ a, by simp⟩⟩
    · intro v hv
      obtain ⟨b, _, rfl⟩ := hmem v hv
      exact ⟨b, by simp⟩
    · intro v hv
      obtain ⟨b, hb, rfl⟩ := hmem v hv
      simp only
      rw [← hx0]
      exact no_phase_center x.1 b (ha.2.2 b hb).1 (ha.2.2 b hb).2 (stems_no_p m x hx)
  have := (antenna_values_partial _ e e0 [] a size hu (by rw [hdb]; exact values_nodup m ants value ha.2.1)).1 _ hown
  rw [this, if_pos (hsize _ _ _)]

/-- An expression without values has the default for all antennas. -/
private theorem defaulted (m : Mode) (ants : List Name) (value : Name → Nat → Nat → List K) (size : Nat) (e0 : Name) (d : K)
    (ho : ∀ y ∈ m.stems, (y.1.isPrefixOf e0 = true → e0 = y.1) ∧ e0.isPrefixOf y.1 = false)
    (hd : (m.defaults (K := K) []).find? (fun v => v.1 = e0) = some (e0, [d]))
    (hl : ∀ v ∈ m.defaults (K := K) [], v.1.length ≤ e0.length) (a : Name) :
    antennaValues ((emptyStore : Store K).gaincal m ants value).db ⟨false, e0⟩ a size = .ok (List.replicate size d) := by
  have hdb : ((emptyStore : Store K).gaincal m ants value).db.values = m.values ants value := empty_values m ants value
  have hdd : ((emptyStore : Store K).gaincal m ants value).db.defaults = m.defaults [] := rfl
  have hv : valuesMap ((emptyStore : Store K).gaincal m ants value).db ⟨false, e0⟩ = [] := by
    rw [valuesMap, List.filter_eq_nil_iff]
    intro v hv
    rw [hdb, mem_values] at hv
    obtain ⟨b, hb, y, hy, rfl⟩ := hv
    simp only [Expr.names, Bool.false_eq_true, if_false, List.any_cons, List.any_nil, Bool.or_false]
    rw [prefix_stem e0 y.1 b (ho y hy).1, (ho y hy).2]
    simp
  have hr : resolve ((emptyStore : Store K).gaincal m ants value).db ⟨false, e0⟩ = (⟨false, e0⟩, []) := by
    simp only [resolve, hv, firstName]
  have hn : (m.defaults (K := K) []).find? (fun v => v.1 = e0 ++ ":".toList ++ a ++ []) = none := by
    rw [List.find?_eq_none]
    intro v hv h
    have := hl v hv
    have h := congrArg List.length (of_decide_eq_true h)
    simp at h
    omega
  simp only [antennaValues, hr, hv, Expr.names, Bool.false_eq_true, if_false, List.map_cons, List.map_nil, List.find?_nil,
    defValues, hdd, List.filterMap_cons, List.filterMap_nil, hn, hd, Option.map_none, Option.map_some, single]

/-- The correction for applycal of a mode. -/
def Mode.kind : Mode → Kind
  | .scalarPhase => .scalarPhase
  | .scalarAmplitude => .scalarAmplitude
  | .tec | .tecAndPhase => .tec
  | _ => .diagonal

/-- The values that applycal gets of a ParmDB for an antenna. -/
def Store.read (s : Store K) (k : Kind) (a : Name) (size : Nat) : Except Err (Kind × List (List K)) :=
  (selectParms s.names' k).bind fun r => (r.2.mapM fun e => antennaValues s.db e a size).map fun l => (r.1, l)

/-- The values that it should get, for the values `v` of elements and parts. -/
def Mode.expected (m : Mode) (size : Nat) (v : Nat → Nat → List K) : Kind × List (List K) :=
  let one := List.replicate size (1 : K)
  let zero := List.replicate size (0 : K)
  match m with
  | .diagonal => (.diagonal, [v 0 0, v 0 1, v 3 0, v 3 1])
  | .fullJones => (.fullJones, [v 0 0, v 0 1, v 1 0, v 1 1, v 2 0, v 2 1, v 3 0, v 3 1])
  | .diagonalPhase => (.diagonal, [one, v 0 0, one, v 3 0])
  | .diagonalAmplitude => (.diagonal, [v 0 0, zero, v 3 0, zero])
  | _ => (m.kind, [v 0 0])

/-- `mapM` for exceptions. -/
private def mapE {α β : Type} (f : α → Except Err β) : List α → Except Err (List β)
  | [] => .ok []
  | x :: xs => (f x).bind fun y => (mapE f xs).bind fun ys => .ok (y :: ys)

private theorem mapM_mapE {α β : Type} (f : α → Except Err β) (l : List α) : l.mapM f = mapE f l := by
  induction l with
  | nil => rfl
  | cons x xs ih =>
    rw [List.mapM_cons, ih]
    rfl

/-- No antenna looks like a polarization. -/
private theorem tec_parms (m : Mode) (ants : List Name) (value : Name → Nat → Nat → List K) (ha : AntennaNames ants)
    (hm : ∀ x ∈ m.stems, x.1 = "TEC:".toList ∨ "TEC:".toList.isPrefixOf x.1 = false ∧ x.1.isPrefixOf "TEC:".toList = false)
    (hd : m.defaults (K := K) [] = []) :
    selectParms ((emptyStore : Store K).gaincal m ants value).names' .tec = .ok (.tec, [⟨false, "TEC".toList⟩]) := by
  have h1 : has ((emptyStore : Store K).gaincal m ants value).names "TEC:0:".toList = false := by
    rw [Bool.eq_false_iff]
    intro h
    rw [has, List.any_eq_true] at h
    obtain ⟨n, hn, hp⟩ := h
    obtain ⟨a, hma, x, hx, rfl⟩ := (mem_names m ants value n).mp hn
    rcases hm x hx with h | ⟨h2, h3⟩
    · rw [h, List.isPrefixOf_iff_prefix] at hp
      have hp' : "TEC:".toList ++ "0:".toList <+: "TEC:".toList ++ a := hp
      rw [List.prefix_append_right_inj] at hp'
      exact (ha.2.2 a hma).1 (hp'.subset (by decide +kernel))
    · have hp' := (List.isPrefixOf_iff_prefix.mp hp)
      have hq : "TEC:".toList <+: x.1 ++ a := List.IsPrefix.trans ⟨"0:".toList, rfl⟩ hp'
      rcases List.prefix_or_prefix_of_prefix hq (List.prefix_append x.1 a) with h | h
      · rw [List.isPrefixOf_iff_prefix.mpr h] at h2; cases h2
      · rw [List.isPrefixOf_iff_prefix.mpr h] at h3; cases h3
  have h2 : twoPol ((emptyStore : Store K).gaincal m ants value).names' "TEC".toList = false := by
    have hdef : ((emptyStore : Store K).gaincal m ants value).names'.defaults = [] := by
      simp only [Store.names', Store.gaincal, emptyStore, hd, List.map_nil]
    simp only [twoPol, hdef]
    rw [Bool.or_eq_false_iff]
    exact ⟨h1, rfl⟩
  have h3 : detectFull ((emptyStore : Store K).gaincal m ants value).names' .tec = .tec := by simp [detectFull]
  simp only [selectParms, h3, exprsOf, h2]
  rfl

/-- C211 (for a ParmDB that was empty before, see `phases_not_applied`): for every mode, applycal gets the values that
were written for each antenna; amplitudes are 1 if there are only phases, phases are 0 if there are only
amplitudes. -/
theorem applycal_gets_partial (m : Mode) (ants : List Name) (value : Name → Nat → Nat → List K) (ha : AntennaNames ants)
    (size : Nat) (hsize : ∀ a pol part, (value a pol part).length = size) (a : Name) (hma : a ∈ ants) :
    ((emptyStore : Store K).gaincal m ants value).read m.kind a size = .ok (m.expected size (value a)) := by
  have hw := fun e e0 x => written m ants value ha size hsize e e0 x
  have hd := fun e0 d => defaulted m ants value size e0 d
  have hh := fun p => has_stems m ants value p ha.1
  have hdef : ((emptyStore : Store K).gaincal m ants value).names'.defaults = (m.defaults (K := K) []).map Prod.fst := rfl
  have hval : ((emptyStore : Store K).gaincal m ants value).names'.values = ((emptyStore : Store K).gaincal m ants value).names := rfl
  cases m with
  | diagonal =>
    have hs : selectParms ((emptyStore : Store K).gaincal .diagonal ants value).names' .diagonal =
        .ok (.diagonal, parts false "Gain:0:0".toList ++ parts false "Gain:1:1".toList) := by
      simp only [selectParms, detectFull, detectAP, hval, hdef]
      rw [hh "Gain:0:1:".toList (by decide +kernel), hh "Gain:0:0:Real".toList (by decide +kernel)]
      rfl
    have v0 := hw ⟨false, "Gain:0:0:Real".toList⟩ "Gain:0:0:Real".toList ("Gain:0:0:Real:".toList, 0, 0) (by decide +kernel) (by decide +kernel) (by decide +kernel) (by decide +kernel) (by decide +kernel) a hma
    have v1 := hw ⟨false, "Gain:0:0:Imag".toList⟩ "Gain:0:0:Imag".toList ("Gain:0:0:Imag:".toList, 0, 1) (by decide +kernel) (by decide +kernel) (by decide +kernel) (by decide +kernel) (by decide +kernel) a hma
    have v2 := hw ⟨false, "Gain:1:1:Real".toList⟩ "Gain:1:1:Real".toList ("Gain:1:1:Real:".toList, 3, 0) (by decide +kernel) (by decide +kernel) (by decide +kernel) (by decide +kernel) (by decide +kernel) a hma
    have v3 := hw ⟨false, "Gain:1:1:Imag".toList⟩ "Gain:1:1:Imag".toList ("Gain:1:1:Imag:".toList, 3, 1) (by decide +kernel) (by decide +kernel) (by decide +kernel) (by decide +kernel) (by decide +kernel) a hma
    simp only [Store.read, Mode.kind, hs, Except.bind, parts, Bool.false_eq_true, if_false, if_true, List.cons_append, List.nil_append, Mode.expected]
    simp only [show ∀ (f : Expr → Except Err (List K)) (l : List Expr), l.mapM f = mapE f l from mapM_mapE, mapE]
    erw [v0, v1, v2, v3]
    rfl
  | fullJones =>
    have hs : selectParms ((emptyStore : Store K).gaincal .fullJones ants value).names' .diagonal =
        .ok (.fullJones, parts false "Gain:0:0".toList ++ parts false "Gain:0:1".toList ++ parts false "Gain:1:0".toList ++ parts false "Gain:1:1".toList) := by
      simp only [selectParms, detectFull, detectAP, hval, hdef]
      rw [hh "Gain:0:1:".toList (by decide +kernel), hh "Gain:0:0:Real".toList (by decide +kernel)]
      rfl
    have v0 := hw ⟨false, "Gain:0:0:Real".toList⟩ "Gain:0:0:Real".toList ("Gain:0:0:Real:".toList, 0, 0) (by decide +kernel) (by decide +kernel) (by decide +kernel) (by decide +kernel) (by decide +kernel) a hma
    have v1 := hw ⟨false, "Gain:0:0:Imag".toList⟩ "Gain:0:0:Imag".toList ("Gain:0:0:Imag:".toList, 0, 1) (by decide +kernel) (by decide +kernel) (by decide +kernel) (by decide +kernel) (by decide +kernel) a hma
    have v2 := hw ⟨false, "Gain:0:1:Real".toList⟩ "Gain:0:1:Real".toList ("Gain:0:1:Real:".toList, 1, 0) (by decide +kernel) (by decide +kernel) (by decide +kernel) (by decide +kernel) (by decide +kernel) a hma
    have v3 := hw ⟨false, "Gain:0:1:Imag".toList⟩ "Gain:0:1:Imag".toList ("Gain:0:1:Imag:".toList, 1, 1) (by decide +kernel) (by decide +kernel) (by decide +kernel) (by decide +kernel) (by decide +kernel) a hma
    have v4 := hw ⟨false, "Gain:1:0:Real".toList⟩ "Gain:1:0:Real".toList ("Gain:1:0:Real:".toList, 2, 0) (by decide +kernel) (by decide +kernel) (by decide +kernel) (by decide +kernel) (by decide +kernel) a hma
    have v5 := hw ⟨false, "Gain:1:0:Imag".toList⟩ "Gain:1:0:Imag".toList ("Gain:1:0:Imag:".toList, 2, 1) (by decide +kernel) (by decide +kernel) (by decide +kernel) (by decide +kernel) (by decide +kernel) a hma
    have v6 := hw ⟨false, "Gain:1:1:Real".toList⟩ "Gain:1:1:Real".toList ("Gain:1:1:Real:".toList, 3, 0) (by decide +kernel) (by decide +kernel) (by decide +kernel) (by decide +kernel) (by decide +kernel) a hma
    have v7 := hw ⟨false, "Gain:1:1:Imag".toList⟩ "Gain:1:1:Imag".toList ("Gain:1:1:Imag:".toList, 3, 1) (by decide +kernel) (by decide +kernel) (by decide +kernel) (by decide +kernel) (by decide +kernel) a hma
    simp only [Store.read, Mode.kind, hs, Except.bind, parts, Bool.false_eq_true, if_false, if_true, List.cons_append, List.nil_append, Mode.expected]
    simp only [show ∀ (f : Expr → Except Err (List K)) (l : List Expr), l.mapM f = mapE f l from mapM_mapE, mapE]
    erw [v0, v1, v2, v3, v4, v5, v6, v7]
    rfl
  | diagonalPhase =>
    have hs : selectParms ((emptyStore : Store K).gaincal .diagonalPhase ants value).names' .diagonal =
        .ok (.diagonal, parts true "Gain:0:0".toList ++ parts true "Gain:1:1".toList) := by
      simp only [selectParms, detectFull, detectAP, hval, hdef]
      rw [hh "Gain:0:1:".toList (by decide +kernel), hh "Gain:0:0:Real".toList (by decide +kernel), hh "Gain:0:0:Ampl".toList (by decide +kernel), hh "Phase:0:0:Ampl".toList (by decide +kernel)]
      rfl
    have v0 := hd "Gain:0:0:Ampl".toList 1 (by decide +kernel) (by simp [Mode.defaults, addDefaults]) (by simp [Mode.defaults, addDefaults]) a
    have v1 := hw ⟨false, "Gain:0:0:Phase".toList⟩ "Gain:0:0:Phase".toList ("Gain:0:0:Phase:".toList, 0, 0) (by decide +kernel) (by decide +kernel) (by decide +kernel) (by decide +kernel) (by decide +kernel) a hma
    have v2 := hd "Gain:1:1:Ampl".toList 1 (by decide +kernel) (by simp [Mode.defaults, addDefaults]) (by simp [Mode.defaults, addDefaults]) a
    have v3 := hw ⟨false, "Gain:1:1:Phase".toList⟩ "Gain:1:1:Phase".toList ("Gain:1:1:Phase:".toList, 3, 0) (by decide +kernel) (by decide +kernel) (by decide +kernel) (by decide +kernel) (by decide +kernel) a hma
    simp only [Store.read, Mode.kind, hs, Except.bind, parts, Bool.false_eq_true, if_false, if_true, List.cons_append, List.nil_append, Mode.expected]
    simp only [show ∀ (f : Expr → Except Err (List K)) (l : List Expr), l.mapM f = mapE f l from mapM_mapE, mapE]
    erw [v0, v1, v2, v3]
    rfl
  | diagonalAmplitude =>
    have hs : selectParms ((emptyStore : Store K).gaincal .diagonalAmplitude ants value).names' .diagonal =
        .ok (.diagonal, parts true "Gain:0:0".toList ++ parts true "Gain:1:1".toList) := by
      simp only [selectParms, detectFull, detectAP, hval, hdef]
      rw [hh "Gain:0:1:".toList (by decide +kernel), hh "Gain:0:0:Real".toList (by decide +kernel), hh "Gain:0:0:Ampl".toList (by decide +kernel)]
      rfl
    have v0 := hw ⟨false, "Gain:0:0:Ampl".toList⟩ "Gain:0:0:Ampl".toList ("Gain:0:0:Ampl:".toList, 0, 0) (by decide +kernel) (by decide +kernel) (by decide +kernel) (by decide +kernel) (by decide +kernel) a hma
    have v1 := hd "Gain:0:0:Phase".toList 0 (by decide +kernel) (by simp [Mode.defaults, addDefaults]) (by simp [Mode.defaults, addDefaults]) a
    have v2 := hw ⟨false, "Gain:1:1:Ampl".toList⟩ "Gain:1:1:Ampl".toList ("Gain:1:1:Ampl:".toList, 3, 0) (by decide +kernel) (by decide +kernel) (by decide +kernel) (by decide +kernel) (by decide +kernel) a hma
    have v3 := hd "Gain:1:1:Phase".toList 0 (by decide +kernel) (by simp [Mode.defaults, addDefaults]) (by simp [Mode.defaults, addDefaults]) a
    simp only [Store.read, Mode.kind, hs, Except.bind, parts, Bool.false_eq_true, if_false, if_true, List.cons_append, List.nil_append, Mode.expected]
    simp only [show ∀ (f : Expr → Except Err (List K)) (l : List Expr), l.mapM f = mapE f l from mapM_mapE, mapE]
    erw [v0, v1, v2, v3]
    rfl
  | scalarPhase =>
    have v0 := hw ⟨true, "ScalarPhase".toList⟩ "CommonScalarPhase".toList ("CommonScalarPhase:".toList, 0, 0) (by decide +kernel) (by decide +kernel) (by decide +kernel) (by decide +kernel) (by decide +kernel) a hma
    have hs : selectParms ((emptyStore : Store K).gaincal .scalarPhase ants value).names' .scalarPhase = .ok (.scalarPhase, [⟨true, "ScalarPhase".toList⟩]) := rfl
    simp only [Store.read, Mode.kind, hs, Except.bind, mapM_mapE, mapE, v0, Mode.expected]
    rfl
  | scalarAmplitude =>
    have v0 := hw ⟨true, "ScalarAmplitude".toList⟩ "CommonScalarAmplitude".toList ("CommonScalarAmplitude:".toList, 0, 0) (by decide +kernel) (by decide +kernel) (by decide +kernel) (by decide +kernel) (by decide +kernel) a hma
    have hs : selectParms ((emptyStore : Store K).gaincal .scalarAmplitude ants value).names' .scalarAmplitude = .ok (.scalarAmplitude, [⟨true, "ScalarAmplitude".toList⟩]) := rfl
    simp only [Store.read, Mode.kind, hs, Except.bind, mapM_mapE, mapE, v0, Mode.expected]
    rfl
  | tec =>
    have v0 := hw ⟨false, "TEC".toList⟩ "TEC".toList ("TEC:".toList, 0, 0) (by decide +kernel) (by decide +kernel) (by decide +kernel) (by decide +kernel) (by decide +kernel) a hma
    have hs : selectParms ((emptyStore : Store K).gaincal .tec ants value).names' .tec = .ok (.tec, [⟨false, "TEC".toList⟩]) :=
      tec_parms .tec ants value ha (by decide +kernel) rfl
    simp only [Store.read, Mode.kind, hs, Except.bind, mapM_mapE, mapE, v0, Mode.expected]
    rfl
  | tecAndPhase =>
    have v0 := hw ⟨false, "TEC".toList⟩ "TEC".toList ("TEC:".toList, 0, 0) (by decide +kernel) (by decide +kernel) (by decide +kernel) (by decide +kernel) (by decide +kernel) a hma
    have hs : selectParms ((emptyStore : Store K).gaincal .tecAndPhase ants value).names' .tec = .ok (.tec, [⟨false, "TEC".toList⟩]) :=
      tec_parms .tecAndPhase ants value ha (by decide +kernel) rfl
    simp only [Store.read, Mode.kind, hs, Except.bind, mapM_mapE, mapE, v0, Mode.expected]
    rfl

/-- C211: with `tecandphase` applycal gets the phases with the correction `commonscalarphase`. -/
theorem applycal_gets_phase (ants : List Name) (value : Name → Nat → Nat → List K) (ha : AntennaNames ants)
    (size : Nat) (hsize : ∀ a pol part, (value a pol part).length = size) (a : Name) (hma : a ∈ ants) :
    ((emptyStore : Store K).gaincal .tecAndPhase ants value).read .scalarPhase a size =
      .ok (.scalarPhase, [value a 0 1]) := by
  have hw := fun e e0 x => written .tecAndPhase ants value ha size hsize e e0 x
  have v0 := hw ⟨true, "ScalarPhase".toList⟩ "CommonScalarPhase".toList ("CommonScalarPhase:".toList, 0, 1) (by decide +kernel) (by decide +kernel) (by decide +kernel) (by decide +kernel) (by decide +kernel) a hma
  have hs : selectParms ((emptyStore : Store K).gaincal .tecAndPhase ants value).names' .scalarPhase =
      .ok (.scalarPhase, [⟨true, "ScalarPhase".toList⟩]) := rfl
  simp only [Store.read, hs, Except.bind, mapM_mapE, mapE, v0]
  rfl

/-- Values for the examples. -/
def sampleValue (a : Name) (pol part : Nat) : List ℚ := [(a.length : ℚ), (10 * pol + part : ℚ)]

example : AntennaNames ["RS106".toList, "CS1".toList] ∧ (∀ a pol part, (sampleValue a pol part).length = 2) ∧
    ((emptyStore : Store ℚ).gaincal .diagonalPhase ["RS106".toList, "CS1".toList] sampleValue).read .diagonal
      "CS1".toList 2 = .ok (.diagonal, [[1, 1], [3, 0], [1, 1], [3, 30]]) := by
  refine ⟨⟨by decide, by decide +kernel, ?_⟩, fun _ _ _ => rfl, by decide +kernel⟩
  intro a h
  rw [← List.isPrefixOf_iff_prefix]
  revert a
  decide +kernel

/-- C211: in a ParmDB (by default that of the measurement set) with the solutions of mode `diagonal`, solutions of mode
`diagonalphase` are written, but applycal does not get them: it gets ones and zeros, so that it does not correct
anything, without any error. -/
theorem phases_not_applied :
    let ants := ["RS106".toList, "CS1".toList]
    (((emptyStore : Store ℚ).gaincal .diagonal ants sampleValue).gaincal .diagonalPhase ants sampleValue).read .diagonal
      "CS1".toList 2 = .ok (.diagonal, [[1, 1], [0, 0], [1, 1], [0, 0]]) := by decide +kernel

/-- C211: solutions of mode `tec` leave the phases of an earlier `tecandphase` with those of the other antennas. -/
theorem old_phases_stay :
    let s := ((emptyStore : Store ℚ).gaincal .tecAndPhase ["A".toList, "B".toList] sampleValue).gaincal .tec
      ["A".toList, "B".toList] sampleValue
    s.read .scalarPhase "A".toList 2 = .ok (.scalarPhase, [[1, 1]]) := by decide +kernel

/-! ## C212 -/

/-- C212 (not for `scalaramplitude` and `tecandphase`, see `amplitude_table` and `phase_table`): the tables of an H5Parm
contain the quantities of which they have the name. -/
theorem tables_partial (m : Mode) (h1 : m ≠ .scalarAmplitude) (h2 : m ≠ .tecAndPhase) : m.contents = m.tables := by
  cases m <;> first | rfl | exact absurd rfl h1 | exact absurd rfl h2

/-- C212: with `scalaramplitude` the table with amplitudes has phases. -/
theorem amplitude_table : Mode.scalarAmplitude.tables = [.amplitude] ∧ Mode.scalarAmplitude.contents = [.phase] := ⟨rfl, rfl⟩

/-- C212: with `tecandphase` the table with phases has the values of the TEC. -/
theorem phase_table : Mode.tecAndPhase.tables = [.tec, .phase] ∧ Mode.tecAndPhase.contents = [.tec, .tec] := ⟨rfl, rfl⟩

private theorem flatMap_range_get {V : Type} (len : Nat) (g : Nat → List V) (hg : ∀ i, (g i).length = len) :
    ∀ (n : Nat) (i j : Nat), i < n → j < len → ((List.range n).flatMap g)[i * len + j]? = (g i)[j]? := by
  intro n
  induction n with
  | zero => intro i j hi; omega
  | succ n ih =>
    intro i j hi hj
    have hl : ((List.range n).flatMap g).length = n * len := by
      simp [List.length_flatMap, hg]
    rw [List.range_succ, List.flatMap_append]
    by_cases h : i < n
    · have : (i + 1) * len ≤ n * len := Nat.mul_le_mul_right len h
      rw [Nat.succ_mul] at this
      rw [List.getElem?_append_left (by omega), ih i j h hj]
    · obtain rfl : i = n := by omega
      rw [List.getElem?_append_right (by omega), hl]
      simp

private theorem flatMap_range_length {V : Type} (len n : Nat) (g : Nat → List V) (hg : ∀ i, (g i).length = len) :
    ((List.range n).flatMap g).length = n * len := by
  simp [List.length_flatMap, hg]

/-- C212: the value of each time, cell, antenna and polarization has its place in the table with axes in that order, and
its weight is 0 if and only if it is not finite. -/
theorem h5_values {V : Type} (nt nf na np : Nat) (sol : Nat → Nat → Nat → Nat → Option V) (t f a p : Nat) (ht : t < nt)
    (hf : f < nf) (ha : a < na) (hp : p < np) :
    (h5Values nt nf na np sol).length = nt * (nf * (na * np)) ∧
    (h5Values nt nf na np sol)[t * (nf * (na * np)) + (f * (na * np) + (a * np + p))]? = some (sol t f a p) ∧
    (h5Weights (K := K) (h5Values nt nf na np sol))[t * (nf * (na * np)) + (f * (na * np) + (a * np + p))]? =
      some (if (sol t f a p).isSome then 1 else 0) := by
  have l1 : ∀ t f a, ((List.range np).map fun p => sol t f a p).length = np := by simp
  have l2 : ∀ t f, ((List.range na).flatMap fun a => (List.range np).map fun p => sol t f a p).length = na * np :=
    fun t f => flatMap_range_length _ _ _ (l1 t f)
  have l3 : ∀ t, ((List.range nf).flatMap fun f => (List.range na).flatMap fun a => (List.range np).map fun p =>
      sol t f a p).length = nf * (na * np) := fun t => flatMap_range_length _ _ _ (l2 t)
  have b1 : a * np + p < na * np := by
    have : (a + 1) * np ≤ na * np := Nat.mul_le_mul_right np ha
    rw [Nat.succ_mul] at this
    omega
  have b2 : f * (na * np) + (a * np + p) < nf * (na * np) := by
    have : (f + 1) * (na * np) ≤ nf * (na * np) := Nat.mul_le_mul_right _ hf
    rw [Nat.succ_mul] at this
    omega
  have hv : (h5Values nt nf na np sol)[t * (nf * (na * np)) + (f * (na * np) + (a * np + p))]? = some (sol t f a p) := by
    unfold h5Values
    rw [flatMap_range_get _ _ l3 nt t _ ht b2, flatMap_range_get _ _ (l2 t) nf f _ hf b1,
      flatMap_range_get _ _ (l1 t f) na a p ha hp, List.getElem?_map, List.getElem?_range hp]
    rfl
  refine ⟨flatMap_range_length _ _ _ l3, hv, ?_⟩
  unfold h5Weights
  rw [List.getElem?_map, hv]
  rfl

example : h5Values 2 1 2 2 (fun t f a p => if t = 1 ∧ a = 0 then none else some (100 * t + 10 * a + p)) =
    [some 0, some 1, some 10, some 11, none, none, some 110, some 111] ∧
    h5Weights (K := ℚ) [some 0, none, some 110] = [1, 0, 1] ∧ Mode.fullJones ≠ .scalarAmplitude := by decide +kernel

end DP3.GainCalStep
