import Verif.DPInfo.Antennas
import Mathlib.Data.List.Basic
import Mathlib.Data.List.Nodup
import Mathlib.Tactic.SplitIfs

/-!
# Properties of the antenna bookkeeping of `DPInfo` (C25, C62)
-/

namespace DP3.DPInfo

set_option linter.unusedSectionVars false

variable {A L : Type}

/-- The antenna occurs in a baseline. -/
def Occurs (s : Ants A L) (a : Nat) : Prop := a ∈ s.ant1 ∨ a ∈ s.ant2

instance (s : Ants A L) (a : Nat) : Decidable (Occurs s a) := by
  unfold Occurs; infer_instance

/-- The antennas in use, in order. -/
def usedSpec (s : Ants A L) : List Nat := (List.range s.ants.length).filter fun a => Occurs s a

/-- The new number of an antenna: the number of antennas in use before it. -/
def rank (s : Ants A L) (a : Nat) : Nat := ((List.range a).filter fun a => Occurs s a).length

/-- What `antennaUsed()` and `antennaMap()` have to hold. -/
structure Bookkept (s : Ants A L) : Prop where
  same : s.ant1.length = s.ant2.length
  inside1 : ∀ a ∈ s.ant1, a < s.ants.length
  inside2 : ∀ a ∈ s.ant2, a < s.ants.length
  used : s.used = usedSpec s
  mapLength : s.map.length = s.ants.length
  map : ∀ a, a < s.ants.length →
    s.map[a]? = some (if Occurs s a then (rank s a : Int) else -1)

/-- The antenna record a baseline refers to, through one of the two lists of antenna numbers. -/
def antOf (s : Ants A L) (l : List Nat) (b : Nat) : Option A := (l[b]?).bind fun a => s.ants[a]?

/-! ## The two loops of `setAntUsed` -/

private theorem mark_spec : ∀ (ps : List (Nat × Nat)) (m : List Int),
    (∀ p ∈ ps, p.1 < m.length ∧ p.2 < m.length) →
    ∃ m', mark ps m = some m' ∧ m'.length = m.length ∧
      ∀ i : Nat, i < m.length → m'[i]? = if ∃ p ∈ ps, p.1 = i ∨ p.2 = i then some 0 else m[i]?
  | [], m, _ => ⟨m, rfl, rfl, by simp⟩
  | (a, b) :: rest, m, h => by
    have hab := h (a, b) (by simp)
    simp only at hab
    have hnot : ¬ (a ≥ m.length ∨ b ≥ m.length) := by omega
    obtain ⟨m', h1, h2, h3⟩ := mark_spec rest ((m.set a 0).set b 0)
      (by intro p hp; simpa using h p (List.mem_cons_of_mem _ hp))
    refine ⟨m', by rw [mark, if_neg hnot, h1], by simpa using h2, ?_⟩
    intro i hi
    rw [h3 i (by simpa using hi)]
    by_cases hr : ∃ p ∈ rest, p.1 = i ∨ p.2 = i
    · obtain ⟨p, hp, hpi⟩ := hr
      rw [if_pos ⟨p, hp, hpi⟩, if_pos ⟨p, List.mem_cons_of_mem _ hp, hpi⟩]
    · rw [if_neg hr]
      by_cases hh : a = i ∨ b = i
      · rw [if_pos ⟨(a, b), by simp, hh⟩]
        rcases hh with rfl | rfl
        · rw [List.getElem?_set]
          split_ifs with hba hl
          · rfl
          · exact absurd (by simpa using hab.2) hl
          · rw [List.getElem?_set]; simp [hi]
        · rw [List.getElem?_set]; simp [hi]
      · rw [if_neg]
        · rw [List.getElem?_set_ne (by tauto), List.getElem?_set_ne (by tauto)]
        · rintro ⟨p, hp, hpi⟩
          rcases List.mem_cons.1 hp with rfl | hp
          · exact hh hpi
          · exact hr ⟨p, hp, hpi⟩

private theorem mark_none : ∀ (ps : List (Nat × Nat)) (m : List Int),
    ¬ (∀ p ∈ ps, p.1 < m.length ∧ p.2 < m.length) → mark ps m = none
  | [], m, h => absurd (by simp) h
  | (a, b) :: rest, m, h => by
    rw [mark]
    split_ifs with hab
    · rfl
    · apply mark_none
      intro hr
      apply h
      intro p hp
      rcases List.mem_cons.1 hp with rfl | hp
      · simp only; omega
      · simpa using hr p hp

private theorem number_spec (p : Nat → Bool) : ∀ (n i : Nat),
    number i ((List.range' i n).map fun a => if p a then (0 : Int) else -1)
      ((List.range i).filter p) =
    ((List.range' i n).map fun a => if p a then ((((List.range a).filter p).length : Nat) : Int)
      else -1, (List.range (i + n)).filter p)
  | 0, i => by simp [number]
  | n + 1, i => by
    have ih := number_spec p n (i + 1)
    rw [List.range_succ, List.filter_append] at ih
    simp only [List.range'_succ, List.map_cons]
    by_cases hp : p i
    · rw [List.filter_cons_of_pos (by simpa using hp), List.filter_nil] at ih
      rw [number]
      simp only [hp, if_true, ih, Nat.add_assoc, Nat.add_comm 1 n]
    · rw [List.filter_cons_of_neg (by simpa using hp), List.filter_nil, List.append_nil] at ih
      rw [number]
      simp only [hp, Bool.false_eq_true, if_false, ih]
      simp [Nat.add_assoc, Nat.add_comm 1 n]

private theorem mem_zip_iff : ∀ (l1 l2 : List Nat), l1.length = l2.length → ∀ i,
    ((∃ p ∈ l1.zip l2, p.1 = i ∨ p.2 = i) ↔ (i ∈ l1 ∨ i ∈ l2))
  | [], [], _, i => by simp
  | a :: l1, b :: l2, h, i => by
    have ih := mem_zip_iff l1 l2 (by simpa using h) i
    constructor
    · rintro ⟨p, hp, hpi⟩
      rcases List.mem_cons.1 hp with rfl | hp
      · rcases hpi with rfl | rfl <;> simp
      · rcases ih.1 ⟨p, hp, hpi⟩ with h | h
        · exact Or.inl (List.mem_cons_of_mem _ h)
        · exact Or.inr (List.mem_cons_of_mem _ h)
    · intro hi
      have : (i = a ∨ i = b) ∨ (i ∈ l1 ∨ i ∈ l2) := by
        simp only [List.mem_cons] at hi; tauto
      rcases this with h | h
      · exact ⟨(a, b), by simp, by simpa [eq_comm] using h⟩
      · obtain ⟨p, hp, hpi⟩ := ih.2 h
        exact ⟨p, List.mem_cons_of_mem _ hp, hpi⟩

/-- `setAntUsed` succeeds exactly when the antenna numbers are inside the antenna list, and then
`antennaUsed()` and `antennaMap()` are right. -/
private theorem setAntUsed_spec (s : Ants A L) (hsame : s.ant1.length = s.ant2.length) (t) :
    setAntUsed s = some t ↔
      ((∀ a ∈ s.ant1, a < s.ants.length) ∧ (∀ a ∈ s.ant2, a < s.ants.length)) ∧
      t = { s with
        map := (List.range s.ants.length).map
          fun a => if Occurs s a then (rank s a : Int) else -1
        used := usedSpec s } := by
  have hin : (∀ p ∈ s.ant1.zip s.ant2, p.1 < s.ants.length ∧ p.2 < s.ants.length) ↔
      ((∀ a ∈ s.ant1, a < s.ants.length) ∧ (∀ a ∈ s.ant2, a < s.ants.length)) := by
    constructor
    · intro h
      constructor
      · intro a ha
        have := (List.map_fst_zip (l₁ := s.ant1) (l₂ := s.ant2) (Nat.le_of_eq hsame))
        rw [← this] at ha
        obtain ⟨p, hp, rfl⟩ := List.mem_map.1 ha
        exact (h p hp).1
      · intro a ha
        have := (List.map_snd_zip (l₁ := s.ant1) (l₂ := s.ant2) (Nat.le_of_eq hsame.symm))
        rw [← this] at ha
        obtain ⟨p, hp, rfl⟩ := List.mem_map.1 ha
        exact (h p hp).2
    · rintro ⟨h1, h2⟩ p hp
      exact ⟨h1 _ (List.of_mem_zip hp).1, h2 _ (List.of_mem_zip hp).2⟩
  rw [← hin]
  by_cases hall : ∀ p ∈ s.ant1.zip s.ant2, p.1 < s.ants.length ∧ p.2 < s.ants.length
  · obtain ⟨m', hm, hl, hm'⟩ := mark_spec (s.ant1.zip s.ant2)
      (List.replicate s.ants.length (-1)) (by simpa using hall)
    simp only [List.length_replicate] at hl hm'
    have hm'' : m' = (List.range' 0 s.ants.length).map
        fun a => if (decide (Occurs s a)) then (0 : Int) else -1 := by
      apply List.ext_getElem?
      intro i
      by_cases hi : i < s.ants.length
      · rw [hm' i hi]
        simp only [mem_zip_iff _ _ hsame]
        rw [List.getElem?_map, List.getElem?_range' hi]
        simp only [Option.map_some, List.getElem?_replicate, hi, if_true]
        simp only [Occurs, decide_eq_true_eq, Nat.zero_add, Nat.one_mul]
        split_ifs <;> rfl
      · rw [List.getElem?_eq_none (by omega), List.getElem?_eq_none (by simp; omega)]
    have hn := number_spec (fun a => decide (Occurs s a)) s.ants.length 0
    rw [List.range_zero, List.filter_nil, Nat.zero_add] at hn
    rw [setAntUsed, hm]
    simp only [Option.map_some, Option.some.injEq]
    rw [hm'', hn]
    simp only [decide_eq_true_eq, List.range_eq_range', rank, usedSpec]
    constructor
    · intro h; exact ⟨by simpa using hall, h.symm⟩
    · rintro ⟨_, h⟩; exact h.symm
  · rw [setAntUsed, mark_none _ _ (by simpa using hall)]
    simp only [Option.map_none]
    constructor
    · intro h; exact absurd h (by simp)
    · rintro ⟨h, _⟩; exact absurd h hall

private theorem bookkept_of_set (s t : Ants A L) (hsame : s.ant1.length = s.ant2.length)
    (h : setAntUsed s = some t) : Bookkept t := by
  obtain ⟨⟨h1, h2⟩, rfl⟩ := (setAntUsed_spec s hsame t).1 h
  refine ⟨hsame, h1, h2, rfl, by simp, ?_⟩
  intro a ha
  have ha' : a < s.ants.length := ha
  simp only [List.getElem?_map, List.getElem?_range ha', Option.map_some]
  rfl

private theorem mapM_length {α β : Type} (f : α → Option β) : ∀ (l : List α) (r : List β),
    l.mapM f = some r → r.length = l.length
  | [], r, h => by
    simp only [List.mapM_nil, Option.pure_def, Option.some.injEq] at h; subst h; rfl
  | a :: l, r, h => by
    simp only [List.mapM_cons, Option.bind_eq_bind, Option.bind_eq_some_iff, Option.pure_def,
      Option.some.injEq] at h
    obtain ⟨x, _, y, hy, rfl⟩ := h
    simp [mapM_length f l y hy]

private theorem mapM_some {α β : Type} (f : α → Option β) (g : α → β) : ∀ (l : List α),
    (∀ a ∈ l, f a = some (g a)) → l.mapM f = some (l.map g)
  | [], _ => rfl
  | a :: l, h => by
    simp [List.mapM_cons, h a (by simp), mapM_some f g l (fun x hx => h x (by simp [hx]))]

private theorem mapM_get {α β : Type} (f : α → Option β) : ∀ (l : List α) (r : List β),
    l.mapM f = some r → ∀ i : Nat, r[i]? = (l[i]?).bind f
  | [], r, h, i => by
    simp only [List.mapM_nil, Option.pure_def, Option.some.injEq] at h; subst h; simp
  | a :: l, r, h, i => by
    simp only [List.mapM_cons, Option.bind_eq_bind, Option.bind_eq_some_iff, Option.pure_def,
      Option.some.injEq] at h
    obtain ⟨x, hx, y, hy, rfl⟩ := h
    cases i with
    | zero => simp [hx]
    | succ i => simpa using mapM_get f l y hy i

private theorem filter_rank (p : Nat → Bool) (n a : Nat) (ha : a < n) (hp : p a) :
    ((List.range n).filter p)[((List.range a).filter p).length]? = some a := by
  have : n = a + (n - a) := by omega
  rw [this, List.range_add, List.filter_append]
  obtain ⟨k, hk⟩ : ∃ k, n - a = k + 1 := ⟨n - a - 1, by omega⟩
  rw [List.getElem?_append_right (Nat.le_refl _), Nat.sub_self, hk, List.range_succ_eq_map]
  simp [hp]

/-! ## C25 -/

/-- **C25.**  Whatever calls were made on a `DPInfo`, the list of antennas in use holds exactly
the antennas occurring in a baseline, in order, and the antenna map gives for each the number of
antennas in use before it, and -1 for every other antenna. -/
theorem run_bookkept (dist : A → A → L) (ops : List (Op A)) (s : Ants A L)
    (h : run dist ops empty = some s) : Bookkept s := by
  suffices H : ∀ (ops : List (Op A)) (s0 s : Ants A L), Bookkept s0 → run dist ops s0 = some s →
      Bookkept s from
    H ops empty s ⟨rfl, by simp [empty], by simp [empty], rfl, rfl, by simp [empty]⟩ h
  intro ops
  induction ops with
  | nil => intro s0 s h0 h; simp only [run, Option.some.injEq] at h; exact h ▸ h0
  | cons o os ih =>
    intro s0 s h0 h
    simp only [run, Option.bind_eq_some_iff] at h
    obtain ⟨s1, h1, h⟩ := h
    refine ih s1 s ?_ h
    cases o with
    | setAntennas ants a1 a2 =>
      simp only [step, setAntennas] at h1
      split_ifs at h1 with hl
      exact bookkept_of_set _ _ (by simpa using hl) h1
    | select sel =>
      simp only [step, selectBaselines, Option.bind_eq_bind, Option.bind_eq_some_iff] at h1
      obtain ⟨a1, ha1, a2, ha2, h1⟩ := h1
      refine bookkept_of_set _ _ ?_ h1
      simp [mapM_length _ _ _ ha1, mapM_length _ _ _ ha2]
    | remove =>
      simp only [step, removeUnused] at h1
      split_ifs at h1
      · simp only [Option.bind_eq_bind, Option.bind_eq_some_iff, Option.some.injEq] at h1
        obtain ⟨as, has, a1, ha1, a2, ha2, t, ht, rfl⟩ := h1
        have hb := bookkept_of_set _ _ (by
          simp [mapM_length _ _ _ ha1, mapM_length _ _ _ ha2, h0.same]) ht
        exact ⟨hb.same, hb.inside1, hb.inside2, hb.used, hb.mapLength, hb.map⟩
      · simp only [Option.some.injEq] at h1; exact h1 ▸ h0
    | lengths =>
      simp only [step, getLengths] at h1
      split_ifs at h1
      · simp only [Option.map_map, Option.map_eq_some_iff] at h1
        obtain ⟨l, _, rfl⟩ := h1
        exact ⟨h0.same, h0.inside1, h0.inside2, h0.used, h0.mapLength, h0.map⟩
      · simp only [Option.map_some, Option.some.injEq] at h1; exact h1 ▸ h0
    | autos =>
      simp only [step, getAutos] at h1
      split_ifs at h1
      · simp only [Option.map_map, Option.map_eq_some_iff] at h1
        obtain ⟨l, _, rfl⟩ := h1
        exact ⟨h0.same, h0.inside1, h0.inside2, h0.used, h0.mapLength, h0.map⟩
      · simp only [Option.map_some, Option.some.injEq] at h1; exact h1 ▸ h0

/-- Four antennas of which the first and third are in no baseline; then a selection of
baselines. -/
example : ∃ s, run (L := Nat) (fun (a b : Nat) => a - b)
    [.setAntennas [10, 11, 12, 13] [1, 3, 0] [3, 3, 1], .lengths, .select [0, 1]] empty = some s ∧
      s.used = [1, 3] ∧ s.map = [-1, 0, -1, 1] := ⟨_, rfl, rfl, rfl⟩

/-- **C25.**  `RemoveUnusedAntennas` succeeds; afterwards the antenna list is the list of the
antennas that occur in a baseline, in their original order, every baseline refers to the same
antenna records as before, and no antenna is unused. -/
theorem remove_spec (dist : A → A → L) (ops : List (Op A)) (s : Ants A L)
    (h : run dist ops empty = some s) :
    ∃ t, removeUnused s = some t ∧
      t.ants = (usedSpec s).filterMap (fun a => s.ants[a]?) ∧
      (∀ b, antOf t t.ant1 b = antOf s s.ant1 b) ∧
      (∀ b, antOf t t.ant2 b = antOf s s.ant2 b) ∧
      t.ant1.length = s.ant1.length ∧ t.ant2.length = s.ant2.length ∧
      (∀ a < t.ants.length, Occurs t a) := by
  have hs := run_bookkept dist ops s h
  have hanti : ∀ l : List Nat, (∀ a ∈ l, a < s.ants.length) → (∀ a ∈ l, Occurs s a) →
      ∀ a ∈ l, (s.map[a]?).bind Int.toNat? = some (rank s a) := by
    intro l hl ho a ha
    rw [hs.map a (hl a ha), if_pos (ho a ha)]
    rfl
  by_cases hlt : s.used.length < s.map.length
  · have hused : ∀ u ∈ s.used, u < s.ants.length := by
      intro u hu; rw [hs.used] at hu; exact List.mem_range.1 (List.mem_filter.1 hu).1
    obtain ⟨as, has⟩ : ∃ as, s.used.mapM (fun u => s.ants[u]?) = some as := by
      by_cases he : s.ants = []
      · have : s.used = [] := by
          rw [hs.used, usedSpec, he]; rfl
        exact ⟨[], by rw [this]; rfl⟩
      · have : Nonempty A := by
          obtain ⟨a, ha⟩ := List.exists_mem_of_ne_nil _ he; exact ⟨a⟩
        exact ⟨_, mapM_some _ (fun u => (s.ants[u]?).getD this.some) _ (by
          intro a ha; rw [List.getElem?_eq_getElem (hused a ha)]; rfl)⟩
    have hget := mapM_get _ _ _ has
    have hlen := mapM_length _ _ _ has
    have ha1 := mapM_some _ (rank s) s.ant1
      (hanti s.ant1 hs.inside1 fun a ha => Or.inl ha)
    have ha2 := mapM_some _ (rank s) s.ant2
      (hanti s.ant2 hs.inside2 fun a ha => Or.inr ha)
    -- the records behind the new numbers
    have hrec : ∀ a, a < s.ants.length → Occurs s a → as[rank s a]? = s.ants[a]? := by
      intro a ha ho
      rw [hget, hs.used, usedSpec, rank, filter_rank _ _ _ ha (by simpa using ho)]
      rfl
    have hrl : ∀ a, a < s.ants.length → Occurs s a → rank s a < as.length := by
      intro a ha ho
      have h1 := hrec a ha ho
      rw [List.getElem?_eq_getElem ha] at h1
      exact (List.getElem?_eq_some_iff.1 h1).1
    let s' : Ants A L := { s with
      ants := as, ant1 := s.ant1.map (rank s), ant2 := s.ant2.map (rank s), metaChanged := true }
    have hset := (setAntUsed_spec s' (by simp [s', hs.same]) _).2 ⟨⟨by
      intro x hx
      obtain ⟨a, ha, rfl⟩ := List.mem_map.1 hx
      exact hrl a (hs.inside1 a ha) (Or.inl ha), by
      intro x hx
      obtain ⟨a, ha, rfl⟩ := List.mem_map.1 hx
      exact hrl a (hs.inside2 a ha) (Or.inr ha)⟩, rfl⟩
    refine ⟨_, by
      rw [removeUnused, if_pos hlt]
      simp only [has, ha1, ha2, Option.bind_eq_bind, Option.bind_some]
      rw [show setAntUsed ({ s with
        ants := as, ant1 := s.ant1.map (rank s), ant2 := s.ant2.map (rank s),
        metaChanged := true } : Ants A L) = _ from hset]
      rfl, ?_, ?_, ?_, ?_, ?_, ?_⟩
    · show as = _
      rw [← hs.used]
      have : ∀ (l : List Nat) (r : List A), l.mapM (fun u => s.ants[u]?) = some r →
          r = l.filterMap (fun a => s.ants[a]?) := by
        intro l
        induction l with
        | nil =>
          intro r hr
          simp only [List.mapM_nil, Option.pure_def, Option.some.injEq] at hr; subst hr; rfl
        | cons a l ih =>
          intro r hr
          simp only [List.mapM_cons, Option.bind_eq_bind, Option.bind_eq_some_iff,
            Option.pure_def, Option.some.injEq] at hr
          obtain ⟨x, hx, y, hy, rfl⟩ := hr
          rw [List.filterMap_cons, hx, ← ih y hy]
      exact this _ _ has
    · intro b
      show ((s.ant1.map (rank s))[b]?).bind (fun a => as[a]?) = (s.ant1[b]?).bind _
      rw [List.getElem?_map]
      cases hb : s.ant1[b]? with
      | none => rfl
      | some a =>
        have ha := List.mem_of_getElem? hb
        exact hrec a (hs.inside1 a ha) (Or.inl ha)
    · intro b
      show ((s.ant2.map (rank s))[b]?).bind (fun a => as[a]?) = (s.ant2[b]?).bind _
      rw [List.getElem?_map]
      cases hb : s.ant2[b]? with
      | none => rfl
      | some a =>
        have ha := List.mem_of_getElem? hb
        exact hrec a (hs.inside2 a ha) (Or.inr ha)
    · show (s.ant1.map (rank s)).length = _; simp
    · show (s.ant2.map (rank s)).length = _; simp
    · intro k hk
      have hk : k < as.length := hk
      rw [hlen] at hk
      have hu := List.getElem?_eq_getElem hk
      generalize s.used[k] = u at hu
      have hmem := List.mem_of_getElem? hu
      rw [hs.used, usedSpec] at hmem hu
      obtain ⟨hur, huo⟩ := List.mem_filter.1 hmem
      have huo' : Occurs s u := by simpa using huo
      have hf := filter_rank (fun a => decide (Occurs s a)) _ u (List.mem_range.1 hur) huo
      have hnd : ((List.range s.ants.length).filter fun a => decide (Occurs s a)).Nodup :=
        List.Nodup.filter _ List.nodup_range
      have hkr : k = rank s u :=
        (List.getElem?_inj (by rw [hs.used, usedSpec] at hk; exact hk) hnd).1 (hu.trans hf.symm)
      rcases huo' with h1 | h2
      · exact Or.inl (List.mem_map.2 ⟨u, h1, hkr.symm⟩)
      · exact Or.inr (List.mem_map.2 ⟨u, h2, hkr.symm⟩)
  · refine ⟨s, by rw [removeUnused, if_neg hlt], ?_, fun _ => rfl, fun _ => rfl, rfl, rfl, ?_⟩
    all_goals
      have hlen : s.ants.length ≤ (usedSpec s).length := by
        rw [← hs.used, ← hs.mapLength]; omega
      have hall : usedSpec s = List.range s.ants.length := by
        apply List.filter_eq_self.2
        have := List.filter_sublist (l := List.range s.ants.length)
          (p := fun a => decide (Occurs s a))
        have h2 := this.eq_of_length_le (by simpa [usedSpec] using hlen)
        exact List.filter_eq_self.1 h2
    · rw [hall]
      have : ∀ (n : Nat), n ≤ s.ants.length →
          (List.range n).filterMap (fun a => s.ants[a]?) = s.ants.take n := by
        intro n
        induction n with
        | zero => intro _; rfl
        | succ n ih =>
          intro hn
          rw [List.range_succ, List.filterMap_append, ih (by omega), List.take_add_one]
          simp [List.getElem?_eq_getElem (show n < s.ants.length by omega)]
      rw [this _ (Nat.le_refl _), List.take_length]
    · intro a ha
      have : a ∈ usedSpec s := by rw [hall]; exact List.mem_range.2 ha
      simpa using (List.mem_filter.1 this).2

/-- Antennas 1 and 3 of four are kept. -/
example : ∃ s t, run (L := Nat) (fun (a b : Nat) => a - b)
    [.setAntennas [10, 11, 12, 13] [1, 3] [3, 3]] empty = some s ∧ removeUnused s = some t ∧
      t.ants = [11, 13] ∧ t.ant1 = [0, 1] ∧ t.ant2 = [1, 1] ∧ t.map = [0, 1] :=
  ⟨_, _, rfl, rfl, rfl, rfl, rfl, rfl⟩

/-- **C25.**  `SelectBaselines` with baseline numbers inside the list succeeds and makes baseline `i`
the baseline of the given number, with the same antennas. -/
theorem select_baselines (dist : A → A → L) (ops : List (Op A)) (s : Ants A L)
    (h : run dist ops empty = some s) (sel : List Nat) (hsel : ∀ b ∈ sel, b < s.ant1.length) :
    ∃ t, selectBaselines s sel = some t ∧ t.ants = s.ants ∧ t.ant1.length = sel.length ∧
      t.ant2.length = sel.length ∧
      ∀ i b : Nat, sel[i]? = some b → t.ant1[i]? = s.ant1[b]? ∧ t.ant2[i]? = s.ant2[b]? := by
  have hs := run_bookkept dist ops s h
  have h1 := mapM_some (fun b => s.ant1[b]?) (fun b => (s.ant1[b]?).getD 0) sel (by
    intro b hb; rw [List.getElem?_eq_getElem (hsel b hb)]; rfl)
  have h2 := mapM_some (fun b => s.ant2[b]?) (fun b => (s.ant2[b]?).getD 0) sel (by
    intro b hb; rw [List.getElem?_eq_getElem (by rw [← hs.same]; exact hsel b hb)]; rfl)
  have hset := (setAntUsed_spec ({ s with
    ant1 := sel.map fun b => (s.ant1[b]?).getD 0, ant2 := sel.map fun b => (s.ant2[b]?).getD 0
    lengths := [], autos := [] } : Ants A L) (by simp) _).2 ⟨⟨by
      intro a ha
      obtain ⟨b, hb, rfl⟩ := List.mem_map.1 ha
      rw [List.getElem?_eq_getElem (hsel b hb)]
      exact hs.inside1 _ (List.getElem_mem _), by
      intro a ha
      obtain ⟨b, hb, rfl⟩ := List.mem_map.1 ha
      rw [List.getElem?_eq_getElem (by rw [← hs.same]; exact hsel b hb)]
      exact hs.inside2 _ (List.getElem_mem _)⟩, rfl⟩
  have hdef : selectBaselines s sel = setAntUsed ({ s with
    ant1 := sel.map fun b => (s.ant1[b]?).getD 0, ant2 := sel.map fun b => (s.ant2[b]?).getD 0
    lengths := [], autos := [] } : Ants A L) := by
    rw [selectBaselines, h1, h2]; rfl
  refine ⟨_, hdef.trans hset, rfl, by simp, by simp, ?_⟩
  intro i b hb
  have hb' := hsel b (List.mem_of_getElem? hb)
  constructor
  · show (sel.map _)[i]? = _
    rw [List.getElem?_map, hb, Option.map_some, List.getElem?_eq_getElem hb']; rfl
  · show (sel.map _)[i]? = _
    rw [List.getElem?_map, hb, Option.map_some,
      List.getElem?_eq_getElem (by rw [← hs.same]; exact hb')]
    rfl

/-- Baselines 2 and 0 of three, in this order. -/
example : ∃ s t, run (L := Nat) (fun (a b : Nat) => a - b)
    [.setAntennas [10, 11, 12] [0, 1, 2] [1, 2, 2]] empty = some s ∧
      selectBaselines s [2, 0] = some t ∧ t.ant1 = [2, 0] ∧ t.ant2 = [2, 1] :=
  ⟨_, _, rfl, rfl, rfl, rfl⟩

/-- **C25.**  Antenna numbers outside the antenna list are refused when the antennas are set. -/
theorem setAntennas_rejects (s : Ants A L) (ants : List A) (ant1 ant2 : List Nat) :
    setAntennas s ants ant1 ant2 = none ↔
      ant1.length ≠ ant2.length ∨ ∃ a, (a ∈ ant1 ∨ a ∈ ant2) ∧ ants.length ≤ a := by
  by_cases hl : ant1.length = ant2.length
  · rw [setAntennas, if_neg (by simpa using hl)]
    have := setAntUsed_spec { s with ants := ants, ant1 := ant1, ant2 := ant2 } hl
    constructor
    · intro hn
      right
      by_contra hc
      have := (this _).2 ⟨⟨fun a ha => Nat.lt_of_not_le fun h => hc ⟨a, Or.inl ha, h⟩,
        fun a ha => Nat.lt_of_not_le fun h => hc ⟨a, Or.inr ha, h⟩⟩, rfl⟩
      rw [hn] at this
      exact absurd this (by simp)
    · rintro (h | ⟨a, ha, hle⟩)
      · exact absurd hl h
      · cases hr : setAntUsed { s with ants := ants, ant1 := ant1, ant2 := ant2 } with
        | none => rfl
        | some t =>
          obtain ⟨⟨h1, h2⟩, _⟩ := (this t).1 hr
          rcases ha with ha | ha
          · exact absurd (h1 a ha) (by simpa using hle)
          · exact absurd (h2 a ha) (by simpa using hle)
  · rw [setAntennas, if_pos hl]; simp [hl]

/-- Two antennas and a baseline with antenna number 2. -/
example : setAntennas (empty : Ants Nat Nat) [10, 11] [0, 2] [1, 1] = none := rfl

/-! ## C62: the caches -/

/-- The calls other than `setAntennas`. -/
def Op.keepsAntennas : Op A → Bool
  | .setAntennas .. => false
  | _ => true

/-- A cache that is filled holds what would be computed now. -/
structure Fresh (dist : A → A → L) (s : Ants A L) : Prop where
  lengths : s.lengths ≠ [] → computeLengths dist s = some s.lengths
  autos : s.autos ≠ [] → computeAutos s = some s.autos

private theorem computeLengths_congr (dist : A → A → L) (s t : Ants A L) (h1 : s.ants = t.ants)
    (h2 : s.ant1 = t.ant1) (h3 : s.ant2 = t.ant2) :
    computeLengths dist s = computeLengths dist t := by
  simp only [computeLengths, h1, h2, h3]

private theorem computeAutos_congr (s t : Ants A L)
    (h2 : s.ant1 = t.ant1) (h3 : s.ant2 = t.ant2) : computeAutos s = computeAutos t := by
  simp only [computeAutos, maxAnt, h2, h3]

private theorem setAntUsed_keeps (s t : Ants A L) (h : setAntUsed s = some t) :
    t.ants = s.ants ∧ t.ant1 = s.ant1 ∧ t.ant2 = s.ant2 ∧ t.lengths = s.lengths ∧
      t.autos = s.autos := by
  rw [setAntUsed, Option.map_eq_some_iff] at h
  obtain ⟨m, _, rfl⟩ := h
  exact ⟨rfl, rfl, rfl, rfl, rfl⟩

private theorem fresh_step (dist : A → A → L) (s t : Ants A L) (o : Op A) (ho : o.keepsAntennas)
    (h : step dist s o = some t) (hf : Fresh dist s) : Fresh dist t := by
  cases o with
  | setAntennas => simp [Op.keepsAntennas] at ho
  | select sel =>
    simp only [step, selectBaselines, Option.bind_eq_bind, Option.bind_eq_some_iff] at h
    obtain ⟨a1, _, a2, _, h⟩ := h
    obtain ⟨_, _, _, h4, h5⟩ := setAntUsed_keeps _ _ h
    exact ⟨fun hc => absurd h4 hc, fun hc => absurd h5 hc⟩
  | remove =>
    simp only [step, removeUnused] at h
    split_ifs at h
    · simp only [Option.bind_eq_bind, Option.bind_eq_some_iff, Option.some.injEq] at h
      obtain ⟨as, has, a1, ha1, a2, ha2, t', ht, rfl⟩ := h
      exact ⟨fun hc => absurd rfl hc, fun hc => absurd rfl hc⟩
    · simp only [Option.some.injEq] at h; exact h ▸ hf
  | lengths =>
    simp only [step, getLengths] at h
    split_ifs at h
    · simp only [Option.map_map, Option.map_eq_some_iff] at h
      obtain ⟨l, hl, rfl⟩ := h
      exact ⟨fun _ => hl, fun hc => hf.autos hc⟩
    · simp only [Option.map_some, Option.some.injEq] at h; exact h ▸ hf
  | autos =>
    simp only [step, getAutos] at h
    split_ifs at h
    · simp only [Option.map_map, Option.map_eq_some_iff] at h
      obtain ⟨l, hl, rfl⟩ := h
      exact ⟨fun hc => hf.lengths hc, fun _ => hl⟩
    · simp only [Option.map_some, Option.some.injEq] at h; exact h ▸ hf

private theorem fresh_run (dist : A → A → L) : ∀ (ops : List (Op A)) (s t : Ants A L),
    (∀ o ∈ ops, o.keepsAntennas) → run dist ops s = some t → Fresh dist s → Fresh dist t
  | [], s, t, _, h, hf => by simp only [run, Option.some.injEq] at h; exact h ▸ hf
  | o :: os, s, t, ho, h, hf => by
    simp only [run, Option.bind_eq_some_iff] at h
    obtain ⟨s1, h1, h⟩ := h
    exact fresh_run dist os s1 t (fun o h => ho o (List.mem_cons_of_mem _ h)) h
      (fresh_step dist s s1 o (ho o (by simp)) h1 hf)

private theorem fresh_of_run (dist : A → A → L) (ants : List A) (ant1 ant2 : List Nat)
    (ops : List (Op A)) (s : Ants A L) (hops : ∀ o ∈ ops, o.keepsAntennas)
    (h : run dist (.setAntennas ants ant1 ant2 :: ops) empty = some s) : Fresh dist s := by
  simp only [run, Option.bind_eq_some_iff] at h
  obtain ⟨s1, h1, h⟩ := h
  refine fresh_run dist ops s1 s hops h ?_
  simp only [step, setAntennas] at h1
  split_ifs at h1
  obtain ⟨_, _, _, h4, h5⟩ := setAntUsed_keeps _ _ h1
  exact ⟨fun hc => absurd h4 hc, fun hc => absurd h5 hc⟩

private theorem computeLengths_spec (dist : A → A → L) (s : Ants A L) (hs : Bookkept s) :
    ∃ l, computeLengths dist s = some l ∧ l.length = s.ant1.length ∧
      ∀ (b a1 a2 : Nat) (r1 r2 : A), s.ant1[b]? = some a1 → s.ant2[b]? = some a2 →
        s.ants[a1]? = some r1 → s.ants[a2]? = some r2 → l[b]? = some (dist r1 r2) := by
  have hex : ∀ ps : List (Nat × Nat), (∀ p ∈ ps, p.1 < s.ants.length ∧ p.2 < s.ants.length) →
      ∃ l, ps.mapM (fun p => (s.ants[p.1]?).bind fun a => (s.ants[p.2]?).bind fun b =>
        some (dist a b)) = some l := by
    intro ps
    induction ps with
    | nil => intro _; exact ⟨[], rfl⟩
    | cons p ps ih =>
      intro hp
      obtain ⟨l, hl⟩ := ih fun q hq => hp q (List.mem_cons_of_mem _ hq)
      obtain ⟨h1, h2⟩ := hp p (by simp)
      refine ⟨dist (s.ants[p.1]) (s.ants[p.2]) :: l, ?_⟩
      simp [List.mapM_cons, hl, List.getElem?_eq_getElem h1, List.getElem?_eq_getElem h2]
  obtain ⟨l, hl⟩ := hex (s.ant1.zip s.ant2) fun p hp =>
    ⟨hs.inside1 _ (List.of_mem_zip hp).1, hs.inside2 _ (List.of_mem_zip hp).2⟩
  refine ⟨l, hl, ?_, ?_⟩
  · rw [mapM_length _ _ _ hl, List.length_zip, hs.same, Nat.min_self]
  · intro b a1 a2 r1 r2 h1 h2 h3 h4
    rw [mapM_get _ _ _ hl b]
    have : (s.ant1.zip s.ant2)[b]? = some (a1, a2) := by
      rw [List.getElem?_zip_eq_some]; exact ⟨h1, h2⟩
    rw [this]
    simp [h3, h4]

/-- **C62, partial.**  If the antennas are set once and only other calls follow, in any order and
number, `getBaselineLengths()` gives for every baseline the distance of its own two antennas.
Missing: a second call of `setAntennas`, for which it is false (`caches_stale`). -/
theorem lengths_partial (dist : A → A → L) (ants : List A) (ant1 ant2 : List Nat)
    (ops : List (Op A)) (s : Ants A L) (hops : ∀ o ∈ ops, o.keepsAntennas)
    (h : run dist (.setAntennas ants ant1 ant2 :: ops) empty = some s) :
    ∃ s' l, getLengths dist s = some (s', l) ∧ l.length = s.ant1.length ∧
      ∀ (b a1 a2 : Nat) (r1 r2 : A), s.ant1[b]? = some a1 → s.ant2[b]? = some a2 →
        s.ants[a1]? = some r1 → s.ants[a2]? = some r2 → l[b]? = some (dist r1 r2) := by
  have hf := fresh_of_run dist ants ant1 ant2 ops s hops h
  obtain ⟨l, hl, hlen, hspec⟩ := computeLengths_spec dist s (run_bookkept dist _ s h)
  by_cases he : s.lengths = []
  · exact ⟨_, l, by rw [getLengths, he]; simp only [List.isEmpty_nil, if_true, hl]; rfl, hlen,
      hspec⟩
  · have := hf.lengths he
    rw [hl, Option.some.injEq] at this
    refine ⟨s, l, ?_, hlen, hspec⟩
    rw [getLengths, if_neg (by simpa using he), this]

/-- Lengths are asked for, then baselines are selected, unused antennas removed and lengths asked
for again. -/
example : ∃ s s', run (fun (a b : Nat) => b - a)
    [.setAntennas [10, 11, 13, 17] [0, 1, 1] [1, 2, 3], .lengths, .select [1, 2], .remove]
      empty = some s ∧ getLengths (fun (a b : Nat) => b - a) s = some (s', [2, 6]) :=
  ⟨_, _, rfl, rfl⟩

private theorem le_foldl_max : ∀ (l : List Nat) (m : Nat), m ≤ l.foldl max m ∧
    ∀ a ∈ l, a ≤ l.foldl max m
  | [], m => by simp
  | x :: l, m => by
    obtain ⟨h1, h2⟩ := le_foldl_max l (max m x)
    simp only [List.foldl_cons]
    refine ⟨by omega, ?_⟩
    intro a ha
    rcases List.mem_cons.1 ha with rfl | ha
    · omega
    · exact h2 a ha

private theorem fillAutos_length : ∀ (ps : List (Nat × Nat)) (i : Nat) (r : List Int),
    (fillAutos i ps r).length = r.length
  | [], _, _ => rfl
  | (a, b) :: ps, i, r => by
    rw [fillAutos, fillAutos_length]
    split_ifs <;> simp

private theorem fillAutos_spec (a : Nat) : ∀ (ps : List (Nat × Nat)) (i : Nat) (r : List Int),
    a < r.length →
    (∃ k : Nat, ps[k]? = some (a, a) ∧ (∀ j : Nat, k < j → ps[j]? ≠ some (a, a)) ∧
      (fillAutos i ps r)[a]? = some ((i + k : Nat) : Int)) ∨
    ((∀ j : Nat, ps[j]? ≠ some (a, a)) ∧ (fillAutos i ps r)[a]? = r[a]?)
  | [], i, r, _ => Or.inr ⟨by simp, rfl⟩
  | (x, y) :: ps, i, r, ha => by
    rw [fillAutos]
    rcases fillAutos_spec a ps (i + 1) (if x = y then r.set x i else r)
      (by split_ifs <;> simpa using ha) with ⟨k, h1, h2, h3⟩ | ⟨h1, h2⟩
    · refine Or.inl ⟨k + 1, by simpa using h1, ?_, ?_⟩
      · intro j hj
        cases j with
        | zero => omega
        | succ j => simpa using h2 j (by omega)
      · rw [h3]; congr 2; omega
    · by_cases hx : x = a ∧ y = a
      · obtain ⟨rfl, rfl⟩ := hx
        refine Or.inl ⟨0, rfl, ?_, ?_⟩
        · intro j hj
          cases j with
          | zero => omega
          | succ j => simpa using h1 j
        · rw [h2, if_pos rfl, List.getElem?_set_self ha]; rfl
      · refine Or.inr ⟨?_, ?_⟩
        · intro j
          cases j with
          | zero => simpa using hx
          | succ j => simpa using h1 j
        · rw [h2]
          split_ifs with hxy
          · rw [List.getElem?_set_ne]; intro h; exact hx ⟨h, hxy ▸ h⟩
          · rfl

/-- What `getAutoCorrIndex()` has to give for an antenna: the last baseline that is the
autocorrelation of the antenna, or -1 if there is none. -/
def AutoSpec (s : Ants A L) (l : List Int) (a : Nat) : Prop :=
  (∃ k : Nat, s.ant1[k]? = some a ∧ s.ant2[k]? = some a ∧
    (∀ j : Nat, k < j → ¬ (s.ant1[j]? = some a ∧ s.ant2[j]? = some a)) ∧ l[a]? = some (k : Int)) ∨
  ((∀ j : Nat, ¬ (s.ant1[j]? = some a ∧ s.ant2[j]? = some a)) ∧ l[a]? = some (-1))

/-- **C62, partial.**  If the antennas are set once and only other calls follow,
`getAutoCorrIndex()` gives for every antenna of a baseline its autocorrelation, or -1, as long as
there is a baseline.  Missing: a second call of `setAntennas`, for which it is false
(`caches_stale`), and an empty list of baselines, for which the code dereferences an end
iterator (`autos_empty`). -/
theorem autos_partial (dist : A → A → L) (ants : List A) (ant1 ant2 : List Nat)
    (ops : List (Op A)) (s : Ants A L) (hops : ∀ o ∈ ops, o.keepsAntennas)
    (h : run dist (.setAntennas ants ant1 ant2 :: ops) empty = some s) (hne : s.ant1 ≠ []) :
    ∃ s' l, getAutos s = some (s', l) ∧ ∀ a, Occurs s a → AutoSpec s l a := by
  have hf := fresh_of_run dist ants ant1 ant2 ops s hops h
  have hb := run_bookkept dist _ s h
  have hne2 : s.ant2 ≠ [] := by
    intro h2; apply hne; apply List.eq_nil_of_length_eq_zero; rw [hb.same, h2]; rfl
  have hcomp : computeAutos s =
      some (fillAutos 0 (s.ant1.zip s.ant2) (List.replicate (1 + maxAnt s) (-1))) := by
    rw [computeAutos, if_neg]; simp [hne, hne2]
  generalize hl : fillAutos 0 (s.ant1.zip s.ant2) (List.replicate (1 + maxAnt s) (-1)) = l at hcomp
  have hget : ∃ s', getAutos s = some (s', l) := by
    by_cases he : s.autos = []
    · exact ⟨_, by rw [getAutos, he]; simp only [List.isEmpty_nil, if_true, hcomp]; rfl⟩
    · have := hf.autos he
      rw [hcomp, Option.some.injEq] at this
      exact ⟨s, by rw [getAutos, if_neg (by simpa using he), this]⟩
  obtain ⟨s', hs'⟩ := hget
  refine ⟨s', l, hs', ?_⟩
  intro a ho
  have ha : a < (List.replicate (1 + maxAnt s) (-1 : Int)).length := by
    rw [List.length_replicate]
    have h1 := (le_foldl_max s.ant1 0).2 a
    have h2 := (le_foldl_max s.ant2 0).2 a
    have : a ≤ maxAnt s := by
      unfold maxAnt
      rcases ho with ho | ho
      · have := h1 ho; omega
      · have := h2 ho; omega
    omega
  rcases fillAutos_spec a (s.ant1.zip s.ant2) 0 _ ha with ⟨k, h1, h2, h3⟩ | ⟨h1, h2⟩
  · rw [List.getElem?_zip_eq_some] at h1
    refine Or.inl ⟨k, h1.1, h1.2, ?_, ?_⟩
    · intro j hj hc
      exact h2 j hj (List.getElem?_zip_eq_some.2 hc)
    · rw [← hl, h3, Nat.zero_add]
  · refine Or.inr ⟨fun j hc => h1 j (List.getElem?_zip_eq_some.2 hc), ?_⟩
    rw [← hl, h2]
    rw [List.getElem?_replicate, if_pos (by simpa using ha)]

/-- Antenna 1 has an autocorrelation at baseline 2, antenna 0 has none. -/
example : ∃ s s', run (fun (a b : Nat) => b - a)
    [.setAntennas [10, 11, 13] [0, 0, 1] [2, 1, 1], .autos, .select [1, 2], .remove]
      empty = some s ∧ getAutos s = some (s', [-1, 1]) := ⟨_, _, rfl, rfl⟩

/-- **C62 fails for a second `setAntennas`.**  Setting the antennas again does not clear the
caches: the lengths and autocorrelations of the old baselines are given for the new ones.  This
is what a `MadFlagger` after a `MadFlagger` and a `StationAdder` gets. -/
theorem caches_stale : ∃ s s' s'' l a, run (fun (a b : Nat) => b - a)
    [.setAntennas [10, 11] [0, 1] [1, 1], .lengths, .autos,
      .setAntennas [10, 11, 15] [0, 1, 1, 2] [1, 1, 2, 2]] empty = some s ∧
    getLengths (fun (a b : Nat) => b - a) s = some (s', l) ∧ l = [1, 0] ∧
    computeLengths (fun (a b : Nat) => b - a) s = some [1, 0, 4, 0] ∧
    getAutos s = some (s'', a) ∧ a = [-1, 1] ∧ ¬ AutoSpec s a 2 := by
  refine ⟨_, _, _, _, _, rfl, rfl, rfl, rfl, rfl, rfl, ?_⟩
  rintro (⟨k, _, _, _, h⟩ | ⟨_, h⟩)
  · exact nomatch (show (none : Option Int) = some _ from h)
  · exact nomatch (show (none : Option Int) = some _ from h)

/-- **C62 fails without baselines.**  After a selection without baselines, asking for the
autocorrelations dereferences an end iterator. -/
theorem autos_empty : ∃ s, run (fun (a b : Nat) => b - a)
    [.setAntennas [10, 11] [0, 1] [1, 1], .select []] empty = some s ∧ getAutos s = none :=
  ⟨_, rfl, rfl⟩

end DP3.DPInfo
