import Verif.DynSpec.Spec

namespace DP3.DynSpec

set_option linter.unusedSimpArgs false
set_option linter.unusedSectionVars false

variable {K : Type} [Field K] [LinearOrder K] [IsStrictOrderedRing K]

theorem put_fold {A : Type} (c : Cfg K) (f : A → Nat) (v : A → Option K) (l : List A) :
    ∀ (m : Mem K), (∀ a ∈ l, f a < size c) →
      ∃ m', l.foldlM (fun m a => put c m (f a) (v a)) m = some m' ∧
        (∀ x, (∀ a ∈ l, f a ≠ x) → m' x = m x) ∧
        (∀ a ∈ l, (∀ a' ∈ l, f a' = f a → v a' = v a) → m' (f a) = some (v a)) := by
  induction l with
  | nil => intro m _; exact ⟨m, rfl, fun _ _ => rfl, by simp⟩
  | cons a l ih =>
    intro m h
    obtain ⟨m', h1, h2, h3⟩ := ih (fun x => if x = f a then some (v a) else m x)
      (fun b hb => h b (List.mem_cons_of_mem _ hb))
    refine ⟨m', ?_, ?_, ?_⟩
    · simp only [List.foldlM_cons, put, h a List.mem_cons_self, if_true]
      exact h1
    · intro x hx
      rw [h2 x (fun b hb => hx b (List.mem_cons_of_mem _ hb)),
        if_neg (fun e => hx a List.mem_cons_self e.symm)]
    · intro b hb hv
      by_cases hin : ∃ b' ∈ l, f b' = f b
      · obtain ⟨b', hb', e⟩ := hin
        have hvb := hv b' (List.mem_cons_of_mem _ hb') e
        have := h3 b' hb' (fun a' ha' e' => by
          rw [hv a' (List.mem_cons_of_mem _ ha') (e'.trans e), hvb])
        rw [e] at this
        rw [this, hvb]
      · have : b = a := by
          rcases List.mem_cons.1 hb with h' | h'
          · exact h'
          · exact absurd ⟨b, h', rfl⟩ hin
        subst this
        rw [h2 _ (fun b' hb' e => hin ⟨b', hb', e⟩), if_pos rfl]

theorem mem_cells (c : Cfg K) (x : Nat × Nat) : x ∈ cells c ↔ x.1 < c.nCh ∧ x.2 < 4 := by
  obtain ⟨j, p⟩ := x
  simp only [cells, List.mem_flatMap, List.mem_range, List.mem_map, Prod.mk.injEq]
  constructor
  · rintro ⟨a, ha, b, hb, rfl, rfl⟩; exact ⟨ha, hb⟩
  · rintro ⟨h1, h2⟩; exact ⟨j, h1, p, h2, rfl, rfl⟩

theorem mul_add_inj {n a b a' b' : Nat} (ha : a < n) (ha' : a' < n) (h : a + n * b = a' + n * b') :
    a = a' ∧ b = b' := by
  have h0 : 0 < n := by omega
  have hm := congrArg (· % n) h
  have hd := congrArg (· / n) h
  simp only [Nat.add_mul_mod_self_left, Nat.mod_eq_of_lt ha, Nat.mod_eq_of_lt ha'] at hm
  simp only [Nat.add_mul_div_left _ _ h0, Nat.div_eq_of_lt ha, Nat.div_eq_of_lt ha'] at hd
  omega

theorem loc_inj (c : Cfg K) {t j p d t' j' p' d' : Nat} (ht : t < c.nTime) (ht' : t' < c.nTime)
    (hj : j < c.nCh) (hj' : j' < c.nCh) (hp : p < 4) (hp' : p' < 4)
    (h : loc c t j p d = loc c t' j' p' d') : t = t' ∧ j = j' ∧ p = p' ∧ d = d' := by
  obtain ⟨h1, h2⟩ := mul_add_inj ht ht' h
  obtain ⟨h3, h4⟩ := mul_add_inj hj hj' h2
  obtain ⟨h5, h6⟩ := mul_add_inj hp hp' h4
  exact ⟨h1, h3, h5, h6⟩

theorem mul_add_lt {n m a b : Nat} (ha : a < n) (hb : b < m) : a + n * b < n * m := by
  calc a + n * b < n + n * b := by omega
    _ = n * (b + 1) := by rw [Nat.mul_succ]; omega
    _ ≤ n * m := Nat.mul_le_mul_left _ hb

theorem loc_lt (c : Cfg K) {t j p d : Nat} (ht : t < c.nTime) (hj : j < c.nCh) (hp : p < 4)
    (hd : d < c.nDir) : loc c t j p d < size c := by
  have h1 : p + 4 * d < 4 * c.nDir := mul_add_lt hp hd
  have h2 := mul_add_lt hj h1
  have h3 := mul_add_lt ht h2
  simp only [loc, size]
  calc _ < _ := h3
    _ = _ := by rw [← Nat.mul_assoc, ← Nat.mul_assoc]

theorem putSlot_spec (c : Cfg K) (b : Buf K) {t d : Nat} (ht : t < c.nTime) (hd : d < c.nDir)
    (m : Mem K) : ∃ m', putSlot c b t d m = some m' ∧
      (∀ x, (∀ j < c.nCh, ∀ p < 4, loc c t j p d ≠ x) → m' x = m x) ∧
      (∀ j < c.nCh, ∀ p < 4, m' (loc c t j p d) = some (pixel c b d j p)) := by
  obtain ⟨m', h1, h2, h3⟩ := put_fold c (fun x : Nat × Nat => loc c t x.1 x.2 d)
    (fun x => pixel c b d x.1 x.2) (cells c) m (fun a ha => by
      have := (mem_cells c a).1 ha
      exact loc_lt c ht this.1 this.2 hd)
  refine ⟨m', h1, fun x hx => h2 x fun a ha => ?_, fun j hj p hp => ?_⟩
  · have := (mem_cells c a).1 ha
    exact hx _ this.1 _ this.2
  · refine h3 (j, p) ((mem_cells c _).2 ⟨hj, hp⟩) fun a ha e => ?_
    have := (mem_cells c a).1 ha
    obtain ⟨_, e1, e2, _⟩ := loc_inj c ht ht this.1 hj this.2 hp e
    obtain ⟨a1, a2⟩ := a
    simp only at e1 e2
    rw [e1, e2]

theorem dirs_spec (c : Cfg K) (b : Buf K) {t : Nat} (ht : t < c.nTime) (m : Mem K) (n : Nat)
    (hn : n ≤ c.nDir) : ∃ m', (List.range n).foldlM (fun m d => putSlot c b t d m) m = some m' ∧
      (∀ x, (∀ d < n, ∀ j < c.nCh, ∀ p < 4, loc c t j p d ≠ x) → m' x = m x) ∧
      (∀ d < n, ∀ j < c.nCh, ∀ p < 4, m' (loc c t j p d) = some (pixel c b d j p)) := by
  induction n with
  | zero => exact ⟨m, rfl, fun _ _ => rfl, by simp⟩
  | succ n ih =>
    obtain ⟨m1, h1, h2, h3⟩ := ih (by omega)
    obtain ⟨m2, g1, g2, g3⟩ := putSlot_spec c b ht (show n < c.nDir by omega) m1
    refine ⟨m2, ?_, ?_, ?_⟩
    · rw [List.range_succ, List.foldlM_append, h1]
      simp [g1]
    · intro x hx
      rw [g2 x (hx n (by omega)), h2 x (fun d hd => hx d (by omega))]
    · intro d hd j hj p hp
      rcases Nat.lt_succ_iff_lt_or_eq.1 hd with hd' | rfl
      · rw [g2 _ (fun j' hj' p' hp' e => by
          obtain ⟨_, _, _, e'⟩ := loc_inj c ht ht hj' hj hp' hp e
          omega)]
        exact h3 d hd' j hj p hp
      · exact g3 j hj p hp

theorem process_spec (c : Cfg K) (s : State K) (b : Buf K) (ht : s.time < c.nTime) :
    ∃ m', process c s b = some (⟨s.time + 1, m'⟩, subtracted c b) ∧
      (∀ x, (∀ d < c.nDir, ∀ j < c.nCh, ∀ p < 4, loc c s.time j p d ≠ x) → m' x = s.mem x) ∧
      (∀ d < c.nDir, ∀ j < c.nCh, ∀ p < 4,
        m' (loc c s.time j p d) = some (pixel c (subtracted c b) d j p)) := by
  obtain ⟨m', h1, h2, h3⟩ := dirs_spec c (subtracted c b) ht s.mem c.nDir (Nat.le_refl _)
  refine ⟨m', ?_, h2, h3⟩
  simp [process, h1, ht]

theorem run_spec (c : Cfg K) (bs : List (Buf K)) : ∀ (s : State K), s.time + bs.length ≤ c.nTime →
    ∃ s', run c s bs = some (s', bs.map (subtracted c)) ∧ s'.time = s.time + bs.length ∧
      (∀ (k : Nat) (b : Buf K), bs[k]? = some b → ∀ d < c.nDir, ∀ j < c.nCh, ∀ p < 4,
        s'.mem (loc c (s.time + k) j p d) = some (pixel c (subtracted c b) d j p)) ∧
      (∀ t < c.nTime, (t < s.time ∨ s.time + bs.length ≤ t) → ∀ d, ∀ j < c.nCh, ∀ p < 4,
        s'.mem (loc c t j p d) = s.mem (loc c t j p d)) := by
  induction bs with
  | nil => intro s _; exact ⟨s, rfl, by simp, by simp, fun _ _ _ _ _ _ _ _ => rfl⟩
  | cons b bs ih =>
    intro s hs
    simp only [List.length_cons] at hs
    have ht : s.time < c.nTime := by omega
    obtain ⟨m', h1, h2, h3⟩ := process_spec c s b ht
    obtain ⟨s', g1, g2, g3, g4⟩ := ih ⟨s.time + 1, m'⟩ (by simp only; omega)
    simp only at g2 g3 g4
    refine ⟨s', ?_, ?_, ?_, ?_⟩
    · simp [run, h1, g1]
    · simp only [List.length_cons]; omega
    · intro k b' hk d hd j hj p hp
      cases k with
      | zero =>
        simp only [List.getElem?_cons_zero, Option.some.injEq] at hk
        subst hk
        rw [Nat.add_zero, g4 s.time ht (Or.inl (by omega)) d j hj p hp]
        exact h3 d hd j hj p hp
      | succ k =>
        simp only [List.getElem?_cons_succ] at hk
        have := g3 k b' hk d hd j hj p hp
        rwa [show s.time + 1 + k = s.time + (k + 1) by omega] at this
    · intro t ht' hor d j hj p hp
      simp only [List.length_cons] at hor
      rw [g4 t ht' (by omega) d j hj p hp]
      refine h2 _ fun d' _ j' hj' p' hp' e => ?_
      obtain ⟨e', _⟩ := loc_inj c ht ht' hj' hj hp' hp e
      omega

/-! ### Sums -/

theorem sum_smul_sub (n : Nat) (w : Nat → K) (d : Nat → Cx K) (v : Cx K) :
    ((List.range n).map fun i => Cx.ofReal (w i) * (d i - v)).sum =
      ((List.range n).map fun i => Cx.ofReal (w i) * d i).sum -
        Cx.ofReal ((List.range n).map w).sum * v := by
  induction n with
  | zero => ext <;> simp
  | succ n ih =>
    simp only [List.range_succ, List.map_append, List.sum_append, ih, List.map_cons, List.map_nil,
      List.sum_cons, List.sum_nil, Cx.ofReal_add]
    ext <;> simp <;> ring

theorem sum_const_mul (n : Nat) (w : Nat → K) (v : Cx K) :
    ((List.range n).map fun i => Cx.ofReal (w i) * v).sum =
      Cx.ofReal ((List.range n).map w).sum * v := by
  induction n with
  | zero => ext <;> simp
  | succ n ih =>
    simp only [List.range_succ, List.map_append, List.sum_append, ih, List.map_cons, List.map_nil,
      List.sum_cons, List.sum_nil, Cx.ofReal_add]
    ext <;> simp <;> ring

theorem sum_congr {A : Type} [AddMonoid A] (n : Nat) (f g : Nat → A) (h : ∀ i < n, f i = g i) :
    ((List.range n).map f).sum = ((List.range n).map g).sum := by
  congr 1
  exact List.map_congr_left fun i hi => h i (List.mem_range.1 hi)

end DP3.DynSpec
