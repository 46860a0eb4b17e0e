import Verif.PredictStep.Model
import Mathlib.Data.List.Basic
import Mathlib.Data.List.Pairwise
import Mathlib.Algebra.BigOperators.Group.List.Basic
import Mathlib.Tactic.Abel

namespace DP3.PredictStep

set_option linter.unusedSimpArgs false
set_option linter.unusedSectionVars false

variable {C V W : Type} [AddCommGroup V]

/-! ### One thread -/

theorem addBeam_ok (o : Ops C V W) (upd : Option (ℚ × ℚ)) (sp p : Nat) (pm model : V) (cache : List W)
    (w : Nat → W) (h1 : ∀ τ t, upd = some (τ, t) → w p = o.comp p τ t)
    (h2 : upd = none → cache[p - sp]? = some (w p)) (h3 : p - sp < cache.length) :
    ∃ c, addBeam o upd sp p pm model cache = some (model + o.apply (w p) pm, c) ∧ c.length = cache.length ∧
      c[p - sp]? = some (w p) ∧ ∀ i, i ≠ p - sp → c[i]? = cache[i]? := by
  cases hu : upd with
  | none =>
    refine ⟨cache, ?_, rfl, h2 hu, fun _ _ => rfl⟩
    simp only [addBeam, h2 hu]
  | some x =>
    obtain ⟨τ, t⟩ := x
    have hw := h1 τ t hu
    have hs : (cache.set (p - sp) (o.comp p τ t))[p - sp]? = some (w p) := by
      rw [List.getElem?_set_self h3, hw]
    refine ⟨cache.set (p - sp) (o.comp p τ t), ?_, by simp, hs, ?_⟩
    · simp only [addBeam, hs]
    · intro i hi
      rw [List.getElem?_set_ne (Ne.symm hi)]

/-- The contribution of a source. -/
def contrib (o : Ops C V W) (w : Nat → W) (s : C × Nat) : V := o.apply (w s.2) (o.sim s.1)

/-- The invariant of the loop over the sources. -/
def LInv (o : Ops C V W) (upd : Option (ℚ × ℚ)) (w : Nat → W) (sp n : Nat) (all done : List (C × Nat))
    (l : Loop V W) : Prop :=
  l.cache.length = n ∧
  (upd = none → ∀ s ∈ all, l.cache[s.2 - sp]? = some (w s.2)) ∧
  match l.patch with
  | none => done = [] ∧ l.pm = 0 ∧ l.model = 0
  | some q => (∃ s ∈ done, s.2 = q) ∧ l.model + o.apply (w q) l.pm = (done.map (contrib o w)).sum ∧
      ∀ s ∈ done, s.2 ≠ q → l.cache[s.2 - sp]? = some (w s.2)

theorem loop_step (o : Ops C V W) (upd : Option (ℚ × ℚ)) (w : Nat → W) (sp n : Nat) (all done : List (C × Nat))
    (l : Loop V W) (s : C × Nat) (hs : s ∈ all) (hd : ∀ x ∈ done, x ∈ all)
    (hr : ∀ x ∈ all, sp ≤ x.2 ∧ x.2 - sp < n)
    (h1 : ∀ p τ t, upd = some (τ, t) → w p = o.comp p τ t) (hI : LInv o upd w sp n all done l) :
    ∃ l', sourceStep o upd sp l s = some l' ∧ LInv o upd w sp n all (done ++ [s]) l' ∧ l'.patch = some s.2 := by
  obtain ⟨i1, i2, i3⟩ := hI
  unfold sourceStep
  cases hp : l.patch with
  | none =>
    rw [hp] at i3
    obtain ⟨rfl, hpm, hm⟩ := i3
    refine ⟨_, rfl, ⟨i1, i2, ⟨s, by simp, rfl⟩, ?_, ?_⟩, rfl⟩
    · simp [hpm, hm, contrib]
    · intro x hx hne
      simp only [List.nil_append, List.mem_singleton] at hx
      exact absurd (by rw [hx]) hne
  | some q =>
    rw [hp] at i3
    obtain ⟨⟨z, hz, hzq⟩, hsum, hfin⟩ := i3
    dsimp only
    by_cases e : q = s.2
    · rw [if_pos e]
      refine ⟨_, rfl, ⟨i1, i2, ⟨s, by simp, rfl⟩, ?_, ?_⟩, rfl⟩
      · dsimp only
        rw [List.map_append, List.sum_append, ← hsum, map_add, ← e]
        simp [contrib, e, add_assoc]
      · intro x hx hne
        rcases List.mem_append.1 hx with hx | hx
        · exact hfin x hx (by rw [e]; exact hne)
        · rw [List.mem_singleton.1 hx] at hne
          exact absurd rfl hne
    · rw [if_neg e]
      have hzr := hr z (hd z hz)
      have hqr : sp ≤ q ∧ q - sp < n := by rw [← hzq]; exact hzr
      obtain ⟨c, a1, a2, a3, a4⟩ := addBeam_ok o upd sp q l.pm l.model l.cache w (h1 q)
        (fun hu => by rw [← hzq]; exact i2 hu z (hd z hz)) (by rw [i1]; exact hqr.2)
      rw [a1]
      have hc : ∀ x ∈ all, l.cache[x.2 - sp]? = some (w x.2) → c[x.2 - sp]? = some (w x.2) := by
        intro x hx h
        by_cases ex : x.2 = q
        · rw [ex]; exact a3
        · have := hr x hx
          rw [a4 _ (by omega), h]
      refine ⟨_, rfl, ⟨by rw [← i1]; exact a2, fun hu x hx => hc x hx (i2 hu x hx), ⟨s, by simp, rfl⟩, ?_, ?_⟩, rfl⟩
      · dsimp only
        rw [hsum, List.map_append, List.sum_append]
        simp [contrib]
      · intro x hx hne
        dsimp only
        rcases List.mem_append.1 hx with hx | hx
        · by_cases ex : x.2 = q
          · rw [ex]; exact a3
          · have := hr x (hd x hx)
            rw [a4 _ (by omega)]
            exact hfin x hx ex
        · rw [List.mem_singleton.1 hx] at hne
          exact absurd rfl hne

theorem loop_fold (o : Ops C V W) (upd : Option (ℚ × ℚ)) (w : Nat → W) (sp n : Nat) (all : List (C × Nat))
    (hr : ∀ x ∈ all, sp ≤ x.2 ∧ x.2 - sp < n)
    (h1 : ∀ p τ t, upd = some (τ, t) → w p = o.comp p τ t) (xs : List (C × Nat)) :
    ∀ (done : List (C × Nat)) (l : Loop V W), (∀ x ∈ xs, x ∈ all) → (∀ x ∈ done, x ∈ all) →
      LInv o upd w sp n all done l →
      ∃ l', xs.foldlM (sourceStep o upd sp) l = some l' ∧ LInv o upd w sp n all (done ++ xs) l' ∧
        (xs ≠ [] → l'.patch ≠ none) := by
  induction xs with
  | nil => intro done l _ _ hI; exact ⟨l, rfl, by simpa using hI, fun h => absurd rfl h⟩
  | cons x xs ih =>
    intro done l hx hd hI
    obtain ⟨l1, g1, g2, g3⟩ := loop_step o upd w sp n all done l x (hx x (by simp)) hd hr h1 hI
    obtain ⟨l2, j1, j2, j3⟩ := ih (done ++ [x]) l1 (fun y hy => hx y (by simp [hy]))
      (fun y hy => by
        rcases List.mem_append.1 hy with hy | hy
        · exact hd y hy
        · rw [List.mem_singleton.1 hy]; exact hx x (by simp)) g2
    refine ⟨l2, by rw [List.foldlM_cons, g1]; exact j1, by simpa using j2, fun _ => ?_⟩
    by_cases e : xs = []
    · subst e
      obtain rfl : l1 = l2 := by simpa using j1
      rw [g3]; simp
    · exact j3 e

/-- The cache of a thread is right for its range. -/
def CacheOk (w : Nat → W) (part : List (C × Nat)) (cache : List W) : Prop :=
  ∀ x xs, part = x :: xs → (∀ s ∈ part, cache[s.2 - x.2]? = some (w s.2))

/-- A range: not empty, with patch indices that do not decrease. -/
def Ranged (part : List (C × Nat)) : Prop := part ≠ [] ∧ part.Pairwise (fun a b => a.2 ≤ b.2)

theorem ranged_bounds {x : C × Nat} {xs : List (C × Nat)} (h : Ranged (x :: xs)) :
    ∀ s ∈ x :: xs, x.2 ≤ s.2 ∧ s.2 ≤ (xs.getLastD x).2 := by
  obtain ⟨_, hp⟩ := h
  rw [List.pairwise_cons] at hp
  intro s hs
  constructor
  · rcases List.mem_cons.1 hs with rfl | hs
    · exact le_refl _
    · exact hp.1 s hs
  · rcases List.eq_nil_or_concat xs with rfl | ⟨ys, y, rfl⟩
    · simp at hs; simp [hs]
    · rw [List.concat_eq_append] at *
      have hl : (ys ++ [y]).getLastD x = y := by simp [List.getLastD_eq_getLast?]
      rw [hl]
      rcases List.mem_cons.1 hs with rfl | hs
      · exact hp.1 y (by simp)
      · rcases List.mem_append.1 hs with hs | hs
        · exact (List.pairwise_append.1 hp.2).2.2 s hs y (by simp)
        · rw [List.mem_singleton.1 hs]

theorem range_ok (o : Ops C V W) (upd : Option (ℚ × ℚ)) (w : Nat → W) (cache : List W) (x : C × Nat)
    (xs : List (C × Nat)) (hR : Ranged (x :: xs)) (h1 : ∀ p τ t, upd = some (τ, t) → w p = o.comp p τ t)
    (h2 : upd = none → CacheOk w (x :: xs) cache) :
    ∃ c, rangeStep o upd cache x xs = some (((x :: xs).map (contrib o w)).sum, c) ∧ CacheOk w (x :: xs) c := by
  have hb := ranged_bounds hR
  let cache1 := if upd.isSome then resize o.w0 cache ((xs.getLastD x).2 + 1 - x.2) else cache
  have hr : ∀ s ∈ x :: xs, x.2 ≤ s.2 ∧ s.2 - x.2 < cache1.length := by
    intro s hs
    refine ⟨(hb s hs).1, ?_⟩
    have hbs := hb s hs
    cases hu : upd with
    | none =>
      have := h2 hu x xs rfl s hs
      simp only [cache1, hu, Option.isSome_none, Bool.false_eq_true, if_false]
      by_contra hc
      rw [List.getElem?_eq_none (by omega)] at this
      cases this
    | some y =>
      simp only [cache1, hu, Option.isSome_some, if_true, resize, List.length_map, List.length_range]
      omega
  have h0 : LInv o upd w x.2 cache1.length (x :: xs) [] ⟨none, 0, 0, cache1⟩ := by
    refine ⟨rfl, ?_, rfl, rfl, rfl⟩
    intro hu s hs
    simp only [cache1, hu, Option.isSome_none, Bool.false_eq_true, if_false]
    exact h2 hu x xs rfl s hs
  obtain ⟨l, l1, l2, l3⟩ := loop_fold o upd w x.2 cache1.length (x :: xs) hr h1 (x :: xs) [] _ (fun _ h => h)
    (by simp) h0
  rw [List.nil_append] at l2
  cases hp : l.patch with
  | none => exact absurd hp (l3 (by simp))
  | some q =>
    obtain ⟨i1, i2, i3⟩ := l2
    rw [hp] at i3
    obtain ⟨⟨z, hz, hzq⟩, hsum, hfin⟩ := i3
    obtain ⟨c, a1, a2, a3, a4⟩ := addBeam_ok o upd x.2 q l.pm l.model l.cache w (h1 q)
      (fun hu => by rw [← hzq]; exact i2 hu z hz) (by rw [i1, ← hzq]; exact (hr z hz).2)
    refine ⟨c, ?_, ?_⟩
    · unfold rangeStep
      dsimp only
      rw [show (if upd.isSome = true then resize o.w0 cache ((xs.getLastD x).2 + 1 - x.2) else cache) = cache1 from rfl,
        l1]
      dsimp only
      rw [hp]
      dsimp only
      rw [a1, hsum]
    · intro y ys e s hs
      obtain ⟨rfl, rfl⟩ : x = y ∧ xs = ys := by simpa using e
      by_cases es : s.2 = q
      · rw [es]; exact a3
      · have h5 := (hr s hs).1
        have h6 := (hr z hz).1
        rw [a4 _ (by omega)]
        exact hfin s hs es

/-! ### All threads -/

theorem threads_ok (o : Ops C V W) (upd : Option (ℚ × ℚ)) (w : Nat → W)
    (h1 : ∀ p τ t, upd = some (τ, t) → w p = o.comp p τ t) (ps : List (List (C × Nat))) :
    ∀ (i : Nat) (c : Nat → List W), (∀ p ∈ ps, Ranged p) →
      (upd = none → ∀ j p, ps[j]? = some p → CacheOk w p (c (i + j))) →
      ∃ c', threads o upd i ps c = some (ps.map (fun p => (p.map (contrib o w)).sum), c') ∧
        (∀ j p, ps[j]? = some p → CacheOk w p (c' (i + j))) ∧ ∀ j < i, c' j = c j := by
  induction ps with
  | nil => intro i c _ _; exact ⟨c, rfl, by simp, fun _ _ => rfl⟩
  | cons p ps ih =>
    intro i c hR h2
    cases p with
    | nil => exact absurd rfl (hR [] (by simp)).1
    | cons x xs =>
      obtain ⟨ci, r1, r2⟩ := range_ok o upd w (c i) x xs (hR _ (by simp)) h1 (fun hu => h2 hu 0 _ rfl)
      obtain ⟨c', t1, t2, t3⟩ := ih (i + 1) (fun j => if j = i then ci else c j) (fun p hp => hR p (by simp [hp]))
        (fun hu j p hj => by
          have := h2 hu (j + 1) p hj
          have e : i + 1 + j ≠ i := by omega
          simp only [e, if_false]
          rw [show i + 1 + j = i + (j + 1) by omega]; exact this)
      refine ⟨c', ?_, ?_, ?_⟩
      · simp only [threads, r1, t1, List.map_cons]
      · intro j p hj
        cases j with
        | zero =>
          simp only [List.getElem?_cons_zero, Option.some.injEq] at hj
          rw [Nat.add_zero, t3 i (by omega)]
          simp only [if_true]
          rw [← hj]; exact r2
        | succ j =>
          simp only [List.getElem?_cons_succ] at hj
          rw [show i + (j + 1) = i + 1 + j by omega]
          exact t2 j p hj
      · intro j hj
        rw [t3 j (by omega), if_neg (by omega)]

theorem foldl_add_sum (l : List V) (a : V) : l.foldl (· + ·) a = a + l.sum := by
  induction l generalizing a with
  | nil => simp
  | cons x l ih => simp [ih, add_assoc]

/-- The values after an update at `u`. -/
def atTime (o : Ops C V W) (interval u : ℚ) (p : Nat) : W := o.comp p (u + 1 / 2 * interval) u

theorem sum_flatten (f : C × Nat → V) (parts : List (List (C × Nat))) :
    (parts.map (fun p => (p.map f).sum)).sum = (parts.flatten.map f).sum := by
  induction parts with
  | nil => simp
  | cons p ps ih => rw [List.map_cons, List.sum_cons, ih, List.flatten_cons, List.map_append, List.sum_append]

theorem predict_ok (o : Ops C V W) (interval : ℚ) (order : List V → List V) (hord : ∀ l, (order l).Perm l)
    (parts : List (List (C × Nat))) (hR : ∀ p ∈ parts, Ranged p) (s : State W) (t : ℚ)
    (hc : |t - s.prev| < interval → ∀ j p, parts[j]? = some p → CacheOk (atTime o interval s.prev) p (s.caches j)) :
    ∃ u s', predict o interval order parts s t =
        some ((parts.flatten.map (contrib o (atTime o interval u))).sum, s') ∧
      (interval ≤ |t - s.prev| → u = t) ∧ (|t - s.prev| < interval → u = s.prev) ∧ s'.prev = u ∧
      ∀ j p, parts[j]? = some p → CacheOk (atTime o interval u) p (s'.caches j) := by
  have hfin : ∀ l : List V, (order l).foldl (· + ·) 0 = l.sum := by
    intro l
    rw [foldl_add_sum, zero_add, (hord l).sum_eq]
  by_cases h : interval ≤ |t - s.prev|
  · have hu : update interval s.prev t = some (t + 1 / 2 * interval, t) := if_pos h
    obtain ⟨c, h1, h2, _⟩ := threads_ok o (update interval s.prev t) (atTime o interval t)
      (by
        intro p τ t' e
        rw [hu] at e
        simp only [Option.some.injEq, Prod.mk.injEq] at e
        rw [← e.1, ← e.2]; rfl) parts 0 s.caches hR (by rw [hu]; intro e; cases e)
    refine ⟨t, ⟨t, c⟩, ?_, fun _ => rfl, fun hlt => absurd hlt (not_lt.2 h), rfl, ?_⟩
    · rw [hu] at h1
      simp only [predict, h1, hu, hfin, sum_flatten, Option.isSome_some, if_true]
    · intro j p hj
      have := h2 j p hj
      rwa [Nat.zero_add] at this
  · have hu : update interval s.prev t = none := if_neg h
    obtain ⟨c, h1, h2, _⟩ := threads_ok o (update interval s.prev t) (atTime o interval s.prev)
      (by intro p τ t' e; rw [hu] at e; cases e) parts 0 s.caches hR
      (by intro _ j p hj; rw [Nat.zero_add]; exact hc (not_le.1 h) j p hj)
    refine ⟨s.prev, ⟨s.prev, c⟩, ?_, fun hle => absurd hle h, fun _ => rfl, rfl, ?_⟩
    · rw [hu] at h1
      simp only [predict, h1, hu, hfin, sum_flatten, Option.isSome_none, Bool.false_eq_true, if_false]
    · intro j p hj
      have := h2 j p hj
      rwa [Nat.zero_add] at this

theorem predictAll_ok (o : Ops C V W) (interval : ℚ) (order : List V → List V) (hord : ∀ l, (order l).Perm l)
    (parts : List (List (C × Nat))) (hR : ∀ p ∈ parts, Ranged p) (ts : List ℚ) :
    ∀ (s : State W), (∀ t, ts.head? = some t → |t - s.prev| < interval →
        ∀ j p, parts[j]? = some p → CacheOk (atTime o interval s.prev) p (s.caches j)) →
      ∃ us : List ℚ, predictAll o interval order parts s ts =
          some (us.map (fun u => (parts.flatten.map (contrib o (atTime o interval u))).sum)) ∧
        us.length = ts.length ∧ ∀ (i : Nat) t u, ts[i]? = some t → us[i]? = some u →
          (u = t ∨ |t - u| < interval) ∧
          ((∃ j : Nat, j ≤ i ∧ ts[j]? = some u) ∨
            (u = s.prev ∧ ∀ t0, ts.head? = some t0 → |t0 - s.prev| < interval)) := by
  induction ts with
  | nil => intro s _; exact ⟨[], rfl, rfl, by simp⟩
  | cons t ts ih =>
    intro s hc
    obtain ⟨u, s1, p1, p2, p3, p4, p5⟩ := predict_ok o interval order hord parts hR s t (hc t rfl)
    obtain ⟨us, q1, q2, q3⟩ := ih s1 (fun t' _ _ => by rw [p4]; exact p5)
    refine ⟨u :: us, by simp only [predictAll, p1, q1, List.map_cons], by simp [q2], ?_⟩
    have hu : (u = t ∧ interval ≤ |t - s.prev|) ∨ (u = s.prev ∧ |t - s.prev| < interval) := by
      rcases le_or_gt interval |t - s.prev| with h | h
      · exact Or.inl ⟨p2 h, h⟩
      · exact Or.inr ⟨p3 h, h⟩
    have huu : (∃ j : Nat, j ≤ 0 ∧ (t :: ts)[j]? = some u) ∨
        (u = s.prev ∧ ∀ t0, (t :: ts).head? = some t0 → |t0 - s.prev| < interval) := by
      rcases hu with ⟨rfl, _⟩ | ⟨e, h⟩
      · exact Or.inl ⟨0, le_refl _, rfl⟩
      · refine Or.inr ⟨e, fun t0 h0 => ?_⟩
        simp only [List.head?_cons, Option.some.injEq] at h0
        rw [← h0]; exact h
    intro i t' u' ht' hu'
    cases i with
    | zero =>
      simp only [List.getElem?_cons_zero, Option.some.injEq] at ht' hu'
      subst ht' hu'
      refine ⟨?_, huu⟩
      rcases hu with ⟨e, _⟩ | ⟨e, h⟩
      · exact Or.inl e
      · exact Or.inr (by rw [e]; exact h)
    | succ i =>
      simp only [List.getElem?_cons_succ] at ht' hu'
      obtain ⟨r1, r2⟩ := q3 i t' u' ht' hu'
      refine ⟨r1, ?_⟩
      rcases r2 with ⟨j, hj, e⟩ | ⟨e, _⟩
      · exact Or.inl ⟨j + 1, by omega, by simpa using e⟩
      · rw [e, p4]
        rcases huu with ⟨j, hj, e⟩ | h
        · exact Or.inl ⟨j, by omega, e⟩
        · exact Or.inr h

/-! ### The source list -/

theorem sourceListFrom_ge (n : Nat) (ps : List (List C)) : ∀ s ∈ sourceListFrom n ps, n ≤ s.2 := by
  induction ps generalizing n with
  | nil => simp [sourceListFrom]
  | cons p ps ih =>
    intro s hs
    simp only [sourceListFrom, List.mem_append, List.mem_map] at hs
    rcases hs with ⟨x, _, rfl⟩ | hs
    · exact le_refl _
    · have := ih (n + 1) s hs; omega

theorem sourceListFrom_sorted (n : Nat) (ps : List (List C)) :
    (sourceListFrom n ps).Pairwise (fun a b => a.2 ≤ b.2) := by
  induction ps generalizing n with
  | nil => simp [sourceListFrom]
  | cons p ps ih =>
    rw [sourceListFrom, List.pairwise_append]
    refine ⟨?_, ih (n + 1), ?_⟩
    · rw [List.pairwise_map]
      exact List.pairwise_of_forall (fun _ _ => le_refl n)
    · intro a ha b hb
      obtain ⟨x, _, rfl⟩ := List.mem_map.1 ha
      have := sourceListFrom_ge (n + 1) ps b hb
      dsimp only; omega

theorem sourceListFrom_sum (f : C → Nat → V) (n : Nat) (ps : List (List C)) :
    ((sourceListFrom n ps).map (fun s => f s.1 s.2)).sum =
      ((ps.zipIdx n).map (fun p => (p.1.map (fun x => f x p.2)).sum)).sum := by
  induction ps generalizing n with
  | nil => rfl
  | cons p ps ih =>
    rw [sourceListFrom, List.map_append, List.sum_append, ih, List.zipIdx_cons, List.map_cons, List.sum_cons,
      List.map_map]
    rfl

end DP3.PredictStep
