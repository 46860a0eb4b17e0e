import Verif.BdaGroup.Run

namespace DP3.BdaGroup

set_option linter.unusedSimpArgs false
set_option linter.unusedSectionVars false

variable {U D : Type}

/-- The buffers with their numbers. -/
def numbered : Nat → List (List (Row U D)) → List (Nat × List (Row U D))
  | _, [] => []
  | n, l :: ls => (n, l) :: numbered (n + 1) ls

theorem numbered_append (n : Nat) (a b : List (List (Row U D))) :
    numbered n (a ++ b) = numbered n a ++ numbered (n + a.length) b := by
  induction a generalizing n with
  | nil => simp [numbered]
  | cons l a ih => simp [numbered, ih, Nat.add_assoc, Nat.add_comm 1]

theorem allItems_append (n : Nat) (a b : List (List (Row U D))) :
    allItems n (a ++ b) = allItems n a ++ allItems (n + a.length) b := by
  induction a generalizing n with
  | nil => simp [allItems]
  | cons l a ih => simp [allItems, ih, Nat.add_assoc, Nat.add_comm 1]

theorem allItems_range (n : Nat) (a : List (List (Row U D))) (x : Item U D) (h : x ∈ allItems n a) :
    n ≤ x.1 ∧ x.1 < n + a.length := by
  induction a generalizing n with
  | nil => simp [allItems] at h
  | cons l a ih =>
    simp only [allItems, List.mem_append] at h
    rcases h with h | h
    · rw [items_fst h]; simp
    · have := ih (n + 1) h
      simp only [List.length_cons]; omega

theorem allItems_nodup (n : Nat) (a : List (List (Row U D))) : ((allItems n a).map iid).Nodup := by
  induction a generalizing n with
  | nil => simp [allItems]
  | cons l a ih =>
    simp only [allItems, List.map_append, List.nodup_append]
    refine ⟨items_nodup n l, ih (n + 1), ?_⟩
    intro y hy z hz e
    obtain ⟨y', hy', rfl⟩ := List.mem_map.1 hy
    obtain ⟨z', hz', rfl⟩ := List.mem_map.1 hz
    have h1 := items_fst hy'
    have h2 := allItems_range _ _ _ hz'
    have := congrArg Prod.fst e
    simp only [iid] at this
    omega

theorem items_sub (n : Nat) (a : List (List (Row U D))) (b : Nat) (l : List (Row U D))
    (h : (b, l) ∈ numbered n a) : (allItems n a).filter (fun x => x.1 = b) = items b l := by
  induction a generalizing n with
  | nil => simp [numbered] at h
  | cons l' a ih =>
    simp only [numbered, List.mem_cons, Prod.mk.injEq] at h
    simp only [allItems, List.filter_append]
    rcases h with ⟨rfl, rfl⟩ | h
    · have e1 : (items b l).filter (fun x => x.1 = b) = items b l := by
        rw [List.filter_eq_self]; intro x hx; simp [items_fst hx]
      have e2 : (allItems (b + 1) a).filter (fun x => x.1 = b) = [] := by
        rw [List.filter_eq_nil_iff]
        intro x hx
        have := allItems_range _ _ _ hx
        simp; omega
      rw [e1, e2, List.append_nil]
    · have hb : n + 1 ≤ b := by
        clear ih
        induction a generalizing n with
        | nil => simp [numbered] at h
        | cons l'' a ih2 =>
          simp only [numbered, List.mem_cons, Prod.mk.injEq] at h
          rcases h with ⟨rfl, _⟩ | h
          · omega
          · have := ih2 (n + 1) h; omega
      have e1 : (items n l').filter (fun x => x.1 = b) = [] := by
        rw [List.filter_eq_nil_iff]; intro x hx; simp [items_fst hx]; omega
      rw [e1, ih (n + 1) h, List.nil_append]

/-- What a buffer that was sent contains. -/
def Good (c : Info) (P : Key → List D → List U → ℚ → List D) (u : U) (d : Key → List D)
    (R : Key → List (List (Item U D))) (x : Nat × List (Row U D)) (o : Nat × List D) : Prop :=
  o.1 = x.1 ∧ o.2.length = x.2.length ∧ ∀ y ∈ items x.1 x.2, ∃ n r, (R (ikey c y))[n]? = some r ∧ y ∈ r ∧
    (resOf c P u d R (ikey c y) (n + 1))[ipos c y]? = o.2[y.2.2]?

theorem rows_step (c : Info) (P : Key → List D → List U → ℚ → List D) (u : U) (d : Key → List D)
    (R : Key → List (List (Item U D))) (hR : ∀ k, ∀ r ∈ R k, Round c k r)
    (hP : ∀ k o us t, (P k o us t).length = us.length) (b : Nat) (xs : List (Row U D × Nat)) :
    ∀ (L rest : List (Item U D)) (s : State U D),
      (∀ k, (L ++ (xs.map (fun x => (b, x)) ++ rest)).filter (fun y => ikey c y = k) = (R k).flatten) →
      ((L ++ (xs.map (fun x => (b, x)) ++ rest)).map iid).Nodup → (∀ x ∈ xs, x.1.bl < c.nBl) →
      b ∈ s.queue.map Prod.fst → Inv c P u d R L s →
      ∃ s', xs.foldlM (processRow c P b) s = .ok s' ∧
        Inv c P u d R (L ++ xs.map (fun x => (b, x))) s' ∧ s'.queue = s.queue ∧ s'.pushed = s.pushed := by
  induction xs with
  | nil => intro L rest s _ _ _ _ hI; exact ⟨s, rfl, by simpa using hI, rfl, rfl⟩
  | cons x xs ih =>
    intro L rest s hall hnd hbl hq hI
    obtain ⟨s1, h1, h2, h3, h4⟩ := row_step c P u d R hR hP L (xs.map (fun x => (b, x)) ++ rest) (b, x) s
      (by simpa using hall) (by simpa using hnd) (hbl x List.mem_cons_self) hq hI
    obtain ⟨s2, g1, g2, g3, g4⟩ := ih (L ++ [(b, x)]) rest s1
      (by simpa using hall) (by simpa using hnd) (fun y hy => hbl y (List.mem_cons_of_mem _ hy))
      (by rw [h3]; exact hq) h2
    exact ⟨s2, by rw [List.foldlM_cons, h1]; exact g1, by simpa using g2, by rw [g3, h3], by rw [g4, h4]⟩

theorem push_inv (c : Info) (P : Key → List D → List U → ℚ → List D) (u : U) (d : Key → List D)
    (R : Key → List (List (Item U D))) (L : List (Item U D)) (s : State U D) (l : List (Row U D))
    (hlt : ∀ x ∈ L, x.1 < s.pushed) (hI : Inv c P u d R L s) : Inv c P u d R L (push s l) := by
  obtain ⟨done, pend, hperm, hfill, hpq, hG⟩ := hI
  have hd : ∀ x ∈ done, x.1 < s.pushed := fun x hx => hlt x (hperm.mem_iff.2 (by simp [hx]))
  refine ⟨done, pend, hperm, ?_, ?_, ?_⟩
  · intro b
    simp only [push]
    by_cases e : b = s.pushed
    · rw [if_pos e]
      symm
      rw [List.length_eq_zero_iff, List.filter_eq_nil_iff]
      intro x hx
      have := hd x hx
      simp; omega
    · rw [if_neg e, hfill]
  · intro x hx
    simp only [push, List.map_append, List.mem_append]
    exact Or.inl (hpq x hx)
  · intro k
    obtain ⟨n, p, q, h1, h2, h3, h4, h5, h6, h7, h8, h9⟩ := hG k
    refine ⟨n, p, q, h1, h2, h3, h4, h5, h6, h7, h8, ?_⟩
    intro n' hn' r hr x hx
    have hxd : x ∈ done := by
      have : x ∈ done.filter (fun x => ikey c x = k) := by
        rw [h2, List.mem_flatten]
        refine ⟨r, ?_, hx⟩
        apply List.mem_of_getElem? (i := n')
        rw [List.getElem?_take, if_pos hn', hr]
      exact (List.mem_filter.1 this).1
    have := hd x hxd
    simp only [push]
    rw [if_neg (by omega)]
    exact h9 n' hn' r hr x hx

theorem full_good (c : Info) (P : Key → List D → List U → ℚ → List D) (u : U) (d : Key → List D)
    (R : Key → List (List (Item U D))) (B : List (List (Row U D))) (s : State U D)
    (hI : Inv c P u d R (allItems 0 B) s) (x : Nat × List (Row U D)) (hx : x ∈ numbered 0 B)
    (hf : full s x = true) :
    Good c P u d R x (sent s x) ∧ ∀ done pend, (allItems 0 B).Perm (done ++ pend) →
      (∀ b, s.filled b = (done.filter (fun x => x.1 = b)).length) → ∀ y ∈ pend, y.1 ≠ x.1 := by
  have key2 : ∀ done pend, (allItems 0 B).Perm (done ++ pend) →
      (∀ b, s.filled b = (done.filter (fun x => x.1 = b)).length) → ∀ y ∈ pend, y.1 ≠ x.1 := by
    intro done pend hperm hfill y hy e
    have h1 := (hperm.filter (fun y => y.1 = x.1)).length_eq
    rw [items_sub 0 B x.1 x.2 hx, items_length, List.filter_append, List.length_append, ← hfill] at h1
    have h2 : x.2.length = s.filled x.1 := by simpa [full] using hf
    have h3 : (pend.filter (fun y => y.1 = x.1)).length = 0 := by omega
    rw [List.length_eq_zero_iff, List.filter_eq_nil_iff] at h3
    exact h3 y hy (by simpa using e)
  refine ⟨?_, key2⟩
  obtain ⟨done, pend, hperm, hfill, hpq, hG⟩ := hI
  refine ⟨rfl, by simp [sent], ?_⟩
  intro y hy
  have hyL : y ∈ allItems 0 B := by
    have : y ∈ (allItems 0 B).filter (fun z => z.1 = x.1) := by rw [items_sub 0 B x.1 x.2 hx]; exact hy
    exact (List.mem_filter.1 this).1
  have hyd : y ∈ done := by
    rcases List.mem_append.1 (hperm.mem_iff.1 hyL) with h | h
    · exact h
    · exact absurd (items_fst hy) (key2 done pend hperm hfill y h)
  obtain ⟨n, p, q, h1, h2, h3, h4, h5, h6, h7, h8, h9⟩ := hG (ikey c y)
  have hyf : y ∈ done.filter (fun z => ikey c z = ikey c y) := List.mem_filter.2 ⟨hyd, by simp⟩
  rw [h2, List.mem_flatten] at hyf
  obtain ⟨r, hr, hyr⟩ := hyf
  obtain ⟨n', hn'⟩ := List.getElem?_of_mem hr
  have hlt : n' < n := by
    by_contra hc
    rw [List.getElem?_take, if_neg hc] at hn'
    cases hn'
  rw [List.getElem?_take, if_pos hlt] at hn'
  refine ⟨n', r, hn', hyr, ?_⟩
  rw [h9 n' hlt r hn' y hyr]
  have hl : y.2.2 < x.2.length := by
    have := items_get hy
    by_contra hc
    rw [List.getElem?_eq_none (by omega)] at this
    cases this
  simp [sent, hl, items_fst hy]

theorem takeWhile_all {A : Type} (f : A → Bool) (l : List A) : ∀ x ∈ l.takeWhile f, f x = true := by
  intro x hx
  have := List.all_takeWhile (p := f) (l := l)
  rw [List.all_eq_true] at this
  exact this x hx

/-- The invariant between buffers. -/
def SInv (c : Info) (P : Key → List D → List U → ℚ → List D) (u : U) (d : Key → List D)
    (R : Key → List (List (Item U D))) (B : List (List (Row U D))) (popped : List (Nat × List (Row U D)))
    (s : State U D) : Prop :=
  Inv c P u d R (allItems 0 B) s ∧ s.pushed = B.length ∧ numbered 0 B = popped ++ s.queue ∧
    ∀ x xs, s.queue = x :: xs → full s x = false

theorem dropWhile_head {A : Type} (f : A → Bool) : ∀ (l : List A) x xs, l.dropWhile f = x :: xs → f x = false
  | [], _, _, h => by simp at h
  | a :: l, x, xs, h => by
    rw [List.dropWhile_cons] at h
    by_cases e : f a = true
    · rw [if_pos e] at h; exact dropWhile_head f l x xs h
    · rw [if_neg e, List.cons.injEq] at h
      rw [← h.1]; simpa using e

theorem stream_ok (c : Info) (P : Key → List D → List U → ℚ → List D) (u : U) (d : Key → List D)
    (R : Key → List (List (Item U D))) (hR : ∀ k, ∀ r ∈ R k, Round c k r)
    (hP : ∀ k o us t, (P k o us t).length = us.length) (ls : List (List (Row U D))) :
    ∀ (B : List (List (Row U D))) (popped : List (Nat × List (Row U D))) (s : State U D),
      (∀ k, (allItems 0 (B ++ ls)).filter (fun y => ikey c y = k) = (R k).flatten) →
      (∀ l ∈ ls, ∀ x ∈ l, x.bl < c.nBl) → SInv c P u d R B popped s →
      ∃ s' popped' o, stream c P s ls = .ok (s', o) ∧ SInv c P u d R (B ++ ls) (popped ++ popped') s' ∧
        List.Forall₂ (Good c P u d R) popped' o := by
  induction ls with
  | nil => intro B popped s _ _ hS; exact ⟨s, [], [], rfl, by simpa using hS, .nil⟩
  | cons l ls ih =>
    intro B popped s hall hbl hS
    obtain ⟨hI, hpu, hnum, _⟩ := hS
    have hpush := push_inv c P u d R (allItems 0 B) s l (fun x hx => by
      have := (allItems_range 0 B x hx).2; omega) hI
    have hsplit : allItems 0 (B ++ l :: ls) =
        allItems 0 B ++ (l.zipIdx.map (fun x => (s.pushed, x)) ++ allItems (s.pushed + 1) ls) := by
      rw [allItems_append, allItems, Nat.zero_add, hpu]; rfl
    obtain ⟨s1, h1, h2, h3, h4⟩ := rows_step c P u d R hR hP s.pushed l.zipIdx (allItems 0 B)
      (allItems (s.pushed + 1) ls) (push s l)
      (by intro k; rw [← hsplit]; exact hall k)
      (by rw [← hsplit]; exact allItems_nodup _ _)
      (fun x hx => hbl l List.mem_cons_self x.1 (by
        have := List.mk_mem_zipIdx_iff_getElem?.1 (show (x.1, x.2) ∈ l.zipIdx from hx)
        exact List.mem_of_getElem? this))
      (by simp [push]) hpush
    have hB1 : allItems 0 (B ++ [l]) = allItems 0 B ++ l.zipIdx.map (fun x => (s.pushed, x)) := by
      rw [allItems_append, allItems, allItems, Nat.zero_add, hpu, List.append_nil]; rfl
    rw [← hB1] at h2
    have hq1 : numbered 0 (B ++ [l]) = popped ++ s1.queue := by
      rw [numbered_append, numbered, numbered, h3, hnum]
      simp [push, hpu]
    have hgood : ∀ x ∈ s1.queue.takeWhile (full s1), Good c P u d R x (sent s1 x) := by
      intro x hx
      refine (full_good c P u d R (B ++ [l]) s1 h2 x ?_ (takeWhile_all _ _ x hx)).1
      rw [hq1]
      exact List.mem_append_right _ ((List.takeWhile_prefix _).subset hx)
    let s2 : State U D := { s1 with queue := s1.queue.dropWhile (full s1) }
    have hS2 : SInv c P u d R (B ++ [l]) (popped ++ s1.queue.takeWhile (full s1)) s2 := by
      refine ⟨?_, ?_, ?_, ?_⟩
      · have h2' := h2
        obtain ⟨done, pend, hperm, hfill, hpq, hG⟩ := h2'
        refine ⟨done, pend, hperm, hfill, ?_, hG⟩
        intro x hx
        have hm := hpq x hx
        rw [← List.takeWhile_append_dropWhile (p := full s1) (l := s1.queue), List.map_append,
          List.mem_append] at hm
        rcases hm with hm | hm
        · exfalso
          obtain ⟨z, hz, e⟩ := List.mem_map.1 hm
          refine (full_good c P u d R (B ++ [l]) s1 h2 z ?_ (takeWhile_all _ _ z hz)).2 done pend hperm hfill x hx e.symm
          rw [hq1]
          exact List.mem_append_right _ ((List.takeWhile_prefix _).subset hz)
        · exact hm
      · show s1.pushed = _
        rw [h4]; simp [push, hpu]
      · rw [hq1]
        show _ = _ ++ s1.queue.dropWhile (full s1)
        rw [List.append_assoc, List.takeWhile_append_dropWhile]
      · intro x xs h
        exact dropWhile_head (full s1) s1.queue x xs h
    obtain ⟨s3, popped', o, g1, g2, g3⟩ := ih (B ++ [l]) _ s2 (by simpa using hall)
      (fun l' hl' => hbl l' (List.mem_cons_of_mem _ hl')) hS2
    refine ⟨s3, s1.queue.takeWhile (full s1) ++ popped', (s1.queue.takeWhile (full s1)).map (sent s1) ++ o,
      ?_, by simpa using g2, ?_⟩
    · simp only [stream, process, h1]
      show (match stream c P s2 ls with | .error e => _ | .ok (s, o') => _) = _
      rw [g1]
    · apply List.rel_append _ g3
      rw [List.forall₂_map_right_iff]
      rw [List.forall₂_same]
      exact hgood

theorem run_ok (c : Info) (P : Key → List D → List U → ℚ → List D) (u : U) (m : Nat → Nat → D) (d : Key → List D)
    (R : Key → List (List (Item U D))) (hR : ∀ k, ∀ r ∈ R k, Round c k r)
    (hP : ∀ k o us t, (P k o us t).length = us.length) (ls : List (List (Row U D)))
    (hall : ∀ k, (allItems 0 ls).filter (fun y => ikey c y = k) = (R k).flatten)
    (hbl : ∀ l ∈ ls, ∀ x ∈ l, x.bl < c.nBl) :
    ∃ o, run c P (start u m d) ls = .ok o ∧ List.Forall₂ (Good c P u d R) (numbered 0 ls) o := by
  have h0 : SInv c P u d R [] [] (start u m d : State U D) := by
    refine ⟨⟨[], [], .nil, by simp [start], by simp, ?_⟩, rfl, rfl, by simp [start]⟩
    intro k
    refine ⟨0, [], (R k).headD [], by simp, by simp, by simp [allItems], ?_, rfl, by simp, by simp, rfl, by simp⟩
    cases h : R k with
    | nil => simp
    | cons r rs => exact Or.inr ⟨rs, by simp, (hR k r (by rw [h]; simp)).1⟩
  obtain ⟨s, popped, o, h1, h2, h3⟩ := stream_ok c P u d R hR hP ls [] [] (start u m d) (by simpa using hall) hbl h0
  simp only [List.nil_append] at h2
  obtain ⟨hI, hpu, hnum, hhead⟩ := h2
  have hq : s.queue = [] := by
    cases hq : s.queue with
    | nil => rfl
    | cons x xs =>
      exfalso
      have hf := hhead x xs hq
      have hx : x ∈ numbered 0 ls := by rw [hnum, hq]; simp
      obtain ⟨done, pend, hperm, hfill, hpq, hG⟩ := hI
      have hpe : pend = [] := by
        rw [List.eq_nil_iff_forall_not_mem]
        intro y hy
        obtain ⟨n, p, q, g1, g2, g3, g4, _⟩ := hG (ikey c y)
        have hyp : y ∈ p := by rw [← g1]; exact List.mem_filter.2 ⟨hy, by simp⟩
        have ha := hall (ikey c y)
        rw [g3] at ha
        conv_rhs at ha => rw [← List.take_append_drop n (R (ikey c y)), List.flatten_append]
        have ha := List.append_cancel_left ha
        rcases g4 with ⟨_, e⟩ | ⟨rs, e, hne⟩
        · rw [e] at hyp; simp at hyp
        · rw [e, List.flatten_cons] at ha
          have hl := congrArg List.length ha
          simp only [List.length_append] at hl
          exact hne (List.length_eq_zero_iff.1 (by omega))
      have hl := (hperm.filter (fun y => y.1 = x.1)).length_eq
      rw [items_sub 0 ls x.1 x.2 hx, items_length, hpe, List.append_nil, ← hfill] at hl
      rw [full, hl] at hf
      simp at hf
  refine ⟨o, by simp only [run, h1, hq, if_true], ?_⟩
  rw [hnum, hq, List.append_nil]
  exact h3

end DP3.BdaGroup
