import Verif.BdaGroup.Stream
import Mathlib.Data.List.Chain

namespace DP3.BdaGroup

set_option linter.unusedSimpArgs false
set_option linter.unusedSectionVars false

variable {U D : Type}

/-- Consecutive rows of a list have about the same time. -/
abbrev Close (r : List (Item U D)) : Prop :=
  List.IsChain (fun x y => |itime x - itime y| ≤ 1 / 1000) r

/-- The number of rows that were written. -/
def total (s : State U D) : Nat := ((List.range s.pushed).map s.filled).sum

theorem sum_update (N b : Nat) (f g : Nat → Nat) (hb : b < N) (h1 : g b = f b + 1)
    (h2 : ∀ b', b' ≠ b → g b' = f b') :
    ((List.range N).map g).sum = ((List.range N).map f).sum + 1 := by
  induction N with
  | zero => omega
  | succ N ih =>
    rw [List.range_succ, List.map_append, List.map_append, List.sum_append, List.sum_append]
    by_cases e : b = N
    · subst e
      have : (List.range b).map g = (List.range b).map f := by
        apply List.map_congr_left
        intro b' hb'
        exact h2 b' (by have := List.mem_range.1 hb'; omega)
      simp [this, h1]; omega
    · have := ih (by omega)
      rw [this]
      simp [h2 N (Ne.symm e)]; omega

theorem writeBack_count (wb : Nat → Option (Nat × Nat)) (out : List D) (js : List Nat) :
    ∀ s s' : State U D, (∀ b ∈ s.queue.map Prod.fst, b < s.pushed) →
      js.foldlM (writeBack wb out) s = .ok s' →
      s'.groups = s.groups ∧ s'.queue = s.queue ∧ s'.pushed = s.pushed ∧ total s' = total s + js.length ∧
        ∀ b, b ∉ s.queue.map Prod.fst → s'.filled b = s.filled b := by
  induction js with
  | nil =>
    intro s s' _ h
    obtain rfl : s = s' := Except.ok.inj h
    exact ⟨rfl, rfl, rfl, rfl, fun _ _ => rfl⟩
  | cons j js ih =>
    intro s s' hq h
    rw [List.foldlM_cons] at h
    cases h1 : writeBack wb out s j with
    | error e => rw [h1] at h; cases h
    | ok s1 =>
      rw [h1] at h
      have h : js.foldlM (writeBack wb out) s1 = .ok s' := h
      unfold writeBack at h1
      split at h1
      case h_1 b i d hw hd =>
        split_ifs at h1 with hb
        obtain rfl := Except.ok.inj h1
        obtain ⟨g1, g2, g3, g4, g5⟩ := ih _ s' (by exact hq) h
        refine ⟨g1, g2, g3, ?_, ?_⟩
        · rw [g4, List.length_cons]
          have : total ({ s with
              mem := fun b' i' => if b' = b ∧ i' = i then d else s.mem b' i'
              filled := fun b' => if b' = b then s.filled b' + 1 else s.filled b' } : State U D) = total s + 1 := by
            apply sum_update _ b _ _ (hq b hb)
            · simp
            · intro b' hb'; simp [hb']
          rw [this]; omega
        · intro b' hb'
          rw [g5 b' hb']
          have : b' ≠ b := by rintro rfl; exact hb' hb
          simp [this]
      case h_2 => cases h1

/-- What holds for the rows of a group, for any input. -/
def CInv (c : Info) (L pend : List (Item U D)) (s : State U D) (k : Key) : Prop :=
  ∃ ch p, pend.filter (fun x => ikey c x = k) = p ∧
    L.filter (fun x => ikey c x = k) = List.flatten ch ++ p ∧
    (∀ r ∈ ch, r.length = ((setup c).groups k).length ∧ Close r) ∧ Close p ∧
    (s.groups k).requested = p.length ∧ (p ≠ [] → p.getLast?.map itime = some (s.groups k).time)

/-- The invariant for any input. -/
def AInv (c : Info) (L : List (Item U D)) (s : State U D) : Prop :=
  ∃ done pend, L.Perm (done ++ pend) ∧ total s = done.length ∧ ∀ k, CInv c L pend s k

theorem close_append {p : List (Item U D)} {x : Item U D} (h : Close p)
    (hl : p ≠ [] → ∃ y, p.getLast? = some y ∧ |itime y - itime x| ≤ 1 / 1000) : Close (p ++ [x]) := by
  rw [Close, List.isChain_append]
  refine ⟨h, .singleton x, ?_⟩
  intro a ha b hb
  have hne : p ≠ [] := by rintro rfl; simp at ha
  obtain ⟨y, hy, hc⟩ := hl hne
  rw [hy] at ha
  obtain rfl : y = a := by simpa using ha
  obtain rfl : x = b := by simpa using hb
  exact hc

theorem row_count (c : Info) (P : Key → List D → List U → ℚ → List D) (L : List (Item U D)) (x : Item U D)
    (s s' : State U D) (hbl : x.2.1.bl < c.nBl) (hq : ∀ b ∈ s.queue.map Prod.fst, b < s.pushed)
    (hI : AInv c L s) (h : processRow c P x.1 s x.2 = .ok s') :
    AInv c (L ++ [x]) s' ∧ s'.queue = s.queue ∧ s'.pushed = s.pushed ∧
      ∀ b, b ∉ s.queue.map Prod.fst → s'.filled b = s.filled b := by
  obtain ⟨done, pend, hperm, hsum, hC⟩ := hI
  generalize hk : ikey c x = k at *
  have hidx : (setup c).index[x.2.1.bl]? = some (k, ipos c x) := by
    rw [index_eq c hbl, ← hk]; rfl
  obtain ⟨ch, p, h1, h2, h3, h4, h5, h6⟩ := hC k
  unfold processRow at h
  rw [hidx] at h
  dsimp only at h
  split_ifs at h with ht hf
  · -- complete
    have htime : p ≠ [] → ∃ y, p.getLast? = some y ∧ |itime y - itime x| ≤ 1 / 1000 := by
      intro hp
      have := h6 hp
      cases hl : p.getLast? with
      | none => rw [hl] at this; cases this
      | some y =>
        rw [hl] at this
        refine ⟨y, rfl, ?_⟩
        have e : itime y = (s.groups k).time := by simpa using this
        rw [e]
        by_contra hc
        exact ht ⟨by rw [h5]; simpa using hp, not_le.1 hc⟩
    unfold flush at h
    dsimp only at h
    split at h
    case h_2 => cases h
    case h_1 s1 hw =>
      obtain ⟨w1, w2, w3, w4, w5⟩ := writeBack_count _ _ _ s s1 hq hw
      rw [List.length_range] at w4
      obtain rfl := Except.ok.inj h
      refine ⟨?_, w2, w3, w5⟩
      have e1 : pend.Perm (p ++ pend.filter (fun y => ¬ ikey c y = k)) := by
        rw [← h1]
        have := List.filter_append_perm (fun y => decide (ikey c y = k)) pend
        refine this.symm.trans ?_
        apply List.Perm.append_left
        apply List.Perm.of_eq
        apply List.filter_congr
        intro y _
        simp
      have hpL : (L ++ [x]).Perm ((done ++ (p ++ [x])) ++ pend.filter (fun y => ¬ ikey c y = k)) := by
        have e2 : (L ++ [x]).Perm ((done ++ (p ++ pend.filter (fun y => ¬ ikey c y = k))) ++ [x]) :=
          ((hperm.trans (e1.append_left done))).append_right [x]
        refine e2.trans ?_
        simp only [List.append_assoc]
        apply List.Perm.append_left
        apply List.Perm.append_left
        exact List.perm_append_comm
      refine ⟨done ++ (p ++ [x]), pend.filter (fun y => ¬ ikey c y = k), hpL, ?_, ?_⟩
      · show total s1 = _
        rw [w4, hsum, ← hf, h5]; simp
      · intro k'
        by_cases hk' : k' = k
        · subst hk'
          refine ⟨ch ++ [p ++ [x]], [], ?_, ?_, ?_, .nil, ?_, fun h => absurd rfl h⟩
          · rw [List.filter_filter]; simp
          · rw [List.filter_append, h2, filter_key_self c (k := k') (l := [x])
              (by intro y hy; rw [List.mem_singleton.1 hy]; exact hk)]
            simp
          · intro r hr
            rcases List.mem_append.1 hr with hr | hr
            · exact h3 r hr
            · rw [List.mem_singleton.1 hr]
              exact ⟨by rw [← hf, h5]; simp, close_append h4 htime⟩
          · simp
        · obtain ⟨ch2, p2, i1, i2, i3, i4, i5, i6⟩ := hC k'
          refine ⟨ch2, p2, ?_, ?_, i3, i4, ?_, ?_⟩
          · rw [filter_filter_ne c hk', i1]
          · rw [List.filter_append, i2]
            simp [List.filter_cons, hk, Ne.symm hk']
          · simp only [hk', if_false, w1]; exact i5
          · simp only [hk', if_false, w1]; exact i6
  · have htime : p ≠ [] → ∃ y, p.getLast? = some y ∧ |itime y - itime x| ≤ 1 / 1000 := by
      intro hp
      have := h6 hp
      cases hl : p.getLast? with
      | none => rw [hl] at this; cases this
      | some y =>
        rw [hl] at this
        refine ⟨y, rfl, ?_⟩
        have e : itime y = (s.groups k).time := by simpa using this
        rw [e]
        by_contra hc
        exact ht ⟨by rw [h5]; simpa using hp, not_le.1 hc⟩
    obtain rfl := Except.ok.inj h
    refine ⟨⟨done, pend ++ [x], ?_, hsum, ?_⟩, rfl, rfl, fun _ _ => rfl⟩
    · rw [← List.append_assoc]; exact hperm.append_right [x]
    · intro k'
      by_cases hk' : k' = k
      · subst hk'
        refine ⟨ch, p ++ [x], ?_, ?_, h3, close_append h4 htime, ?_, ?_⟩
        · rw [List.filter_append, h1, filter_key_self c (k := k') (l := [x])
              (by intro y hy; rw [List.mem_singleton.1 hy]; exact hk)]
        · rw [List.filter_append, h2, filter_key_self c (k := k') (l := [x])
              (by intro y hy; rw [List.mem_singleton.1 hy]; exact hk), List.append_assoc]
        · simp [h5]
        · intro _; simp [itime]
      · obtain ⟨ch2, p2, i1, i2, i3, i4, i5, i6⟩ := hC k'
        refine ⟨ch2, p2, ?_, ?_, i3, i4, ?_, ?_⟩
        · rw [List.filter_append, i1]
          simp [List.filter_cons, hk, Ne.symm hk']
        · rw [List.filter_append, i2]
          simp [List.filter_cons, hk, Ne.symm hk']
        · simp only [hk', if_false]; exact i5
        · simp only [hk', if_false]; exact i6

theorem rows_count (c : Info) (P : Key → List D → List U → ℚ → List D) (b : Nat) (xs : List (Row U D × Nat)) :
    ∀ (L : List (Item U D)) (s s' : State U D), (∀ x ∈ xs, x.1.bl < c.nBl) →
      (∀ b ∈ s.queue.map Prod.fst, b < s.pushed) → AInv c L s → xs.foldlM (processRow c P b) s = .ok s' →
      AInv c (L ++ xs.map (fun x => (b, x))) s' ∧ s'.queue = s.queue ∧ s'.pushed = s.pushed ∧
        ∀ b, b ∉ s.queue.map Prod.fst → s'.filled b = s.filled b := by
  induction xs with
  | nil =>
    intro L s s' _ _ hI h
    obtain rfl : s = s' := Except.ok.inj h
    exact ⟨by simpa using hI, rfl, rfl, fun _ _ => rfl⟩
  | cons x xs ih =>
    intro L s s' hbl hq hI h
    rw [List.foldlM_cons] at h
    cases h1 : processRow c P b s x with
    | error e => rw [h1] at h; cases h
    | ok s1 =>
      rw [h1] at h
      obtain ⟨g1, g2, g3, g4⟩ := row_count c P L (b, x) s s1 (hbl x List.mem_cons_self) hq hI h1
      obtain ⟨i1, i2, i3, i4⟩ := ih (L ++ [(b, x)]) s1 s' (fun y hy => hbl y (List.mem_cons_of_mem _ hy))
        (by rw [g2, g3]; exact hq) g1 h
      refine ⟨by simpa using i1, by rw [i2, g2], by rw [i3, g3], ?_⟩
      intro b' hb'
      rw [i4 b' (by rw [g2]; exact hb'), g4 b' hb']

theorem numbered_lt (n : Nat) (a : List (List (Row U D))) (x : Nat × List (Row U D)) (h : x ∈ numbered n a) :
    n ≤ x.1 ∧ x.1 < n + a.length := by
  induction a generalizing n with
  | nil => simp [numbered] at h
  | cons l a ih =>
    simp only [numbered, List.mem_cons] at h
    rcases h with rfl | h
    · simp
    · have := ih (n + 1) h
      simp only [List.length_cons]; omega

theorem numbered_nodup (n : Nat) (a : List (List (Row U D))) : ((numbered n a).map Prod.fst).Nodup := by
  induction a generalizing n with
  | nil => simp [numbered]
  | cons l a ih =>
    simp only [numbered, List.map_cons, List.nodup_cons]
    refine ⟨?_, ih (n + 1)⟩
    intro h
    obtain ⟨y, hy, e⟩ := List.mem_map.1 h
    have := (numbered_lt _ _ _ hy).1
    omega

theorem total_push (s : State U D) (l : List (Row U D)) : total (push s l) = total s := by
  simp only [total, push, List.range_succ, List.map_append, List.sum_append]
  have : (List.range s.pushed).map (fun b => if b = s.pushed then 0 else s.filled b) =
      (List.range s.pushed).map s.filled := by
    apply List.map_congr_left
    intro b hb
    rw [if_neg (by have := List.mem_range.1 hb; omega)]
  rw [this]; simp

/-- The invariant between buffers, for any input. -/
def TInv (c : Info) (B : List (List (Row U D))) (popped : List (Nat × List (Row U D)))
    (s : State U D) : Prop :=
  AInv c (allItems 0 B) s ∧ s.pushed = B.length ∧ numbered 0 B = popped ++ s.queue ∧
    ∀ x ∈ popped, s.filled x.1 = x.2.length

theorem stream_count (c : Info) (P : Key → List D → List U → ℚ → List D) (ls : List (List (Row U D))) :
    ∀ (B : List (List (Row U D))) (popped : List (Nat × List (Row U D))) (s s' : State U D) o,
      (∀ l ∈ ls, ∀ x ∈ l, x.bl < c.nBl) → TInv c B popped s → stream c P s ls = .ok (s', o) →
      ∃ popped', TInv c (B ++ ls) popped' s' := by
  induction ls with
  | nil =>
    intro B popped s s' o _ hT h
    simp only [stream, Except.ok.injEq, Prod.mk.injEq] at h
    exact ⟨popped, by rw [← h.1]; simpa using hT⟩
  | cons l ls ih =>
    intro B popped s s' o hbl hT h
    obtain ⟨hI, hpu, hnum, hpop⟩ := hT
    rw [stream] at h
    cases hp : process c P s l with
    | error e => rw [hp] at h; cases h
    | ok w =>
      obtain ⟨s2, o1⟩ := w
      rw [hp] at h
      dsimp only at h
      cases hs : stream c P s2 ls with
      | error e => rw [hs] at h; cases h
      | ok w =>
        obtain ⟨s3, o2⟩ := w
        rw [hs] at h
        simp only [Except.ok.injEq, Prod.mk.injEq] at h
        obtain ⟨rfl, _⟩ := h
        have hn1 : numbered 0 (B ++ [l]) = popped ++ (push s l).queue := by
          rw [numbered_append, numbered, numbered, hnum]
          simp [push, hpu]
        have hp1 : (push s l).pushed = (B ++ [l]).length := by simp [push, hpu]
        unfold process at hp
        cases hr : l.zipIdx.foldlM (processRow c P s.pushed) (push s l) with
        | error e => rw [hr] at hp; cases hp
        | ok s1 =>
          rw [hr] at hp
          simp only [Except.ok.injEq, Prod.mk.injEq] at hp
          have hqb : ∀ b ∈ (push s l).queue.map Prod.fst, b < (push s l).pushed := by
            intro b hb
            obtain ⟨y, hy, rfl⟩ := List.mem_map.1 hb
            have : y ∈ numbered 0 (B ++ [l]) := by rw [hn1]; exact List.mem_append_right _ hy
            have := (numbered_lt _ _ _ this).2
            rw [hp1]; omega
          have hA : AInv c (allItems 0 B) (push s l) := by
            obtain ⟨done, pend, h1, h2, h3⟩ := hI
            exact ⟨done, pend, h1, by rw [total_push, h2], h3⟩
          obtain ⟨g1, g2, g3, g4⟩ := rows_count c P s.pushed l.zipIdx (allItems 0 B) (push s l) s1
            (fun x hx => hbl l List.mem_cons_self x.1 (by
              have := List.mk_mem_zipIdx_iff_getElem?.1 (show (x.1, x.2) ∈ l.zipIdx from hx)
              exact List.mem_of_getElem? this)) hqb hA hr
          have hB1 : allItems 0 (B ++ [l]) = allItems 0 B ++ l.zipIdx.map (fun x => (s.pushed, x)) := by
            rw [allItems_append, allItems, allItems, Nat.zero_add, hpu, List.append_nil]; rfl
          rw [← hB1] at g1
          have hT2 : TInv c (B ++ [l]) (popped ++ s1.queue.takeWhile (full s1)) s2 := by
            rw [← hp.1]
            refine ⟨g1, by rw [← hp1]; exact g3, ?_, ?_⟩
            · rw [hn1, ← g2]
              show _ = _ ++ s1.queue.dropWhile (full s1)
              rw [List.append_assoc, List.takeWhile_append_dropWhile]
            · intro x hx
              show s1.filled x.1 = _
              rcases List.mem_append.1 hx with hx | hx
              · have hnd := numbered_nodup 0 (B ++ [l])
                rw [hn1, List.map_append, List.nodup_append] at hnd
                have hxq : x.1 ∉ (push s l).queue.map Prod.fst := fun hc =>
                  hnd.2.2 _ (List.mem_map_of_mem hx) _ hc rfl
                rw [g4 x.1 hxq]
                have : x.1 ≠ s.pushed := by
                  have hm : x ∈ numbered 0 B := by rw [hnum]; exact List.mem_append_left _ hx
                  have := (numbered_lt _ _ _ hm).2
                  rw [hpu]; omega
                simp only [push, this, if_false]
                exact hpop x hx
              · have := takeWhile_all _ _ x hx
                have : x.2.length = s1.filled x.1 := by simpa [full] using this
                exact this.symm
          obtain ⟨popped', hT3⟩ := ih (B ++ [l]) _ s2 s3 o2 (fun l' hl' => hbl l' (List.mem_cons_of_mem _ hl')) hT2 hs
          exact ⟨popped', by simpa using hT3⟩

theorem sum_numbered (f : Nat → Nat) (n : Nat) (a : List (List (Row U D)))
    (h : ∀ x ∈ numbered n a, f x.1 = x.2.length) :
    ((List.range' n a.length).map f).sum = (allItems n a).length := by
  induction a generalizing n with
  | nil => simp [allItems]
  | cons l a ih =>
    rw [List.length_cons, List.range'_succ, List.map_cons, List.sum_cons, allItems, List.length_append,
      items_length, ih (n + 1) (fun x hx => h x (by simp [numbered, hx])), h (n, l) (by simp [numbered])]

theorem run_count (c : Info) (P : Key → List D → List U → ℚ → List D) (u : U) (m : Nat → Nat → D) (d : Key → List D)
    (ls : List (List (Row U D))) (hbl : ∀ l ∈ ls, ∀ x ∈ l, x.bl < c.nBl) (o : List (Nat × List D))
    (h : run c P (start u m d) ls = .ok o) (k : Key) :
    ∃ ch, (allItems 0 ls).filter (fun x => ikey c x = k) = List.flatten ch ∧
      ∀ r ∈ ch, r.length = ((setup c).groups k).length ∧ Close r := by
  unfold run at h
  cases hs : stream c P (start u m d) ls with
  | error e => rw [hs] at h; cases h
  | ok w =>
    obtain ⟨s, o'⟩ := w
    rw [hs] at h
    dsimp only at h
    split_ifs at h with hq
    have h0 : TInv c [] [] (start u m d : State U D) := by
      refine ⟨⟨[], [], .nil, by simp [total, start], ?_⟩, rfl, rfl, by simp⟩
      intro k
      exact ⟨[], [], rfl, rfl, by simp, .nil, rfl, fun h => absurd rfl h⟩
    obtain ⟨popped, hI, hpu, hnum, hpop⟩ := stream_count c P ls [] [] _ s o' hbl h0 hs
    simp only [List.nil_append] at hI hpu hnum
    rw [hq, List.append_nil] at hnum
    obtain ⟨done, pend, hperm, hsum, hC⟩ := hI
    have ht : total s = (allItems 0 ls).length := by
      rw [total, hpu, List.range_eq_range']
      exact sum_numbered s.filled 0 ls (by rw [hnum]; exact hpop)
    have hl := hperm.length_eq
    rw [List.length_append, ← hsum, ht] at hl
    have hpe : pend = [] := List.length_eq_zero_iff.1 (by omega)
    obtain ⟨ch, p, h1, h2, h3, _⟩ := hC k
    have hp : p = [] := by rw [← h1, hpe]; rfl
    exact ⟨ch, by rw [h2, hp, List.append_nil], h3⟩

end DP3.BdaGroup
