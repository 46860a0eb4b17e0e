import Verif.BdaGroup.Lemmas
import Mathlib.Data.List.Forall2
import Mathlib.Data.List.Perm.Lattice

namespace DP3.BdaGroup

set_option linter.unusedSimpArgs false
set_option linter.unusedSectionVars false

variable {U D : Type}

/-! ### Writing back -/

theorem writeBack_fold (wb : Nat → Option (Nat × Nat)) (out : List D) (js : List Nat) :
    ∀ s : State U D, js.Nodup → (∀ j ∈ js, ∃ b i, wb j = some (b, i) ∧ b ∈ s.queue.map Prod.fst) →
      (∀ j ∈ js, ∀ j' ∈ js, wb j' = wb j → j' = j) → (∀ j ∈ js, j < out.length) →
      ∃ s', js.foldlM (writeBack wb out) s = .ok s' ∧ s'.groups = s.groups ∧ s'.queue = s.queue ∧
        s'.pushed = s.pushed ∧
        (∀ b, s'.filled b = s.filled b + (js.filter (fun j => (wb j).map Prod.fst = some b)).length) ∧
        (∀ b i, (∀ j ∈ js, wb j ≠ some (b, i)) → s'.mem b i = s.mem b i) ∧
        (∀ j ∈ js, ∀ b i, wb j = some (b, i) → out[j]? = some (s'.mem b i)) := by
  induction js with
  | nil => intro s _ _ _ _; exact ⟨s, rfl, rfl, rfl, rfl, by simp, by simp, by simp⟩
  | cons j js ih =>
    intro s hnd hq hinj hlt
    obtain ⟨b, i, hw, hb⟩ := hq j List.mem_cons_self
    have hd : ∃ d, out[j]? = some d := ⟨_, List.getElem?_eq_getElem (hlt j List.mem_cons_self)⟩
    obtain ⟨d, hd⟩ := hd
    let s1 : State U D := { s with
        mem := fun b' i' => if b' = b ∧ i' = i then d else s.mem b' i'
        filled := fun b' => if b' = b then s.filled b' + 1 else s.filled b' }
    have hs1 : writeBack wb out s j = .ok s1 := by simp only [writeBack, hw, hd, hb, if_true, s1]
    obtain ⟨s', h1, h2, h3, h4, h5, h6, h7⟩ := ih s1 (List.nodup_cons.1 hnd).2
      (fun j' hj' => hq j' (List.mem_cons_of_mem _ hj'))
      (fun j' hj' j'' hj'' => hinj j' (List.mem_cons_of_mem _ hj') j'' (List.mem_cons_of_mem _ hj''))
      (fun j' hj' => hlt j' (List.mem_cons_of_mem _ hj'))
    refine ⟨s', by rw [List.foldlM_cons, hs1]; exact h1, h2, h3, h4, ?_, ?_, ?_⟩
    · intro b'
      rw [h5 b', List.filter_cons]
      by_cases e : b' = b
      · subst e; simp [s1, hw]; omega
      · have : ¬ (b = b') := fun h => e h.symm
        simp [s1, hw, e, this]
    · intro b' i' hn
      rw [h6 b' i' (fun j' hj' => hn j' (List.mem_cons_of_mem _ hj'))]
      have : ¬ (b' = b ∧ i' = i) := by
        rintro ⟨rfl, rfl⟩
        exact hn j List.mem_cons_self hw
      simp [s1, this]
    · intro j' hj' b' i' hw'
      rcases List.mem_cons.1 hj' with rfl | hj'
      · rw [hw] at hw'
        obtain ⟨rfl, rfl⟩ : b = b' ∧ i = i' := by simpa using hw'
        rw [h6 b i (fun j'' hj'' e => ?_), hd]
        · simp [s1]
        · have := hinj j' List.mem_cons_self j'' (List.mem_cons_of_mem _ hj'') (by rw [e, hw])
          subst this
          exact (List.nodup_cons.1 hnd).1 hj''
      · exact h7 j' hj' b' i' hw'

/-! ### Rounds -/

/-- The rows of a group between two predictions: each baseline of the group once, at the same time. -/
def Round (c : Info) (k : Key) (r : List (Item U D)) : Prop :=
  r ≠ [] ∧ (r.map (·.2.1.bl)).Perm ((setup c).groups k) ∧
    ∀ x ∈ r, ∀ y ∈ r, |itime x - itime y| ≤ 1 / 1000

/-- The position of a row in its group. -/
def ipos (c : Info) (x : Item U D) : Nat := pos c x.2.1.bl

/-- The coordinates of a round, per position. -/
def uvws (c : Info) (u : U) (k : Key) (r : List (Item U D)) : List U :=
  (List.range ((setup c).groups k).length).map fun j =>
    ((r.find? (fun x => ipos c x = j)).map (·.2.1.uvw)).getD u

/-- The results of the rounds. -/
def resOf (c : Info) (P : Key → List D → List U → ℚ → List D) (u : U) (d : Key → List D)
    (R : Key → List (List (Item U D))) (k : Key) : Nat → List D
  | 0 => d k
  | n + 1 => P k (resOf c P u d R k n) (uvws c u k ((R k).getD n []))
      ((((R k).getD n []).getLast?.map itime).getD 0)

theorem round_pos {c : Info} {k : Key} {r : List (Item U D)} (h : Round c k r) :
    (r.map (ipos c)).Perm (List.range ((setup c).groups k).length) := by
  have := h.2.1.map (pos c)
  rw [group_pos, List.map_map] at this
  exact this

theorem round_nodup {c : Info} {k : Key} {r : List (Item U D)} (h : Round c k r) :
    (r.map (ipos c)).Nodup := (round_pos h).nodup_iff.2 List.nodup_range

theorem round_length {c : Info} {k : Key} {r : List (Item U D)} (h : Round c k r) :
    r.length = ((setup c).groups k).length := by
  have := (round_pos h).length_eq
  simpa using this

theorem inj_of_nodup_map {A B : Type} (f : A → B) : ∀ {l : List A}, (l.map f).Nodup →
    ∀ {x y}, x ∈ l → y ∈ l → f x = f y → x = y
  | [], _, x, y, hx, _, _ => by simp at hx
  | a :: l, h, x, y, hx, hy, e => by
    simp only [List.map_cons, List.nodup_cons] at h
    rcases List.mem_cons.1 hx with rfl | hx <;> rcases List.mem_cons.1 hy with rfl | hy
    · rfl
    · exact absurd (e ▸ List.mem_map_of_mem (f := f) hy) h.1
    · have h' : f x ∈ l.map f := List.mem_map_of_mem (by assumption)
      rw [e] at h'
      exact absurd h' h.1
    · exact inj_of_nodup_map f h.2 hx hy e

theorem round_inj {c : Info} {k : Key} {r : List (Item U D)} (h : Round c k r) {x y : Item U D}
    (hx : x ∈ r) (hy : y ∈ r) (e : ipos c x = ipos c y) : x = y :=
  inj_of_nodup_map _ (round_nodup h) hx hy e

theorem round_find {c : Info} {k : Key} {r : List (Item U D)} (h : Round c k r) {x : Item U D}
    (hx : x ∈ r) : r.find? (fun y => ipos c y = ipos c x) = some x := by
  cases hf : r.find? (fun y => ipos c y = ipos c x) with
  | none =>
    have := List.find?_eq_none.1 hf x hx
    simp at this
  | some y =>
    have h1 := List.mem_of_find?_eq_some hf
    have h2 := List.find?_some hf
    rw [round_inj h h1 hx (by simpa using h2)]

theorem round_has {c : Info} {k : Key} {r : List (Item U D)} (h : Round c k r) {j : Nat}
    (hj : j < ((setup c).groups k).length) : ∃ x ∈ r, ipos c x = j := by
  have : j ∈ r.map (ipos c) := (round_pos h).mem_iff.2 (by simpa using hj)
  simpa using this

theorem round_lt {c : Info} {k : Key} {r : List (Item U D)} (h : Round c k r) {x : Item U D}
    (hx : x ∈ r) : ipos c x < ((setup c).groups k).length := by
  have : ipos c x ∈ List.range ((setup c).groups k).length :=
    (round_pos h).mem_iff.1 (List.mem_map_of_mem hx)
  simpa using this

/-! ### The invariant -/

/-- The part of the invariant for one group. -/
def GInv (c : Info) (P : Key → List D → List U → ℚ → List D) (u : U) (d : Key → List D)
    (R : Key → List (List (Item U D))) (L done pend : List (Item U D)) (s : State U D) (k : Key) : Prop :=
  ∃ n p q, pend.filter (fun x => ikey c x = k) = p ∧
    done.filter (fun x => ikey c x = k) = ((R k).take n).flatten ∧
    L.filter (fun x => ikey c x = k) = ((R k).take n).flatten ++ p ∧
    (((R k).drop n = [] ∧ p = []) ∨ (∃ rest, (R k).drop n = (p ++ q) :: rest ∧ q ≠ [])) ∧
    (s.groups k).requested = p.length ∧
    (∀ x ∈ p, (s.groups k).wb (ipos c x) = some (iid x) ∧ (s.groups k).uvw (ipos c x) = x.2.1.uvw) ∧
    (p ≠ [] → p.getLast?.map itime = some (s.groups k).time) ∧
    (s.groups k).data = resOf c P u d R k n ∧
    ∀ n' < n, ∀ r, (R k)[n']? = some r → ∀ x ∈ r,
      (resOf c P u d R k (n' + 1))[ipos c x]? = some (s.mem x.1 x.2.2)

/-- The invariant: rows are done or pending, and a pending row has a buffer in the queue. -/
def Inv (c : Info) (P : Key → List D → List U → ℚ → List D) (u : U) (d : Key → List D)
    (R : Key → List (List (Item U D))) (L : List (Item U D)) (s : State U D) : Prop :=
  ∃ done pend, L.Perm (done ++ pend) ∧
    (∀ b, s.filled b = (done.filter (fun x => x.1 = b)).length) ∧
    (∀ x ∈ pend, x.1 ∈ s.queue.map Prod.fst) ∧
    (∀ k, GInv c P u d R L done pend s k)

theorem filter_filter_ne (c : Info) {l : List (Item U D)} {k k' : Key} (h : k' ≠ k) :
    (l.filter (fun x => ¬ ikey c x = k)).filter (fun x => ikey c x = k') =
      l.filter (fun x => ikey c x = k') := by
  rw [List.filter_filter]
  apply List.filter_congr
  intro x _
  by_cases e : ikey c x = k'
  · simp [e, h]
  · simp [e]

theorem filter_key_of (c : Info) {l : List (Item U D)} {k k' : Key} (h : ∀ x ∈ l, ikey c x = k)
    (hk : k' ≠ k) : l.filter (fun x => ikey c x = k') = [] := by
  rw [List.filter_eq_nil_iff]
  intro x hx
  simp [h x hx, Ne.symm hk]

theorem filter_key_self (c : Info) {l : List (Item U D)} {k : Key} (h : ∀ x ∈ l, ikey c x = k) :
    l.filter (fun x => ikey c x = k) = l := by
  rw [List.filter_eq_self]
  intro x hx
  simp [h x hx]

theorem row_step (c : Info) (P : Key → List D → List U → ℚ → List D) (u : U) (d : Key → List D)
    (R : Key → List (List (Item U D))) (hR : ∀ k, ∀ r ∈ R k, Round c k r)
    (hP : ∀ k o us t, (P k o us t).length = us.length)
    (L rest : List (Item U D)) (x : Item U D) (s : State U D)
    (hall : ∀ k, (L ++ x :: rest).filter (fun y => ikey c y = k) = (R k).flatten)
    (hnd : ((L ++ x :: rest).map iid).Nodup) (hbl : x.2.1.bl < c.nBl)
    (hxq : x.1 ∈ s.queue.map Prod.fst) (hI : Inv c P u d R L s) :
    ∃ s', processRow c P x.1 s x.2 = .ok s' ∧ Inv c P u d R (L ++ [x]) s' ∧ s'.queue = s.queue ∧
      s'.pushed = s.pushed := by
  obtain ⟨done, pend, hperm, hfill, hpq, hG⟩ := hI
  generalize hk : ikey c x = k at *
  obtain ⟨n, p, q, h1, h2, h3, h4, h5, h6, h7, h8, h9⟩ := hG k
  -- the next row is the next of its round
  have hnext : ∃ q' rs, (R k).drop n = (p ++ x :: q') :: rs := by
    have ha := hall k
    rw [List.filter_append, h3, List.filter_cons, if_pos (by simp [hk]), List.append_assoc] at ha
    conv_rhs at ha => rw [← List.take_append_drop n (R k), List.flatten_append]
    have ha := List.append_cancel_left ha
    rcases h4 with ⟨e, _⟩ | ⟨rs, e, hq⟩
    · rw [e] at ha
      simp at ha
    · rw [e, List.flatten_cons, List.append_assoc] at ha
      have ha := List.append_cancel_left ha
      cases q with
      | nil => exact absurd rfl hq
      | cons y q' =>
        simp only [List.cons_append, List.cons.injEq] at ha
        exact ⟨q', rs, by rw [e, ha.1]⟩
  obtain ⟨q', rs, hdrop⟩ := hnext
  have hn : n < (R k).length := by
    by_contra hc
    rw [List.drop_eq_nil_of_le (by omega)] at hdrop
    cases hdrop
  have hrn : (R k)[n]? = some (p ++ x :: q') := by
    have := List.getElem?_drop (xs := R k) (i := n) (j := 0)
    rw [hdrop] at this
    simpa using this.symm
  have hdrop' : (R k).drop (n + 1) = rs := by
    rw [← List.drop_drop, hdrop]; rfl
  have htake : (R k).take (n + 1) = (R k).take n ++ [p ++ x :: q'] := by
    rw [List.take_add_one, hrn]; rfl
  have hround : Round c k (p ++ x :: q') := hR k _ (List.mem_of_getElem? hrn)
  have hidx : (setup c).index[x.2.1.bl]? = some (k, ipos c x) := by
    rw [index_eq c hbl, ← hk]; rfl
  have hkp : ∀ y ∈ p, ikey c y = k := by
    intro y hy
    rw [← h1] at hy
    simpa using (List.mem_filter.1 hy).2
  have htime : ¬ ((s.groups k).requested ≠ 0 ∧ 1 / 1000 < |(s.groups k).time - itime x|) := by
    rintro ⟨hr, hlt⟩
    rw [h5] at hr
    have hpne : p ≠ [] := fun e => hr (by simp [e])
    have := h7 hpne
    rw [List.getLast?_eq_getLast_of_ne_nil hpne] at this
    simp only [Option.map_some, Option.some.injEq] at this
    rw [← this] at hlt
    have := hround.2.2 (p.getLast hpne) (by simp) x (by simp)
    exact absurd hlt (not_lt.2 this)
  -- the group with the row
  let g : Group U D := { s.groups k with
      uvw := fun j' => if j' = ipos c x then x.2.1.uvw else (s.groups k).uvw j'
      wb := fun j' => if j' = ipos c x then some (x.1, x.2.2) else (s.groups k).wb j'
      time := itime x
      requested := (s.groups k).requested + 1 }
  have hwbg : ∀ y ∈ p ++ [x], g.wb (ipos c y) = some (iid y) ∧ g.uvw (ipos c y) = y.2.1.uvw := by
    intro y hy
    rcases List.mem_append.1 hy with hy | hy
    · have hne : ipos c y ≠ ipos c x := by
        intro e
        have hyx := round_inj hround (x := y) (y := x) (by simp [hy]) (by simp) e
        have hnd' := round_nodup hround
        rw [List.map_append, List.nodup_append] at hnd'
        exact hnd'.2.2 _ (List.mem_map_of_mem hy) _ (List.mem_map_of_mem (a := x) (by simp)) e
      simp only [g, hne, if_false]
      exact h6 y hy
    · rw [List.mem_singleton.1 hy]
      simp [g, iid]
  have hproc : processRow c P x.1 s x.2 =
      if g.requested = ((setup c).groups k).length then flush c P k g s
      else .ok { s with groups := fun k' => if k' = k then g else s.groups k' } := by
    unfold processRow
    rw [hidx]
    dsimp only
    exact if_neg htime
  have hxL : ∀ k', k' ≠ k → (L ++ [x]).filter (fun y => ikey c y = k') = L.filter (fun y => ikey c y = k') := by
    intro k' hk'
    rw [List.filter_append]
    simp [List.filter_cons, hk, Ne.symm hk']
  have hreq : g.requested = (p ++ [x]).length := by simp [g, h5]
  rw [hproc]
  by_cases hfull : g.requested = ((setup c).groups k).length
  · -- the round is complete
    rw [if_pos hfull]
    have hq' : q' = [] := by
      have := round_length hround
      rw [hreq, ← this] at hfull
      simp only [List.length_append, List.length_cons, List.length_nil] at hfull
      exact List.length_eq_zero_iff.1 (by omega)
    subst hq'
    have hus : (List.range ((setup c).groups k).length).map g.uvw = uvws c u k (p ++ [x]) := by
      unfold uvws
      apply List.map_congr_left
      intro j hj
      obtain ⟨y, hy, rfl⟩ := round_has hround (List.mem_range.1 hj)
      rw [round_find hround hy, (hwbg y hy).2]
      rfl
    have hout : P k g.data ((List.range ((setup c).groups k).length).map g.uvw) g.time =
        resOf c P u d R k (n + 1) := by
      have hgd : (R k).getD n [] = p ++ [x] := by
        rw [List.getD_eq_getElem?_getD, hrn]; rfl
      rw [hus]
      show P k (s.groups k).data _ _ = _
      rw [h8, resOf, hgd]
      simp [g]
    generalize hO : P k g.data ((List.range ((setup c).groups k).length).map g.uvw) g.time = out at hout
    have hol : out.length = ((setup c).groups k).length := by rw [← hO, hP]; simp
    have hndL : ((L ++ [x]).map iid).Nodup := by
      have : (L ++ [x]).map iid ++ rest.map iid = (L ++ x :: rest).map iid := by simp
      rw [← this] at hnd
      exact (List.nodup_append.1 hnd).1
    have hpL : (L ++ [x]).Perm ((done ++ (p ++ [x])) ++ pend.filter (fun y => ¬ ikey c y = k)) := by
      have e1 : pend.Perm (p ++ pend.filter (fun y => ¬ ikey c y = k)) := by
        rw [← h1]
        have := List.filter_append_perm (fun y => decide (ikey c y = k)) pend
        refine this.symm.trans ?_
        apply List.Perm.append_left
        apply List.Perm.of_eq
        apply List.filter_congr
        intro y _
        simp
      have e2 : (L ++ [x]).Perm ((done ++ (p ++ pend.filter (fun y => ¬ ikey c y = k))) ++ [x]) :=
        ((hperm.trans (e1.append_left done))).append_right [x]
      refine e2.trans ?_
      simp only [List.append_assoc]
      apply List.Perm.append_left
      apply List.Perm.append_left
      exact List.perm_append_comm
    have hndd := (hpL.map iid).nodup_iff.1 hndL
    rw [List.map_append, List.map_append] at hndd
    have hndr : ((p ++ [x]).map iid).Nodup := (List.nodup_append.1 (List.nodup_append.1 hndd).1).2.1
    have hdisj : ∀ y ∈ done, ∀ z ∈ p ++ [x], iid y ≠ iid z := fun y hy z hz =>
      (List.nodup_append.1 (List.nodup_append.1 hndd).1).2.2 _ (List.mem_map_of_mem hy) _ (List.mem_map_of_mem hz)
    obtain ⟨s1, w1, w2, w3, w4, w5, w6, w7⟩ := writeBack_fold g.wb out
      (List.range ((setup c).groups k).length) s List.nodup_range
      (by
        intro j hj
        obtain ⟨y, hy, rfl⟩ := round_has hround (List.mem_range.1 hj)
        refine ⟨y.1, y.2.2, (hwbg y hy).1, ?_⟩
        rcases List.mem_append.1 hy with hy | hy
        · rw [← h1] at hy
          exact hpq y (List.mem_filter.1 hy).1
        · rw [List.mem_singleton.1 hy]; exact hxq)
      (by
        intro j hj j' hj' e
        obtain ⟨y, hy, rfl⟩ := round_has hround (List.mem_range.1 hj)
        obtain ⟨y', hy', rfl⟩ := round_has hround (List.mem_range.1 hj')
        rw [(hwbg y hy).1, (hwbg y' hy').1, Option.some.injEq] at e
        rw [inj_of_nodup_map _ hndr hy' hy e])
      (by intro j hj; rw [hol]; exact List.mem_range.1 hj)
    refine ⟨{ s1 with groups := fun k' => if k' = k then { g with requested := 0, data := out } else s1.groups k' },
      by simp only [flush, hO, w1], ?_, w3, w4⟩
    refine ⟨done ++ (p ++ [x]), pend.filter (fun y => ¬ ikey c y = k), hpL, ?_, ?_, ?_⟩
    · intro b
      show s1.filled b = _
      rw [w5, hfill, List.filter_append, List.length_append]
      congr 1
      have := ((round_pos hround).symm.filter (fun j => (g.wb j).map Prod.fst = some b)).length_eq
      rw [this, List.filter_map, List.length_map]
      congr 1
      apply List.filter_congr
      intro y hy
      simp only [Function.comp, (hwbg y hy).1, iid, Option.map_some, Option.some.injEq]
    · intro y hy
      show y.1 ∈ s1.queue.map Prod.fst
      rw [w3]
      exact hpq y (List.mem_filter.1 hy).1
    · intro k'
      by_cases hk' : k' = k
      · subst hk'
        refine ⟨n + 1, [], (rs.headD []), ?_, ?_, ?_, ?_, ?_, ?_, ?_, ?_, ?_⟩
        · rw [List.filter_filter]
          simp
        · rw [List.filter_append, h2, htake, List.flatten_append, filter_key_self c (k := k')]
          · simp
          · intro y hy
            rcases List.mem_append.1 hy with hy | hy
            · exact hkp y hy
            · rw [List.mem_singleton.1 hy]; exact hk
        · rw [List.filter_append, h3, htake, List.flatten_append, filter_key_self c (k := k') (l := [x])]
          · simp
          · intro y hy
            rw [List.mem_singleton.1 hy]; exact hk
        · cases hrs : rs with
          | nil => left; exact ⟨by rw [hdrop', hrs], rfl⟩
          | cons r rs' =>
            right
            refine ⟨rs', by rw [hdrop', hrs]; rfl, ?_⟩
            have : r ∈ R k' := by
              apply List.mem_of_mem_drop (i := n + 1)
              rw [hdrop', hrs]; simp
            exact (hR k' r this).1
        · simp
        · intro y hy; simp at hy
        · intro h; exact absurd rfl h
        · simp only [if_true]; exact hout
        · intro n' hn' r hr y hy
          show _ = some (s1.mem y.1 y.2.2)
          rcases Nat.lt_succ_iff_lt_or_eq.1 hn' with hlt | rfl
          · rw [w6 y.1 y.2.2]
            · exact h9 n' hlt r hr y hy
            · intro j hj e
              obtain ⟨z, hz, rfl⟩ := round_has hround (List.mem_range.1 hj)
              rw [(hwbg z hz).1, Option.some.injEq] at e
              have hyd : y ∈ done := by
                have : y ∈ done.filter (fun x => ikey c x = k') := by
                  rw [h2, List.mem_flatten]
                  refine ⟨r, ?_, hy⟩
                  apply List.mem_of_getElem? (i := n')
                  rw [List.getElem?_take, if_pos hlt, hr]
                exact (List.mem_filter.1 this).1
              exact hdisj y hyd z hz e.symm
          · rw [hrn, Option.some.injEq] at hr
            subst hr
            rw [← hout]
            exact w7 _ (List.mem_range.2 (round_lt hround hy)) _ _ (hwbg y hy).1
      · obtain ⟨n2, p2, q2, i1, i2, i3, i4, i5, i6, i7, i8, i9⟩ := hG k'
        refine ⟨n2, p2, q2, ?_, ?_, ?_, i4, ?_, ?_, ?_, ?_, ?_⟩
        · rw [filter_filter_ne c hk', i1]
        · rw [List.filter_append, i2, filter_key_of c (k := k) ?_ hk', List.append_nil]
          intro y hy
          rcases List.mem_append.1 hy with hy | hy
          · exact hkp y hy
          · rw [List.mem_singleton.1 hy]; exact hk
        · rw [hxL k' hk', i3]
        · simp only [hk', if_false, w2, i5]
        · simp only [hk', if_false, w2]; exact i6
        · simp only [hk', if_false, w2]; exact i7
        · simp only [hk', if_false, w2]; exact i8
        · intro n' hn' r hr y hy
          show _ = some (s1.mem y.1 y.2.2)
          rw [w6 y.1 y.2.2]
          · exact i9 n' hn' r hr y hy
          · intro j hj e
            obtain ⟨z, hz, rfl⟩ := round_has hround (List.mem_range.1 hj)
            rw [(hwbg z hz).1, Option.some.injEq] at e
            have hyd : y ∈ done := by
              have : y ∈ done.filter (fun x => ikey c x = k') := by
                rw [i2, List.mem_flatten]
                refine ⟨r, ?_, hy⟩
                apply List.mem_of_getElem? (i := n')
                rw [List.getElem?_take, if_pos hn', hr]
              exact (List.mem_filter.1 this).1
            exact hdisj y hyd z hz e.symm
  · -- more rows of the round will come
    rw [if_neg hfull]
    have hq' : q' ≠ [] := by
      rintro rfl
      exact hfull (by rw [hreq, round_length hround])
    refine ⟨_, rfl, ⟨done, pend ++ [x], ?_, hfill, ?_, ?_⟩, rfl, rfl⟩
    · rw [← List.append_assoc]
      exact hperm.append_right [x]
    · intro y hy
      rcases List.mem_append.1 hy with hy | hy
      · exact hpq y hy
      · rw [List.mem_singleton.1 hy]; exact hxq
    · intro k'
      by_cases hk' : k' = k
      · subst hk'
        refine ⟨n, p ++ [x], q', ?_, h2, ?_, Or.inr ⟨rs, by rw [hdrop]; simp, hq'⟩, ?_, ?_, ?_, ?_, ?_⟩
        · rw [List.filter_append, h1, filter_key_self c (k := k') (l := [x])]
          intro y hy
          rw [List.mem_singleton.1 hy]; exact hk
        · rw [List.filter_append, h3, filter_key_self c (k := k') (l := [x]), List.append_assoc]
          intro y hy
          rw [List.mem_singleton.1 hy]; exact hk
        · simp only [if_true]; exact hreq
        · simp only [if_true]; exact hwbg
        · intro _
          simp [g]
        · simp only [if_true]; exact h8
        · exact h9
      · obtain ⟨n2, p2, q2, i1, i2, i3, i4, i5, i6, i7, i8, i9⟩ := hG k'
        refine ⟨n2, p2, q2, ?_, i2, ?_, i4, ?_, ?_, ?_, ?_, i9⟩
        · rw [List.filter_append, i1]
          simp [List.filter_cons, hk, Ne.symm hk']
        · rw [hxL k' hk', i3]
        · simp only [hk', if_false]; exact i5
        · simp only [hk', if_false]; exact i6
        · simp only [hk', if_false]; exact i7
        · simp only [hk', if_false]; exact i8

end DP3.BdaGroup
