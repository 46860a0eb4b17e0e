import Verif.BdaGroup.Complete
import Mathlib.Tactic.Linarith
import Mathlib.Tactic.Ring

namespace DP3.BdaGroup

set_option linter.unusedSimpArgs false
set_option linter.unusedSectionVars false

variable {U D : Type}

/-! ### Positions in a group -/

theorem pos_unique (c : Info) (k : Key) (j bl : Nat) (h : ((setup c).groups k)[j]? = some bl) : pos c bl = j := by
  have h1 := congrArg (fun l => l[j]?) (group_pos c k)
  simp only [List.getElem?_map, h, Option.map_some] at h1
  have hj : j < ((setup c).groups k).length := by
    by_contra hc
    rw [List.getElem?_eq_none (by omega)] at h
    cases h
  rw [List.getElem?_range hj] at h1
  simpa using h1

theorem pos_get (c : Info) (k : Key) (bl : Nat) (h : bl ∈ (setup c).groups k) :
    ((setup c).groups k)[pos c bl]? = some bl := by
  obtain ⟨j, hj⟩ := List.getElem?_of_mem h
  rw [pos_unique c k j bl hj]; exact hj

/-! ### C162: each row gets the prediction for its baseline -/

/-- The baselines with the averaging `k`. -/
def baselines (c : Info) (k : Key) : List Nat :=
  (List.range c.nBl).filter (fun bl => (c.timeAvg bl, (c.freqs bl).length) = k)

/-- The rows of baselines with averaging `k`, in the order of the stream, come in rounds: in a round
each of these baselines has one row, and the times are equal up to a millisecond. -/
structure Rounds (c : Info) (ls : List (List (Row U D))) (R : Key → List (List (Item U D))) : Prop where
  split : ∀ k, (allItems 0 ls).filter (fun y => ikey c y = k) = (R k).flatten
  ne : ∀ k, ∀ r ∈ R k, r ≠ []
  once : ∀ k, ∀ r ∈ R k, (r.map (·.2.1.bl)).Perm (baselines c k)
  close : ∀ k, ∀ r ∈ R k, ∀ x ∈ r, ∀ y ∈ r,
    |(x.2.1.time + x.2.1.interval / 2) - (y.2.1.time + y.2.1.interval / 2)| ≤ 1 / 1000
  range : ∀ l ∈ ls, ∀ x ∈ l, x.bl < c.nBl

/-- **Each row gets the prediction for its baseline and round**: the run succeeds, all buffers are
passed on in order with all their rows, each round causes one prediction with the coordinates of the
rows of that round in the order of the baselines, and each row gets the part of its baseline. -/
theorem grouped_partial (c : Info) (P : Key → List D → List U → ℚ → List D) (u : U) (m : Nat → Nat → D)
    (d : Key → List D) (ls : List (List (Row U D))) (R : Key → List (List (Item U D)))
    (hR : Rounds c ls R) (hP : ∀ k o us t, (P k o us t).length = us.length) :
    ∃ outs, run c P (start u m d) ls = .ok outs ∧ outs.length = ls.length ∧
      ∃ res : Key → Nat → List D,
        (∀ k, res k 0 = d k) ∧
        (∀ k n r, (R k)[n]? = some r → ∃ us t, res k (n + 1) = P k (res k n) us t ∧
          us.length = (baselines c k).length ∧
          (∀ x ∈ r, ∀ j : Nat, (baselines c k)[j]? = some x.2.1.bl → us[j]? = some x.2.1.uvw) ∧
          (∃ x ∈ r, t = x.2.1.time + x.2.1.interval / 2)) ∧
        ∀ (b : Nat) l, ls[b]? = some l → ∃ o, outs[b]? = some (b, o) ∧ o.length = l.length ∧
          ∀ x ∈ items b l, ∃ n r, (R (ikey c x))[n]? = some r ∧ x ∈ r ∧
            ∃ j : Nat, (baselines c (ikey c x))[j]? = some x.2.1.bl ∧
              ∃ v, (res (ikey c x) (n + 1))[j]? = some v ∧ o[x.2.2]? = some v := by
  have hb : ∀ k, baselines c k = (setup c).groups k := fun k => by rw [groups_eq]; rfl
  have hRd : ∀ k, ∀ r ∈ R k, Round c k r := fun k r hr =>
    ⟨hR.ne k r hr, by rw [← hb]; exact hR.once k r hr, hR.close k r hr⟩
  obtain ⟨o, h1, h2⟩ := run_ok c P u m d R hRd hP ls hR.split hR.range
  have hmem : ∀ k, ∀ r ∈ R k, ∀ x ∈ r, x.2.1.bl ∈ (setup c).groups k := by
    intro k r hr x hx
    exact (hRd k r hr).2.1.mem_iff.1 (List.mem_map_of_mem (f := fun x : Item U D => x.2.1.bl) hx)
  have hnl : ∀ (n : Nat) (a : List (List (Row U D))), (numbered n a).length = a.length := by
    intro n a
    induction a generalizing n with
    | nil => rfl
    | cons l a ih => simp [numbered, ih]
  have hng : ∀ (a : List (List (Row U D))) (n b : Nat) l, a[b]? = some l → (numbered n a)[b]? = some (n + b, l) := by
    intro a
    induction a with
    | nil => intro n b l h; simp at h
    | cons l' a ih =>
      intro n b l h
      cases b with
      | zero => simp at h; simp [numbered, h]
      | succ b =>
        simp only [List.getElem?_cons_succ] at h
        simp only [numbered, List.getElem?_cons_succ, ih (n + 1) b l h]
        congr 2; omega
  refine ⟨o, h1, by rw [← h2.length_eq, hnl], resOf c P u d R, fun k => rfl, ?_, ?_⟩
  · intro k n r hr
    have hrm := List.mem_of_getElem? hr
    have hg : (R k).getD n [] = r := by rw [List.getD_eq_getElem?_getD, hr]; rfl
    refine ⟨uvws c u k r, ((r.getLast?).map itime).getD 0, by rw [resOf, hg], by simp [uvws, hb], ?_, ?_⟩
    · intro x hx j hj
      rw [hb] at hj
      have hp : ipos c x = j := pos_unique c k j _ hj
      subst hp
      unfold uvws
      rw [List.getElem?_map, List.getElem?_range (round_lt (hRd k r hrm) hx), Option.map_some,
        round_find (hRd k r hrm) hx]
      rfl
    · have hne := hR.ne k r hrm
      refine ⟨r.getLast hne, List.getLast_mem hne, ?_⟩
      rw [List.getLast?_eq_getLast_of_ne_nil hne]
      rfl
  · intro b l hl
    have hn := hng ls 0 b l hl
    rw [Nat.zero_add] at hn
    have hlt : b < o.length := by
      rw [← h2.length_eq, hnl]
      by_contra hc
      rw [List.getElem?_eq_none (by omega)] at hl
      cases hl
    have hG : Good c P u d R (b, l) o[b] := by
      have h3 := (List.forall₂_iff_get.1 h2).2 b (by rw [hnl, ← hnl 0 ls, h2.length_eq]; exact hlt) hlt
      have e : (numbered 0 ls)[b]'(by rw [h2.length_eq]; exact hlt) = (b, l) := by
        rw [List.getElem?_eq_getElem (by rw [h2.length_eq]; exact hlt), Option.some.injEq] at hn
        exact hn
      simp only [List.get_eq_getElem, e] at h3
      exact h3
    obtain ⟨g1, g2, g3⟩ := hG
    refine ⟨o[b].2, by rw [List.getElem?_eq_getElem hlt, Option.some.injEq]; exact Prod.ext g1 rfl, g2, ?_⟩
    intro x hx
    obtain ⟨n, r, i1, i2, i3⟩ := g3 x hx
    have hrm := List.mem_of_getElem? i1
    refine ⟨n, r, i1, i2, ipos c x, by rw [hb]; exact pos_get c _ _ (hmem _ r hrm x i2), ?_⟩
    have hx2 : x.2.2 < o[b].2.length := by
      rw [g2]
      have := items_get hx
      by_contra hc
      rw [List.getElem?_eq_none (by simpa using hc)] at this
      cases this
    rw [List.getElem?_eq_getElem hx2] at i3
    exact ⟨_, i3, List.getElem?_eq_getElem hx2⟩

/-- Two baselines with equal averaging and one with more. -/
def exInfo : Info := ⟨3, fun b => if b = 2 then 2 else 1, fun _ => [100], 1⟩

/-- A row for the examples. -/
def exRow (bl : Nat) (t i : ℚ) (u : Nat) : Row Nat Nat := ⟨bl, t, i, u, 0⟩

/-- The second round of baselines 0 and 1 is divided over two buffers. -/
def exStream : List (List (Row Nat Nat)) :=
  [[exRow 0 0 1 10, exRow 1 0 1 11, exRow 1 1 1 13], [exRow 0 1 1 12, exRow 2 (1 / 2) 2 14]]

/-- The rounds of the example. -/
def exRounds (k : Key) : List (List (Item Nat Nat)) :=
  if k = (1, 1) then [[(0, exRow 0 0 1 10, 0), (0, exRow 1 0 1 11, 1)], [(0, exRow 1 1 1 13, 2), (1, exRow 0 1 1 12, 0)]]
  else if k = (2, 1) then [[(1, exRow 2 (1 / 2) 2 14, 1)]] else []

theorem exRounds_ok : Rounds exInfo exStream exRounds where
  split := by
    intro k
    by_cases h1 : k = (1, 1)
    · subst h1; decide +kernel
    · by_cases h2 : k = (2, 1)
      · subst h2; decide +kernel
      · have h1' : ¬ ((1, 1) = k) := fun e => h1 e.symm
        have h2' : ¬ ((2, 1) = k) := fun e => h2 e.symm
        simp [exRounds, h1, h2, h1', h2', exStream, allItems, items, exRow, ikey, key, exInfo]
  ne := by
    intro k r hr
    unfold exRounds at hr
    split_ifs at hr <;> simp at hr
    · rcases hr with rfl | rfl <;> simp
    · subst hr; simp
  once := by
    intro k r hr
    unfold exRounds at hr
    split_ifs at hr with h1 h2
    · subst h1
      simp only [List.mem_cons, List.not_mem_nil, or_false] at hr
      rcases hr with rfl | rfl <;> decide
    · subst h2
      simp only [List.mem_cons, List.not_mem_nil, or_false] at hr
      subst hr; decide
    · simp at hr
  close := by
    intro k r hr
    unfold exRounds at hr
    split_ifs at hr with h1 h2
    · simp only [List.mem_cons, List.not_mem_nil, or_false] at hr
      rcases hr with rfl | rfl <;>
      · intro x hx y hy
        simp only [List.mem_cons, List.not_mem_nil, or_false] at hx hy
        rcases hx with rfl | rfl <;> rcases hy with rfl | rfl <;> decide +kernel
    · simp only [List.mem_cons, List.not_mem_nil, or_false] at hr
      subst hr
      intro x hx y hy
      simp only [List.mem_cons, List.not_mem_nil, or_false] at hx hy
      subst hx hy; decide +kernel
    · simp at hr
  range := by decide

example := grouped_partial exInfo (fun _ _ us _ => us) 0 (fun _ _ => 0) (fun _ => []) exStream exRounds exRounds_ok
  (fun _ _ _ _ => rfl)

/-- The buffers come out in order, each row with the coordinates of its own baseline. -/
example : run exInfo (fun _ _ us _ => us) (start 0 (fun _ _ => 0) (fun _ => [])) exStream =
    .ok [(0, [10, 11, 13]), (1, [12, 14])] := by decide +kernel

/-! ### C163: incomplete data are reported -/

/-- **Incomplete data are reported**: if the run succeeds then for each averaging the rows come in
complete rounds: as many rows as there are baselines with that averaging, with times that follow each
other within a millisecond. -/
theorem incomplete_reported (c : Info) (P : Key → List D → List U → ℚ → List D) (u : U) (m : Nat → Nat → D)
    (d : Key → List D) (ls : List (List (Row U D))) (hbl : ∀ l ∈ ls, ∀ x ∈ l, x.bl < c.nBl)
    (o : List (Nat × List D)) (h : run c P (start u m d) ls = .ok o) (k : Key) :
    ∃ R, (allItems 0 ls).filter (fun x => (c.timeAvg x.2.1.bl, (c.freqs x.2.1.bl).length) = k) = List.flatten R ∧
      ∀ r ∈ R, r.length = (baselines c k).length ∧
        List.IsChain (fun x y : Item U D => |(x.2.1.time + x.2.1.interval / 2) -
          (y.2.1.time + y.2.1.interval / 2)| ≤ 1 / 1000) r := by
  obtain ⟨R, h1, h2⟩ := run_count c P u m d ls hbl o h k
  refine ⟨R, h1, fun r hr => ?_⟩
  have := h2 r hr
  refine ⟨?_, this.2⟩
  rw [this.1, groups_eq]; rfl

example := incomplete_reported exInfo (fun _ _ us _ => us) 0 (fun _ _ => 0) (fun _ => []) exStream (by decide)
  [(0, [10, 11, 13]), (1, [12, 14])] (by decide +kernel) (1, 1)

/-- A stream without the last row of baseline 0 is refused. -/
example : run exInfo (fun _ _ us _ => us) (start 0 (fun _ _ => 0) (fun _ => []))
    [[exRow 0 0 1 10, exRow 1 0 1 11, exRow 1 1 1 13], [exRow 2 (1 / 2) 2 14]] = .error .refused := by
  decide +kernel

/-- **A repeated baseline is not noticed**: when a baseline comes twice at the same time instead of
another baseline then the result of the other baseline is written to a buffer that was passed on. -/
theorem repeated_ub : ∃ (c : Info) (ls : List (List (Row Nat Nat))), (∀ l ∈ ls, ∀ x ∈ l, x.bl < c.nBl) ∧
    run c (fun _ _ us _ => us) (start 0 (fun _ _ => 0) (fun _ => [])) ls = .error .ub :=
  ⟨exInfo, [[exRow 0 0 1 10, exRow 1 0 1 11], [exRow 0 1 1 12, exRow 0 1 1 12]], by decide, by decide +kernel⟩

/-! ### C164: the time of a prediction -/

/-- A stream with one baseline, one row per buffer. -/
def single (xs : List (Row U D)) : List (List (Row U D)) := xs.map ([·])

/-- The rounds of such a stream. -/
def singleItems : Nat → List (Row U D) → List (List (Item U D))
  | _, [] => []
  | n, x :: xs => [(n, x, 0)] :: singleItems (n + 1) xs

theorem allItems_single (n : Nat) (xs : List (Row U D)) : allItems n (single xs) = (singleItems n xs).flatten := by
  induction xs generalizing n with
  | nil => rfl
  | cons x xs ih =>
    show items n [x] ++ allItems (n + 1) (single xs) = _
    rw [ih]; rfl

theorem singleItems_get (n : Nat) (xs : List (Row U D)) (i : Nat) :
    (singleItems n xs)[i]? = xs[i]?.map (fun x => [(n + i, x, 0)]) := by
  induction xs generalizing n i with
  | nil => rfl
  | cons x xs ih =>
    cases i with
    | zero => rfl
    | succ i =>
      simp only [singleItems, List.getElem?_cons_succ, ih]
      rw [show n + 1 + i = n + (i + 1) by omega]

theorem single_rounds (c : Info) (hc : c.nBl = 1) (xs : List (Row U D)) (h : ∀ x ∈ xs, x.bl = 0) :
    Rounds c (single xs) (fun k => if k = key c 0 then singleItems 0 xs else []) := by
  have hm : ∀ n : Nat, ∀ r ∈ singleItems n xs, ∃ b, ∃ x ∈ xs, r = [(b, x, 0)] := by
    clear h
    induction xs with
    | nil => intro n r hr; simp [singleItems] at hr
    | cons x xs ih =>
      intro n r hr
      simp only [singleItems, List.mem_cons] at hr
      rcases hr with rfl | hr
      · exact ⟨n, x, by simp, rfl⟩
      · obtain ⟨b, y, hy, e⟩ := ih (n + 1) r hr
        exact ⟨b, y, by simp [hy], e⟩
  have hmi : ∀ x ∈ allItems 0 (single xs), x.2.1.bl = 0 := by
    intro x hx
    rw [allItems_single, List.mem_flatten] at hx
    obtain ⟨r, hr, hxr⟩ := hx
    obtain ⟨b, y, hy, rfl⟩ := hm 0 r hr
    rw [List.mem_singleton.1 hxr]
    exact h y hy
  refine ⟨?_, ?_, ?_, ?_, ?_⟩
  · intro k
    by_cases hk : k = key c 0
    · rw [if_pos hk, ← allItems_single, List.filter_eq_self]
      intro x hx
      simp [ikey, hmi x hx, hk]
    · rw [if_neg hk, List.flatten_nil, List.filter_eq_nil_iff]
      intro x hx
      simp only [ikey, hmi x hx, decide_eq_true_eq]
      exact fun e => hk e.symm
  · intro k r hr
    split_ifs at hr with hk
    · obtain ⟨b, x, _, rfl⟩ := hm 0 r hr; simp
    · simp at hr
  · intro k r hr
    split_ifs at hr with hk
    · obtain ⟨b, x, hx, rfl⟩ := hm 0 r hr
      have : (c.timeAvg 0, (c.freqs 0).length) = k := by rw [hk]; rfl
      simp [baselines, hc, h x hx, this]
    · simp at hr
  · intro k r hr x hx y hy
    split_ifs at hr with hk
    · obtain ⟨b, z, _, rfl⟩ := hm 0 r hr
      rw [List.mem_singleton.1 hx, List.mem_singleton.1 hy]
      simp
    · simp at hr
  · intro l hl x hx
    obtain ⟨y, hy, rfl⟩ := List.mem_map.1 hl
    rw [List.mem_singleton.1 hx, h y hy, hc]
    omega

/-- What a stream of one baseline gives. -/
theorem single_out (c : Info) (hc : c.nBl = 1) (P : Key → List D → List U → ℚ → List D)
    (hP : ∀ k o us t, (P k o us t).length = us.length) (u : U) (m : Nat → Nat → D) (d : Key → List D)
    (xs : List (Row U D)) (h : ∀ x ∈ xs, x.bl = 0) :
    ∃ outs, run c P (start u m d) (single xs) = .ok outs ∧ ∃ res : Nat → List D, res 0 = d (key c 0) ∧
      ∀ (b : Nat) x, xs[b]? = some x →
        res (b + 1) = P (key c 0) (res b) [x.uvw] (x.time + x.interval / 2) ∧
        outs[b]? = some (b, res (b + 1)) := by
  obtain ⟨outs, h1, _, res, r0, r1, r2⟩ := grouped_partial c P u m d (single xs) _ (single_rounds c hc xs h) hP
  have hbl : baselines c (key c 0) = [0] := by
    simp [baselines, hc, key]
  refine ⟨outs, h1, res (key c 0), r0 _, ?_⟩
  intro b x hx
  obtain ⟨us, t, e1, e2, e3, y, hy, e4⟩ := r1 (key c 0) b [(b, x, 0)] (by
    simp only [if_true]; rw [singleItems_get, hx]; simp)
  rw [List.mem_singleton.1 hy] at e4
  have hx0 := h x (List.mem_of_getElem? hx)
  have hus : us = [x.uvw] := by
    have h0 := e3 (b, x, 0) (by simp) 0 (by rw [hbl]; simp [hx0])
    rw [hbl] at e2
    match us, e2 with
    | [v], _ => simpa using h0
  rw [hus, e4] at e1
  refine ⟨e1, ?_⟩
  obtain ⟨o, o1, o2, o3⟩ := r2 b [x] (by simp [single, hx])
  obtain ⟨n, r, i1, i2, j, i3, v, i4, i5⟩ := o3 (b, x, 0) (by simp [items])
  have hk : ikey c ((b, x, 0) : Item U D) = key c 0 := by simp [ikey, hx0]
  rw [hk] at i1 i3 i4
  simp only [if_true] at i1
  rw [singleItems_get] at i1
  have hn : n = b := by
    cases hxn : xs[n]? with
    | none => rw [hxn] at i1; cases i1
    | some z =>
      rw [hxn] at i1
      simp only [Option.map_some, Option.some.injEq] at i1
      rw [← i1, List.mem_singleton] at i2
      simp only [Prod.mk.injEq] at i2
      omega
  subst hn
  have hj : j = 0 := by
    by_contra hne
    rw [hbl, List.getElem?_eq_none (by simp; omega)] at i3
    cases i3
  subst hj
  have hl1 : (res (key c 0) (n + 1)).length = 1 := by rw [e1, hP]; rfl
  rw [o1]
  congr 2
  match o, o2, res (key c 0) (n + 1), hl1, i4, i5 with
  | [a], _, [a'], _, i4, i5 =>
    have e5 : a = v := by simpa using i5
    have e6 : a' = v := by simpa using i4
    rw [e5, e6]

/-- **The time of a prediction is the end of the interval**: each row of a single baseline is predicted
for half an interval after its centroid. -/
theorem predicted_late (c : Info) (hc : c.nBl = 1) (u : U) (m : Nat → Nat → ℚ) (d : Key → List ℚ)
    (xs : List (Row U ℚ)) (h : ∀ x ∈ xs, x.bl = 0) :
    ∃ outs, run c (fun _ _ us t => us.map (fun _ => t)) (start u m d) (single xs) = .ok outs ∧
      ∀ (b : Nat) x, xs[b]? = some x →
        outs[b]? = some (b, [x.time + x.interval / 2]) ∧
        (0 < x.interval → outs[b]? ≠ some (b, [x.time])) := by
  obtain ⟨outs, h1, res, _, h2⟩ := single_out c hc (fun _ _ us t => us.map (fun _ => t)) (by simp) u m d xs h
  refine ⟨outs, h1, fun b x hx => ?_⟩
  obtain ⟨e1, e2⟩ := h2 b x hx
  rw [e1] at e2
  refine ⟨e2, fun hi e => ?_⟩
  rw [e2] at e
  simp at e
  linarith

example := predicted_late ⟨1, fun _ => 4, fun _ => [100], 1⟩ rfl (0 : Nat) (fun _ _ => 0) (fun _ => [0])
  [⟨0, 2, 4, 0, 0⟩, ⟨0, 6, 4, 0, 0⟩] (by simp)

/-! ### C165: frequencies and integration time -/

/-- **Frequencies of a group**: after BDA averaging the frequencies that are used for a group are those
of each of its baselines. -/
theorem freqs_partial (c : Info) (f : List ℚ) (n : Nat → Nat) (hf : ∀ b, c.freqs b = bdaFreqs f (n b))
    (b : Nat) (hb : b < c.nBl) : groupFreqs c (key c b) = c.freqs b := by
  have hm : b ∈ (setup c).groups (key c b) := by rw [groups_eq]; simp [hb]
  unfold groupFreqs
  cases hg : (setup c).groups (key c b) with
  | nil => rw [hg] at hm; simp at hm
  | cons a l =>
    have ha : a ∈ (setup c).groups (key c b) := by rw [hg]; simp
    rw [groups_eq] at ha
    have hk : key c a = key c b := by simpa using (List.mem_filter.1 ha).2
    have hn : (c.freqs a).length = (c.freqs b).length := congrArg Prod.snd hk
    rw [hf, hf] at hn
    simp only [bdaFreqs, List.length_map, List.length_range] at hn
    rw [List.headD_cons, hf, hf, hn]

example := freqs_partial ⟨3, fun _ => 1, fun b => bdaFreqs [100, 110, 120, 130] (if b = 1 then 1 else 2), 1⟩
  [100, 110, 120, 130] (fun b => if b = 1 then 1 else 2) (fun _ => rfl) 2 (by decide)

/-- **Other frequencies**: baselines with equally many channels and other frequencies get the
frequencies of the first one. -/
theorem freqs_wrong : ∃ (c : Info) (b : Nat), b < c.nBl ∧ groupFreqs c (key c b) ≠ c.freqs b :=
  ⟨⟨2, fun _ => 1, fun b => [100 + b], 1⟩, 1, by decide, by decide +kernel⟩

/-- **The integration time is that of the unaveraged data**: for a baseline that is averaged in time it
is not the integration time of the rows. -/
theorem interval_wrong (c : Info) (hi : 0 < c.timeInterval) (b : Nat) (hb : 1 < c.timeAvg b) :
    groupInterval c (key c b) ≠ c.timeAvg b * c.timeInterval := by
  unfold groupInterval
  have : (1 : ℚ) < c.timeAvg b := by exact_mod_cast hb
  intro e
  nlinarith

example := interval_wrong ⟨1, fun _ => 4, fun _ => [100], 1⟩ (by decide +kernel) 0 (by decide)

/-! ### C166: operation add -/

/-- **Adding accumulates**: with operation add the result for a row is the sum of all models up to that
row, plus what the buffer of the group contained at the start; the data of the row have no effect. -/
theorem add_accumulates (c : Info) (hc : c.nBl = 1) (M : U → ℚ → ℚ) (u : U) (m : Nat → Nat → ℚ)
    (d0 : ℚ) (xs : List (Row U ℚ)) (h : ∀ x ∈ xs, x.bl = 0) :
    ∃ outs, run c (fun _ old us t => onePredict true (us.map (M · t)) (List.ofFn (n := us.length)
        fun i => old.getD i 0)) (start u m (fun _ => [d0])) (single xs) = .ok outs ∧
      ∀ b < xs.length, outs[b]? = some (b, [d0 +
        ((xs.take (b + 1)).map (fun x => M x.uvw (x.time + x.interval / 2))).sum]) := by
  obtain ⟨outs, h1, res, r0, h2⟩ := single_out c hc
    (fun _ old us t => onePredict true (us.map (M · t)) (List.ofFn (n := us.length) fun i => old.getD i 0))
    (by simp [onePredict]) u m (fun _ => [d0]) xs h
  refine ⟨outs, h1, ?_⟩
  have hres : ∀ b ≤ xs.length, res b = [d0 + ((xs.take b).map (fun x => M x.uvw (x.time + x.interval / 2))).sum] := by
    intro b
    induction b with
    | zero => intro _; simp [r0]
    | succ b ih =>
      intro hb
      have hx : xs[b]? = some xs[b] := List.getElem?_eq_getElem (by omega)
      rw [(h2 b _ hx).1, ih (by omega), List.take_add_one, hx, List.map_append, List.sum_append]
      simp only [onePredict, List.ofFn_succ, List.ofFn_zero, List.map_cons, List.map_nil, List.length_cons,
        List.length_nil, if_true, List.zipWith_cons_cons, List.zipWith_nil_left, Fin.val_zero,
        List.getD_cons_zero, Option.toList_some, List.sum_cons, List.sum_nil, List.cons.injEq, and_true]
      ring
  intro b hb
  have hx : xs[b]? = some xs[b] := List.getElem?_eq_getElem hb
  rw [(h2 b _ hx).2, hres (b + 1) (by omega)]

/-- **Adding does not give the data plus the model**: already for one row. -/
theorem add_wrong : ∃ (c : Info) (x : Row Nat ℚ), c.nBl = 1 ∧ x.bl = 0 ∧
    run c (fun _ old us t => onePredict true (us.map (fun _ => t)) (List.ofFn (n := us.length)
      fun i => old.getD i 0)) (start 0 (fun _ _ => 0) (fun _ => [0])) (single [x]) ≠
        .ok [(0, [x.data + (x.time + x.interval / 2)])] :=
  ⟨⟨1, fun _ => 1, fun _ => [100], 1⟩, ⟨0, 0, 1, 0, 7⟩, rfl, rfl, by decide +kernel⟩

example := add_accumulates ⟨1, fun _ => 1, fun _ => [100], 1⟩ rfl (fun u _ => (u : ℚ)) (0 : Nat) (fun _ _ => 0) 0
  [⟨0, 2, 4, 3, 50⟩, ⟨0, 6, 4, 5, 60⟩] (by simp)

end DP3.BdaGroup
