import Verif.Lane.Model

/-! Property C15: buffered lanes lose, duplicate and reorder nothing. -/

namespace DP3.Lane

variable {α : Type}

/-- The elements taken out of the lane by consumer `i`, in order. -/
private def takenBy (i : Nat) (taken : List (Nat × α)) : List α :=
  (taken.filter fun q => q.1 == i).map fun q => q.2

private def ReaderInv (s : State α) (taken : List (Nat × α)) (i : Nat) (r : Reader α) : Prop :=
  r.out ++ r.rest ++ r.filling.getD [] = takenBy i taken ∧
  (r.filling ≠ none → r.rest = []) ∧ 0 < r.size ∧ (∀ got, r.filling = some got → got.length ≤ r.size) ∧
  (r.told = true → s.ended = true ∧ s.queue = [] ∧ r.rest = [] ∧ r.filling = none)

private def Inv (input : List α) (s : State α) (taken : List (Nat × α)) : Prop :=
  taken.map (fun q => q.2) ++ (s.queue ++ (s.w.moving ++ (s.w.buf ++ s.w.src))) = input ∧
  (s.ended = true → s.w.moving = [] ∧ s.w.buf = [] ∧ s.w.src = []) ∧
  (∀ q ∈ taken, q.1 < s.readers.length) ∧
  ∀ i r, s.readers[i]? = some r → ReaderInv s taken i r

private theorem writer_inv {cap bs k : Nat} {input : List α} {s s' : State α}
    {taken : List (Nat × α)} (h : Inv input s taken) (hs : writerStep cap bs k s = some s') :
    Inv input s' taken := by
  obtain ⟨h1, h2, h3, h4⟩ := h
  unfold writerStep at hs
  split at hs
  · next m ms hm =>
    split at hs
    · simp only [Option.some.injEq] at hs
      subst hs
      have hne : s.ended = false := by
        cases he : s.ended with
        | false => rfl
        | true => rw [(h2 he).1] at hm; cases hm
      refine ⟨?_, by simp [hne], h3, ?_⟩
      · rw [← h1, hm]
        simp only
        rw [List.append_assoc s.queue, ← List.append_assoc ((m :: ms).take k), List.take_append_drop]
      · intro i r hr
        obtain ⟨a, b, c, d, e⟩ := h4 i r hr
        refine ⟨a, b, c, d, fun ht => ?_⟩
        rw [(e ht).1] at hne
        cases hne
    · cases hs
  · next hm =>
    split at hs
    · next x xs hx =>
      have hne : s.ended = false := by
        cases he : s.ended with
        | false => rfl
        | true => rw [(h2 he).2.2] at hx; cases hx
      split at hs
      · simp only [Option.some.injEq] at hs
        subst hs
        exact ⟨by rw [← h1, hx, hm]; simp, by simp [hne], h3, h4⟩
      · simp only [Option.some.injEq] at hs
        subst hs
        exact ⟨by rw [← h1, hx, hm]; simp, by simp [hne], h3, h4⟩
    · next hx =>
      split at hs
      · next b bs' hb =>
        simp only [Option.some.injEq] at hs
        subst hs
        have hne : s.ended = false := by
          cases he : s.ended with
          | false => rfl
          | true => rw [(h2 he).2.1] at hb; cases hb
        exact ⟨by rw [← h1, hx, hm, hb]; simp, by simp [hne], h3, h4⟩
      · next hb =>
        split at hs
        · cases hs
        · next hne =>
          simp only [Option.some.injEq] at hs
          subst hs
          refine ⟨h1, fun _ => ⟨hm, hb, hx⟩, h3, ?_⟩
          intro i r hr
          obtain ⟨a, b, c, d, e⟩ := h4 i r hr
          exact ⟨a, b, c, d, fun ht => absurd (e ht).1 hne⟩

private theorem takenBy_append (i : Nat) (a b : List (Nat × α)) :
    takenBy i (a ++ b) = takenBy i a ++ takenBy i b := by
  simp [takenBy]

private theorem takenBy_mine (i : Nat) (l : List α) : takenBy i (l.map fun x => (i, x)) = l := by
  unfold takenBy
  induction l with
  | nil => rfl
  | cons a l ih => simp [ih]

private theorem takenBy_other (i j : Nat) (h : j ≠ i) (l : List α) :
    takenBy i (l.map fun x => (j, x)) = [] := by
  unfold takenBy
  induction l with
  | nil => rfl
  | cons a l ih => simp [h]

/-- A step that only changes reader `i`, and nothing in the lane. -/
private theorem set_inv {input : List α} {s : State α} {taken : List (Nat × α)} {i : Nat}
    {r r' : Reader α} (h : Inv input s taken) (_hr : s.readers[i]? = some r)
    (hinv : ReaderInv s taken i r') :
    Inv input { s with readers := s.readers.set i r' } taken := by
  obtain ⟨h1, h2, h3, h4⟩ := h
  refine ⟨h1, h2, by simpa using h3, ?_⟩
  intro j r1 hj
  by_cases hij : i = j
  · subst hij
    have hlt : i < s.readers.length := by
      have := (List.getElem?_eq_some_iff.1 hj).1
      simpa using this
    simp only [List.getElem?_set_self hlt, Option.some.injEq] at hj
    subst hj
    exact hinv
  · simp only [List.getElem?_set_ne hij] at hj
    exact h4 j r1 hj

private theorem reader_inv {i k : Nat} {input : List α} {s s' : State α}
    {taken : List (Nat × α)} (h : Inv input s taken) (hs : readerStep i k s = some s') :
    ∃ taken', Inv input s' taken' := by
  unfold readerStep at hs
  split at hs
  · cases hs
  · next r hr =>
    have h4 := h.2.2.2 i r hr
    obtain ⟨ha, hb, hc, hd, he⟩ := h4
    have hlt : i < s.readers.length := (List.getElem?_eq_some_iff.1 hr).1
    split at hs
    · cases hs
    · next hnt =>
      split at hs
      · next got hf =>
        have hrest : r.rest = [] := hb (by rw [hf]; simp)
        rw [hrest, hf] at ha
        split at hs
        · next hcond =>
          simp only [Option.some.injEq] at hs
          subst hs
          refine ⟨taken, set_inv h hr ?_⟩
          refine ⟨by simpa [Reader.refill] using ha, by simp [Reader.refill], hc,
            by simp [Reader.refill], ?_⟩
          simp only [Reader.refill]
          intro hemp
          have hg : got = [] := by simpa using hemp
          subst hg
          rcases hcond with h0 | h0
          · simp at h0; omega
          · exact ⟨h0.1, h0.2, rfl, trivial⟩
        · next hcond =>
          split at hs
          · next hk =>
            simp only [Option.some.injEq] at hs
            subst hs
            obtain ⟨h1, h2, h3, h4⟩ := h
            refine ⟨taken ++ (s.queue.take k).map (fun x => (i, x)), ?_, h2, ?_, ?_⟩
            · rw [← h1]
              simp only [List.map_append, List.map_map, Function.comp_def, List.map_id',
                List.append_assoc]
              congr 1
              rw [← List.append_assoc (s.queue.take k), List.take_append_drop]
            · intro q hq
              rw [List.mem_append] at hq
              rw [List.length_set]
              rcases hq with hq | hq
              · exact h3 q hq
              · obtain ⟨x, _, rfl⟩ := List.mem_map.1 hq
                exact hlt
            · intro j r1 hj
              by_cases hij : i = j
              · subst hij
                simp only [List.getElem?_set_self hlt, Option.some.injEq] at hj
                subst hj
                refine ⟨?_, ?_, hc, ?_, by simp⟩
                · rw [takenBy_append, takenBy_mine, ← ha]
                  simp [hrest]
                · intro _; exact hrest
                · intro got' hg
                  simp only [Option.some.injEq] at hg
                  subst hg
                  simp only [List.length_append, List.length_take]
                  omega
              · simp only [List.getElem?_set_ne hij] at hj
                obtain ⟨a, b, c, d, e⟩ := h4 j r1 hj
                refine ⟨?_, b, c, d, fun ht => ?_⟩
                · rw [takenBy_append, takenBy_other _ _ hij, List.append_nil]
                  exact a
                · obtain ⟨e1, e2, e3, e4⟩ := e ht
                  exact ⟨e1, by simp [e2], e3, e4⟩
          · cases hs
      · next hf =>
        rw [hf] at ha
        split at hs
        · next hrest =>
          simp only [Option.some.injEq] at hs
          subst hs
          refine ⟨taken, set_inv h hr ⟨by rw [hrest] at ha; simpa using ha, fun _ => rfl, hc,
            by simp, by simp⟩⟩
        · next x xs hrest =>
          simp only [Option.some.injEq] at hs
          subst hs
          refine ⟨taken, set_inv h hr ⟨by rw [hrest] at ha; simpa using ha, by simp, hc, by simp,
            by simp⟩⟩

private theorem exec_inv {cap bs : Nat} {input : List α} (acts : List Act) :
    ∀ {s s' : State α} {taken : List (Nat × α)}, Inv input s taken →
      exec cap bs s acts = some s' → ∃ taken', Inv input s' taken' := by
  induction acts with
  | nil =>
    intro s s' taken h hs
    simp only [exec, List.foldlM_nil, Option.pure_def, Option.some.injEq] at hs
    subst hs
    exact ⟨taken, h⟩
  | cons a l ih =>
    intro s s' taken h hs
    unfold exec at hs
    rw [List.foldlM_cons] at hs
    cases h1 : step cap bs s a with
    | none => rw [h1] at hs; cases hs
    | some s1 =>
      rw [h1] at hs
      cases a with
      | producer k => exact ih (writer_inv h h1) hs
      | consumer i k =>
        obtain ⟨taken1, ht1⟩ := reader_inv h h1
        exact ih ht1 hs

private theorem init_inv (input : List α) (sizes : List Nat) (hpos : ∀ n ∈ sizes, 0 < n) :
    Inv input (init input sizes) [] := by
  refine ⟨rfl, by simp [init], by simp, ?_⟩
  intro i r hr
  simp only [init, List.getElem?_map, Option.map_eq_some_iff] at hr
  obtain ⟨n, hn, rfl⟩ := hr
  exact ⟨rfl, by simp, hpos n (List.mem_of_getElem? hn), by simp, by simp⟩

private theorem sizes_exec {cap bs : Nat} (acts : List Act) : ∀ {s s' : State α},
    exec cap bs s acts = some s' → s'.readers.length = s.readers.length := by
  induction acts with
  | nil =>
    intro s s' hs
    simp only [exec, List.foldlM_nil, Option.pure_def, Option.some.injEq] at hs
    rw [hs]
  | cons a l ih =>
    intro s s' hs
    unfold exec at hs
    rw [List.foldlM_cons] at hs
    cases h1 : step cap bs s a with
    | none => rw [h1] at hs; cases hs
    | some s1 =>
      rw [h1] at hs
      rw [ih hs]
      cases a with
      | producer k =>
        simp only [step, writerStep] at h1
        split at h1
        · split at h1
          · simp only [Option.some.injEq] at h1; rw [← h1]
          · cases h1
        · split at h1
          · split at h1 <;> (simp only [Option.some.injEq] at h1; rw [← h1])
          · split at h1
            · simp only [Option.some.injEq] at h1; rw [← h1]
            · split at h1
              · cases h1
              · simp only [Option.some.injEq] at h1; rw [← h1]
      | consumer i k =>
        simp only [step, readerStep] at h1
        split at h1
        · cases h1
        · split at h1
          · cases h1
          · split at h1
            · split at h1
              · simp only [Option.some.injEq] at h1; rw [← h1]; simp
              · split at h1
                · simp only [Option.some.injEq] at h1; rw [← h1]; simp
                · cases h1
            · split at h1 <;> (simp only [Option.some.injEq] at h1; rw [← h1]; simp)

private theorem zip_self (l : List (Nat × α)) :
    (l.map (fun q => q.1)).zip (l.map fun q => q.2) = l := by
  induction l with
  | nil => rfl
  | cons q l ih => simp [ih]

/-- C15, several consumers.  In every execution, for every size of the write buffer,
the lane and the (non-empty) read buffers: when all consumers have been told the
end, the written elements were split over the consumers, each element went to one
consumer, and every consumer got its elements in the order of writing.  `owner`
lists the consumer of each element. -/
theorem delivered_once (cap bs : Nat) (input : List α) (sizes : List Nat)
    (hpos : ∀ n ∈ sizes, 0 < n) (hne : sizes ≠ []) (acts : List Act) (s : State α)
    (h : exec cap bs (init input sizes) acts = some s)
    (htold : ∀ r ∈ s.readers, r.told = true) :
    ∃ owner : List Nat, owner.length = input.length ∧ (∀ i ∈ owner, i < sizes.length) ∧
      ∀ i r, s.readers[i]? = some r →
        r.out = ((owner.zip input).filter fun q => q.1 == i).map fun q => q.2 := by
  obtain ⟨taken, h1, h2, h3, h4⟩ := exec_inv acts (init_inv input sizes hpos) h
  have hlen := sizes_exec acts h
  have hrd : 0 < s.readers.length := by
    rw [hlen]; simpa [init] using List.length_pos_iff.2 hne
  obtain ⟨_, _, _, _, e⟩ := h4 0 s.readers[0] (List.getElem?_eq_getElem hrd)
  obtain ⟨e1, e2, _, _⟩ := e (htold _ (List.getElem_mem hrd))
  obtain ⟨f1, f2, f3⟩ := h2 e1
  rw [e2, f1, f2, f3] at h1
  simp only [List.append_nil] at h1
  refine ⟨taken.map (fun q => q.1), by rw [← h1]; simp, ?_, ?_⟩
  · intro i hi
    obtain ⟨q, hq, rfl⟩ := List.mem_map.1 hi
    have := h3 q hq
    rw [hlen] at this
    simpa [init] using this
  · intro i r hr
    obtain ⟨a, b, c, d, e⟩ := h4 i r hr
    obtain ⟨_, _, g1, g2⟩ := e (htold r (List.mem_of_getElem? hr))
    rw [g1, g2] at a
    rw [← h1, zip_self]
    simpa [takenBy] using a

/-- C15, one consumer: at any moment it has received a prefix of the written
elements, and when it is told the end it has received all of them. -/
theorem single_consumer (cap bs size : Nat) (hpos : 0 < size) (input : List α) (acts : List Act)
    (s : State α) (r : Reader α) (h : exec cap bs (init input [size]) acts = some s)
    (hr : s.readers[0]? = some r) :
    r.out <+: input ∧ (r.told = true → r.out = input) := by
  obtain ⟨taken, h1, h2, h3, h4⟩ := exec_inv acts (init_inv input [size] (by simpa using hpos)) h
  have hlen : s.readers.length = 1 := by rw [sizes_exec acts h]; simp [init]
  have hall : takenBy 0 taken = taken.map fun q => q.2 := by
    unfold takenBy
    congr 1
    rw [List.filter_eq_self]
    intro q hq
    have := h3 q hq
    simp; omega
  obtain ⟨a, b, c, d, e⟩ := h4 0 r hr
  rw [hall] at a
  refine ⟨?_, fun ht => ?_⟩
  · rw [← h1, ← a]
    simp only [List.append_assoc]
    exact List.prefix_append _ _
  · obtain ⟨e1, e2, e3, e4⟩ := e ht
    obtain ⟨f1, f2, f3⟩ := h2 e1
    rw [e2, f1, f2, f3] at h1
    rw [e3, e4] at a
    simpa using a.trans (by simpa using h1)

/-- No deadlock: as long as some consumer has not been told the end, some action is
possible. -/
theorem not_stuck (cap bs : Nat) (hcap : 0 < cap) (input : List α) (sizes : List Nat)
    (hpos : ∀ n ∈ sizes, 0 < n) (acts : List Act) (s : State α)
    (h : exec cap bs (init input sizes) acts = some s) (r : Reader α) (hr : r ∈ s.readers)
    (hnt : r.told = false) : ∃ a s', step cap bs s a = some s' := by
  obtain ⟨taken, h1, h2, h3, h4⟩ := exec_inv acts (init_inv input sizes hpos) h
  obtain ⟨i, hi, rfl⟩ := List.getElem_of_mem hr
  have hget := List.getElem?_eq_getElem hi
  obtain ⟨ha, hb, hc, hd, he⟩ := h4 i _ hget
  cases hf : s.readers[i].filling with
  | none =>
    cases hrest : s.readers[i].rest with
    | nil => exact ⟨.consumer i 0, _, by simp only [step, readerStep, hget, hnt, hf, hrest]; rfl⟩
    | cons x xs => exact ⟨.consumer i 0, _, by simp only [step, readerStep, hget, hnt, hf, hrest]; rfl⟩
  | some got =>
    by_cases hcond : got.length = s.readers[i].size ∨ (s.ended = true ∧ s.queue = [])
    · exact ⟨.consumer i 0, _, by
        simp only [step, readerStep, hget, hnt, hf, if_pos hcond]; rfl⟩
    · by_cases hq : s.queue = []
      · have hne : s.ended = false := by
          cases hee : s.ended with
          | false => rfl
          | true => exact absurd (Or.inr ⟨hee, hq⟩) hcond
        refine ⟨.producer 1, ?_⟩
        simp only [step, writerStep]
        split
        · rw [if_pos (by simp [hq]; omega)]
          exact ⟨_, rfl⟩
        · split
          · split <;> exact ⟨_, rfl⟩
          · split
            · exact ⟨_, rfl⟩
            · simp [hne]
      · have hql : 0 < s.queue.length := List.length_pos_iff.2 hq
        have hgl := hd got hf
        have : got.length ≠ s.readers[i].size := fun hh => hcond (Or.inl hh)
        exact ⟨.consumer i 1, _, by
          simp only [step, readerStep, hget, hnt, hf, if_neg hcond]
          rw [if_neg (by simp), if_pos (by omega)]⟩

/-- What is still to be done. -/
private def todo (r : Reader α) : Nat :=
  r.rest.length + (match r.filling with | some got => 3 * got.length + 1 | none => if r.told then 0 else 2)

private def measure (s : State α) : Nat :=
  7 * s.w.src.length + 6 * s.w.buf.length + 5 * s.w.moving.length + 4 * s.queue.length +
    (if s.ended then 0 else 1) + (s.readers.map todo).sum

private theorem sum_set (l : List (Reader α)) (i : Nat) (r r' : Reader α)
    (hi : l[i]? = some r) : ((l.set i r').map todo).sum + todo r = (l.map todo).sum + todo r' := by
  induction l generalizing i with
  | nil => simp at hi
  | cons x l ih =>
    cases i with
    | zero =>
      simp only [List.getElem?_cons_zero, Option.some.injEq] at hi
      subst hi
      simp; omega
    | succ i =>
      rw [List.getElem?_cons_succ] at hi
      have := ih i hi
      rw [List.set_cons_succ, List.map_cons, List.map_cons, List.sum_cons, List.sum_cons]
      omega

private theorem step_measure {cap bs : Nat} {input : List α} {s s' : State α}
    {taken : List (Nat × α)} (h : Inv input s taken) (a : Act) (hs : step cap bs s a = some s') :
    measure s' < measure s := by
  cases a with
  | producer k =>
    simp only [step, writerStep] at hs
    split at hs
    · next m ms hm =>
      split at hs
      · next hk =>
        simp only [Option.some.injEq] at hs
        subst hs
        simp only [measure, hm, List.length_drop, List.length_append, List.length_take]
        omega
      · cases hs
    · next hm =>
      split at hs
      · next x xs hx =>
        split at hs <;>
        · simp only [Option.some.injEq] at hs
          subst hs
          simp only [measure, hm, hx, List.length_cons, List.length_append, List.length_nil]
          omega
      · next hx =>
        split at hs
        · next b bs' hb =>
          simp only [Option.some.injEq] at hs
          subst hs
          simp only [measure, hm, hx, hb, List.length_cons, List.length_nil]
          omega
        · next hb =>
          split at hs
          · cases hs
          · next hne =>
            simp only [Option.some.injEq] at hs
            subst hs
            simp only [measure, hne, if_true]
            simp
  | consumer i k =>
    simp only [step, readerStep] at hs
    split at hs
    · cases hs
    · next r hr =>
      obtain ⟨ha, hb, hc, hd, he⟩ := h.2.2.2 i r hr
      split at hs
      · cases hs
      · next hnt =>
        have hnt : r.told = false := by simpa using hnt
        split at hs
        · next got hf =>
          have hrest := hb (by rw [hf]; simp)
          split at hs
          · simp only [Option.some.injEq] at hs
            subst hs
            have := sum_set s.readers i r (r.refill got) hr
            have e1 : todo (r.refill got) < todo r := by
              cases got with
              | nil => simp [todo, Reader.refill, hf]
              | cons x xs => simp [todo, Reader.refill, hf]; omega
            simp only [measure]
            omega
          · split at hs
            · next hk =>
              simp only [Option.some.injEq] at hs
              subst hs
              have := sum_set s.readers i r
                ⟨r.size, r.rest, some (got ++ s.queue.take k), r.out, false⟩ hr
              have e1 : todo ⟨r.size, r.rest, some (got ++ s.queue.take k), r.out, false⟩ =
                  todo r + 3 * k := by
                simp only [todo, hf, List.length_append, List.length_take]
                omega
              simp only [measure, List.length_drop]
              omega
            · cases hs
        · next hf =>
          split at hs
          · next hrest =>
            simp only [Option.some.injEq] at hs
            subst hs
            have := sum_set s.readers i r ⟨r.size, [], some [], r.out, false⟩ hr
            have e1 : todo (⟨r.size, [], some [], r.out, false⟩ : Reader α) < todo r := by
              simp [todo, hf, hnt]
            simp only [measure]
            omega
          · next x xs hrest =>
            simp only [Option.some.injEq] at hs
            subst hs
            have := sum_set s.readers i r ⟨r.size, xs, none, r.out ++ [x], false⟩ hr
            have e1 : todo ⟨r.size, xs, none, r.out ++ [x], false⟩ < todo r := by
              simp [todo, hf, hnt, hrest]
            simp only [measure]
            omega

private theorem exec_measure {cap bs : Nat} {input : List α} (acts : List Act) :
    ∀ {s s' : State α} {taken : List (Nat × α)}, Inv input s taken →
      exec cap bs s acts = some s' → acts.length + measure s' ≤ measure s := by
  induction acts with
  | nil =>
    intro s s' taken _ hs
    simp only [exec, List.foldlM_nil, Option.pure_def, Option.some.injEq] at hs
    subst hs
    simp
  | cons a l ih =>
    intro s s' taken h hs
    unfold exec at hs
    rw [List.foldlM_cons] at hs
    cases h1 : step cap bs s a with
    | none => rw [h1] at hs; cases hs
    | some s1 =>
      rw [h1] at hs
      have hm := step_measure h a h1
      have hinv : ∃ taken', Inv input s1 taken' := by
        cases a with
        | producer k => exact ⟨taken, writer_inv h h1⟩
        | consumer i k => exact reader_inv h h1
      obtain ⟨taken', ht⟩ := hinv
      have := ih ht hs
      simp only [List.length_cons]
      omega

/-- Every execution ends: it has at most so many actions.  With `not_stuck`, every
execution that goes on as long as possible ends with all consumers told the end. -/
theorem exec_bounded (cap bs : Nat) (input : List α) (sizes : List Nat)
    (hpos : ∀ n ∈ sizes, 0 < n) (acts : List Act) (s : State α)
    (h : exec cap bs (init input sizes) acts = some s) :
    acts.length ≤ 7 * input.length + 1 + 2 * sizes.length := by
  have := exec_measure acts (init_inv input sizes hpos) h
  have hm : measure (init input sizes) = 7 * input.length + 1 + 2 * sizes.length := by
    simp only [measure, init, List.length_nil, List.map_map]
    have : (sizes.map (todo ∘ fun n => (⟨n, [], none, [], false⟩ : Reader α))).sum =
        2 * sizes.length := by
      clear hpos h this
      induction sizes with
      | nil => rfl
      | cons a l ih =>
        rw [List.map_cons, List.sum_cons, ih]
        simp [todo, Function.comp]; omega
    rw [this]
    simp
  omega

/-- The read buffer must not be empty: with size 0 the consumer is told the end
before it received anything. -/
theorem empty_read_buffer : ∃ s : State Nat, ∃ r,
    exec 4 2 (init [1, 2, 3] [0]) [.consumer 0 0, .consumer 0 0] = some s ∧
      s.readers[0]? = some r ∧ r.told = true ∧ r.out = [] := by
  exact ⟨_, _, rfl, rfl, rfl, rfl⟩

/-- Three elements, two consumers with buffers of 1 and 2, write buffer 2. -/
example : ((exec 2 2 (init [1, 2, 3] [1, 2])
    [.producer 0, .producer 0, .consumer 0 0, .producer 2, .consumer 0 1, .consumer 0 0,
     .consumer 0 0, .producer 0, .producer 0, .consumer 1 0, .producer 1, .consumer 1 2,
     .consumer 1 0, .consumer 1 0, .consumer 1 0, .producer 0, .consumer 0 0, .consumer 0 0,
     .consumer 1 0, .consumer 1 0]).map fun s => s.readers.map fun r => (r.out, r.told)) =
    some [([1], true), ([2, 3], true)] := by decide +kernel

end DP3.Lane
