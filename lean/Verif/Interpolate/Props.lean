import Verif.Interpolate.Lemmas
import Mathlib.Algebra.Field.Rat
import Mathlib.Algebra.Module.Basic
import Mathlib.Data.List.Induction

/-! Properties C13 (interpolation over a sliding window) and C14 (threads). -/

namespace DP3.Interpolate

set_option linter.unusedSectionVars false

variable {F V : Type} [Field F] [DecidableEq F] [AddCommGroup V] [Module F V]

/-- The buffers held while slots `off ..` of the stream are in the window: the first
`pos` are filled, the others are as they came in. -/
private def Held (c : Config F) (stream : List (Buffer V)) (off pos len : Nat)
    (bufs : List (Buffer V)) : Prop :=
  bufs.length = len ∧ off + len ≤ stream.length ∧
  ∀ i, i < len → bufs[i]? =
    if i < pos then (stream[off + i]?).map (filled c stream (off + i)) else stream[off + i]?

private theorem Held.part {c : Config F} {stream : List (Buffer V)} {off pos len : Nat}
    {bufs : List (Buffer V)} (h : Held c stream off pos len bufs) : Part stream off bufs := by
  intro i b hb
  have hi : i < len := by
    obtain ⟨hlt, _⟩ := List.getElem?_eq_some_iff.1 hb
    rw [← h.1]; exact hlt
  have := h.2.2 i hi
  rw [hb] at this
  have hs : off + i < stream.length := by have := h.2.1; omega
  refine ⟨stream[off + i], List.getElem?_eq_getElem hs, ?_⟩
  rw [List.getElem?_eq_getElem hs] at this
  split at this
  · simp only [Option.map_some, Option.some.injEq] at this
    subst this
    exact filled_same _ _ _ _
  · simp only [Option.some.injEq] at this
    subst this
    exact Same.refl _

private theorem interpolateUpTo_held (c : Config F) (stream : List (Buffer V)) (off len : Nat) :
    ∀ (rounds : Nat) (st : State V), Held c stream off st.pos len st.buffers →
      (c.half ≤ st.pos ∨ off = 0) → st.pos + rounds ≤ len →
      (st.pos + rounds + c.half ≤ len ∨ off + len = stream.length) →
      ∃ st', interpolateUpTo c rounds st = some st' ∧ st'.pos = st.pos + rounds ∧
        Held c stream off st'.pos len st'.buffers := by
  intro rounds
  induction rounds with
  | zero => intro st h _ _ _; exact ⟨st, rfl, rfl, h⟩
  | succ n ih =>
    intro st h hlo hlen hhi
    have hp : st.pos < st.buffers.length := by rw [h.1]; omega
    unfold interpolateUpTo
    rw [interpolateTimestep_eq c stream st.buffers off st.pos hp h.part hlo
      (by rw [h.1]; omega) (by rw [h.1]; exact h.2.1)]
    simp only
    obtain ⟨st', h1, h2, h3⟩ := ih ⟨st.buffers.modify st.pos (filled c stream (off + st.pos)),
      st.pos + 1⟩ (by
        refine ⟨by simpa using h.1, h.2.1, ?_⟩
        intro i hi
        simp only [List.getElem?_modify]
        rw [h.2.2 i hi]
        by_cases hip : st.pos = i
        · subst hip
          simp
        · simp only [hip, if_false]
          by_cases hlt : i < st.pos
          · simp [hlt, Nat.lt_succ_of_lt hlt]
          · have : ¬ i < st.pos + 1 := by omega
            simp [hlt, this])
      (by simp only; omega) (by simp only; omega) (by simp only; omega)
    exact ⟨st', h1, by rw [h2]; simp only; omega, h3⟩

/-- The slots passed on for the first `n` slots of the stream. -/
private def outputs (c : Config F) (stream : List (Buffer V)) : List (Buffer V) :=
  stream.mapIdx fun g b => output c (filled c stream g b)

private theorem Held.map_output {c : Config F} {stream : List (Buffer V)} {off len : Nat}
    {bufs : List (Buffer V)} (h : Held c stream off len len bufs)
    (hend : off + len = stream.length) :
    bufs.map (output c) = (outputs c stream).drop off := by
  apply List.ext_getElem?
  intro i
  rw [List.getElem?_map, List.getElem?_drop]
  unfold outputs
  rw [List.getElem?_mapIdx]
  by_cases hi : i < len
  · rw [h.2.2 i hi, if_pos hi, Option.map_map]
    rfl
  · rw [List.getElem?_eq_none (by rw [h.1]; omega), List.getElem?_eq_none (by omega)]
    rfl

/-- State after `k` slots: nothing passed on yet and nothing interpolated, or a
window less one is held and half of it is interpolated. -/
private def Ready (c : Config F) (stream : List (Buffer V)) (k : Nat) (st : State V) : Prop :=
  ∃ off len, off + len = k ∧ Held c stream off st.pos len st.buffers ∧
    ((off = 0 ∧ len ≤ 2 * c.half ∧ st.pos = 0) ∨ (len = 2 * c.half ∧ st.pos = c.half))

private theorem Held.push {c : Config F} {stream : List (Buffer V)} {off pos len : Nat}
    {bufs : List (Buffer V)} (h : Held c stream off pos len bufs) (hpos : pos ≤ len)
    {b : Buffer V} (hb : stream[off + len]? = some b) :
    Held c stream off pos (len + 1) (bufs ++ [b]) := by
  have hs : off + len < stream.length := (List.getElem?_eq_some_iff.1 hb).1
  refine ⟨by simp [h.1], by omega, ?_⟩
  intro i hi
  by_cases h1 : i < len
  · rw [List.getElem?_append_left (by rw [h.1]; exact h1)]
    exact h.2.2 i h1
  · obtain rfl : i = len := by omega
    rw [List.getElem?_append_right (by rw [h.1]), h.1, if_neg (by omega), hb]
    simp

private theorem run_ready (c : Config F) (stream : List (Buffer V)) :
    ∀ (rest : List (Buffer V)) (k : Nat) (st : State V), stream.drop k = rest →
      k ≤ stream.length → Ready c stream k st →
      run c st rest = some ((outputs c stream).drop (k - st.buffers.length)) := by
  intro rest
  induction rest with
  | nil =>
    intro k st hdrop hk hr
    obtain ⟨off, len, rfl, hheld, hcase⟩ := hr
    have hN : off + len = stream.length := by
      have := List.drop_eq_nil_iff.1 hdrop
      omega
    unfold run finish
    obtain ⟨st', h1, h2, h3⟩ := interpolateUpTo_held c stream off len (st.buffers.length - st.pos) st
      hheld (by omega) (by rw [hheld.1]; omega) (Or.inr hN)
    rw [h1]
    have hp : st'.pos = len := by rw [h2, hheld.1]; omega
    rw [hp] at h3
    simp only [Option.map_some]
    rw [h3.map_output hN, hheld.1]
    congr 2
    omega
  | cons b rest ih =>
    intro k st hdrop hk hr
    obtain ⟨off, len, rfl, hheld, hcase⟩ := hr
    have hb : stream[off + len]? = some b := by
      have := congrArg (fun l => l[0]?) hdrop
      simpa using this
    have hs : off + len < stream.length := (List.getElem?_eq_some_iff.1 hb).1
    have hdrop' : stream.drop (off + len + 1) = rest := by
      have := congrArg List.tail hdrop
      simpa using this
    have hpush := hheld.push (by omega) hb
    unfold run process
    simp only
    have hw : c.window = 2 * c.half + 1 := rfl
    have hl : (st.buffers ++ [b]).length = len + 1 := hpush.1
    have hl0 := hheld.1
    by_cases hfull : (st.buffers ++ [b]).length ≥ c.window
    · rw [if_pos hfull]
      have hlen : len = 2 * c.half := by omega
      obtain ⟨st', h1, h2, h3⟩ := interpolateUpTo_held c stream off (len + 1)
        (c.window / 2 + 1 - st.pos) ⟨st.buffers ++ [b], st.pos⟩ hpush (by simp only; omega)
        (by simp only; omega) (by simp only; omega)
      rw [h1]
      have hp : st'.pos = c.half + 1 := by rw [h2, window_half]; simp only; omega
      rw [hp] at h3
      have hlen3 := h3.1
      simp only [Option.map_some, sendFront]
      have h0 := h3.2.2 0 (by omega)
      cases hbufs : st'.buffers with
      | nil => rw [hbufs] at hlen3; simp at hlen3
      | cons b0 more =>
        rw [hbufs] at hlen3 h0 h3
        simp only
        have hready : Ready c stream (off + len + 1) ⟨more, st'.pos - 1⟩ := by
          refine ⟨off + 1, len, by omega, ⟨by simpa using hlen3, by omega, ?_⟩, Or.inr ⟨hlen, by
            simp only; omega⟩⟩
          intro i hi
          have := h3.2.2 (i + 1) (by omega)
          rw [List.getElem?_cons_succ] at this
          rw [this, hp]
          simp only [Nat.add_lt_add_iff_right, Nat.add_sub_cancel]
          rw [show off + (i + 1) = off + 1 + i by omega]
        rw [ih _ _ hdrop' (by omega) hready]
        simp only [Option.map_some, Option.some.injEq]
        have e1 : off + len + 1 - more.length = off + 1 := by
          simp at hlen3; omega
        have e2 : off + len - st.buffers.length = off := by omega
        rw [e1, e2]
        have hoff : off < (outputs c stream).length := by simp [outputs]; omega
        rw [List.drop_eq_getElem_cons hoff, List.singleton_append]
        congr 1
        rw [List.getElem?_cons_zero, if_pos (by omega), Nat.add_zero,
          List.getElem?_eq_getElem (by omega)] at h0
        simp only [Option.map_some, Option.some.injEq] at h0
        rw [h0]
        simp [outputs]
    · rw [if_neg hfull]
      have hready : Ready c stream (off + len + 1) ⟨st.buffers ++ [b], st.pos⟩ :=
        ⟨off, len + 1, by omega, hpush, by simp only; omega⟩
      simp only
      rw [ih _ _ hdrop' (by omega) hready]
      simp only [Option.map_some, Option.some.injEq, List.nil_append]
      congr 1
      omega

/-- C13.  Whatever the stream, the window and the flags: no access is outside an
array; every time slot is passed on once, in order; a flagged sample becomes the
weighted mean of exactly the unflagged samples of the whole stream within half a
window in time and channel, or a flagged zero when there are none (or one of them is
not finite); an unflagged sample is passed on unchanged and unflagged if it is
finite, and as a flagged zero otherwise. -/
theorem run_spec (c : Config F) (stream : List (Buffer V)) :
    ∃ out, run c ⟨[], 0⟩ stream = some out ∧ out.length = stream.length ∧
      ∀ g, g < stream.length → ∃ b o, stream[g]? = some b ∧ out[g]? = some o ∧
        ∀ bl ch p, bl < c.nBaselines → ch < c.nChannels → p < c.nPol →
          (b.flag bl ch p = true →
            FlaggedResult (neighbours c.half c.gauss c.nChannels stream g bl ch p)
              (o.data bl ch p) (o.flag bl ch p)) ∧
          (b.flag bl ch p = false → ∀ v, b.data bl ch p = some v →
            o.data bl ch p = some v ∧ o.flag bl ch p = false) ∧
          (b.flag bl ch p = false → b.data bl ch p = none →
            o.data bl ch p = some 0 ∧ o.flag bl ch p = true) := by
  have hr : Ready c stream 0 (⟨[], 0⟩ : State V) :=
    ⟨0, 0, rfl, ⟨rfl, by omega, by intro i hi; omega⟩, Or.inl ⟨rfl, by omega, rfl⟩⟩
  refine ⟨_, run_ready c stream stream 0 ⟨[], 0⟩ rfl (by omega) hr, by simp [outputs], ?_⟩
  intro g hg
  refine ⟨stream[g], output c (filled c stream g stream[g]), List.getElem?_eq_getElem hg,
    by simp [outputs, hg], ?_⟩
  intro bl ch p h1 h2 h3
  refine ⟨fun hf => ?_, fun hf v hv => ?_, fun hf hv => ?_⟩
  · simp only [output, filled, h1, h2, h3, hf, and_self, if_true]
    exact valueOf_result _
  · simp [output, filled, h1, h2, h3, hf, hv]
  · simp [output, filled, h1, h2, h3, hf, hv]

/-- Positive weights: when the weights add up to zero there are no neighbours. -/
example : neighbours (F := Rat) (V := Rat) 1 (fun d => 1 / (1 + d)) 2
    [⟨fun _ _ _ => some 3, fun _ ch _ => ch == 0⟩, ⟨fun _ _ _ => some 5, fun _ _ _ => false⟩]
    0 0 0 0 = [(1 / 2, some 3), (1 / 2, some 5), (1 / 3, some 5)] := by decide +kernel

/-- Three slots of two channels, window 3; the first channel of the first slot and
the whole last slot are flagged. -/
example :
    ((run (F := Rat) (V := Rat) ⟨1, fun d => if d = 0 then 4 else if d = 1 then 2 else 1, 1, 2, 1⟩
      ⟨[], 0⟩
      [⟨fun _ _ _ => some 3, fun _ ch _ => ch == 0⟩, ⟨fun _ _ _ => some 5, fun _ _ _ => false⟩,
       ⟨fun _ _ _ => none, fun _ _ _ => true⟩]).map fun l =>
        l.map fun b => (b.data 0 0 0, b.data 0 1 0, b.flag 0 0 0)) =
      some [(some (21 / 5), some 3, false), (some 5, some 5, false), (some 5, some 5, false)] := by
  decide +kernel

/-! ### C14: threads -/

private theorem addCell_same (c : Config F) {bufs bufs' : List (Buffer V)}
    (hlen : bufs.length = bufs'.length) (hpart : Part bufs 0 bufs') (t bl ch p : Nat)
    (acc : Option (Option V × F)) (cell : Nat × Nat) :
    addCell c bufs' t bl ch p acc cell = addCell c bufs t bl ch p acc cell := by
  unfold addCell
  cases acc with
  | none => rfl
  | some a =>
    by_cases h : cell.1 < bufs'.length
    · obtain ⟨b, hb, hs⟩ := hpart cell.1 _ (List.getElem?_eq_getElem h)
      rw [Nat.zero_add] at hb
      rw [List.getElem?_eq_getElem h, hb]
      simp only [hs.1]
      cases hf : b.flag bl cell.2 p with
      | true => rfl
      | false => simp only [hs.2 bl cell.2 p hf]
    · rw [List.getElem?_eq_none (by omega), List.getElem?_eq_none (by omega)]

/-- The value of a sample, as computed from the initial buffers. -/
private def val (c : Config F) (bufs : List (Buffer V)) (index : Nat) (s : Sample) : Option V :=
  valueOf (neighbours c.half c.gauss c.nChannels bufs index s.1 s.2.1 s.2.2)

private theorem part_self (bufs : List (Buffer V)) : Part bufs 0 bufs := by
  intro i b hb
  exact ⟨b, by rw [Nat.zero_add]; exact hb, Same.refl b⟩

private def TaskInv (c : Config F) (bufs : List (Buffer V)) (index : Nat) (t : Task F V) : Prop :=
  (∃ b, bufs[index]? = some b ∧ t.sample ∈ workList c b) ∧
  (∃ done, cells c bufs.length index t.sample.2.1 = done ++ t.todo ∧
    t.acc = done.foldl (addCell c bufs index t.sample.1 t.sample.2.1 t.sample.2.2)
      (some (some 0, 0))) ∧
  (t.written = true → t.todo = [])

/-- A slot in which the finished tasks have written their values. -/
private def withWritten (c : Config F) (bufs : List (Buffer V)) (index : Nat)
    (tasks : List (Task F V)) (b : Buffer V) : Buffer V where
  data bl ch q :=
    if (tasks.any fun t => t.written && decide (t.sample = (bl, ch, q))) = true then
      val c bufs index (bl, ch, q)
    else b.data bl ch q
  flag := b.flag

private def PoolInv (c : Config F) (bufs : List (Buffer V)) (index : Nat) (samples : List Sample)
    (p : Pool F V) : Prop :=
  p.tasks.map Task.sample = samples ∧ (∀ t ∈ p.tasks, TaskInv c bufs index t) ∧
  p.buffers = bufs.modify index (withWritten c bufs index p.tasks)

private theorem PoolInv.part {c : Config F} {bufs : List (Buffer V)} {index : Nat}
    {samples : List Sample} {p : Pool F V} (h : PoolInv c bufs index samples p) :
    p.buffers.length = bufs.length ∧ Part bufs 0 p.buffers := by
  constructor
  · rw [h.2.2]; simp
  · intro i b hb
    rw [h.2.2, List.getElem?_modify] at hb
    rw [Nat.zero_add]
    cases hb0 : bufs[i]? with
    | none => simp [hb0] at hb
    | some b0 =>
      refine ⟨b0, rfl, ?_⟩
      simp only [hb0, Option.map_eq_map, Option.map_some, Option.some.injEq] at hb
      subst hb
      split
      · next hi =>
        subst hi
        refine ⟨rfl, fun bl ch q hf => ?_⟩
        simp only [withWritten]
        rw [if_neg]
        intro hany
        rw [List.any_eq_true] at hany
        obtain ⟨t, ht, ht2⟩ := hany
        simp only [Bool.and_eq_true, decide_eq_true_eq] at ht2
        obtain ⟨⟨b1, hb1, hmem⟩, _⟩ := h.2.1 t ht
        rw [hb0, Option.some.injEq] at hb1
        subst hb1
        have := (mem_workList.1 hmem).2
        rw [ht2.2] at this
        simp only at this
        rw [hf] at this
        cases this
      · exact Same.refl _

private theorem resultOf_task {c : Config F} {bufs : List (Buffer V)} {index : Nat} {t : Task F V}
    (h : TaskInv c bufs index t) (htodo : t.todo = []) :
    resultOf t.acc = some (val c bufs index t.sample) := by
  obtain ⟨_, ⟨done, hd, ha⟩, _⟩ := h
  rw [htodo, List.append_nil] at hd
  rw [ha, ← hd, resultOf_part c bufs bufs 0 index t.sample.1 t.sample.2.1 t.sample.2.2
    (part_self bufs) (Or.inr rfl) (Or.inr (by omega)) (by omega), Nat.zero_add]
  rfl

private theorem any_set {α : Type} (f : α → Bool) (l : List α) (i : Nat) (a b : α)
    (hi : l[i]? = some a) (hf : f b = f a) : (l.set i b).any f = l.any f := by
  induction l generalizing i with
  | nil => simp at hi
  | cons x l ih =>
    cases i with
    | zero =>
      simp only [List.getElem?_cons_zero, Option.some.injEq] at hi
      subst hi
      simp [hf]
    | succ i =>
      rw [List.getElem?_cons_succ] at hi
      rw [List.set_cons_succ, List.any_cons, List.any_cons, ih i hi]

private theorem any_set_or {α : Type} (f g : α → Bool) (l : List α) (i : Nat) (a b : α)
    (hi : l[i]? = some a) (hf : f b = (f a || g b)) : (l.set i b).any f = (l.any f || g b) := by
  induction l generalizing i with
  | nil => simp at hi
  | cons x l ih =>
    cases i with
    | zero =>
      simp only [List.getElem?_cons_zero, Option.some.injEq] at hi
      subst hi
      simp only [List.set_cons_zero, List.any_cons, hf]
      cases f x <;> cases g b <;> cases l.any f <;> rfl
    | succ i =>
      rw [List.getElem?_cons_succ] at hi
      rw [List.set_cons_succ, List.any_cons, List.any_cons, ih i hi, Bool.or_assoc]

private theorem map_set_same {α β : Type} (f : α → β) (l : List α) (i : Nat) (a b : α)
    (hi : l[i]? = some a) (hf : f b = f a) : (l.set i b).map f = l.map f := by
  induction l generalizing i with
  | nil => simp at hi
  | cons x l ih =>
    cases i with
    | zero =>
      simp only [List.getElem?_cons_zero, Option.some.injEq] at hi
      subst hi
      simp [hf]
    | succ i =>
      rw [List.getElem?_cons_succ] at hi
      rw [List.set_cons_succ, List.map_cons, List.map_cons, ih i hi]

private theorem step_inv {c : Config F} {bufs : List (Buffer V)} {index : Nat}
    {samples : List Sample} {p : Pool F V} (h : PoolInv c bufs index samples p) (i : Nat) :
    PoolInv c bufs index samples (p.step c index i) := by
  unfold Pool.step
  cases ht : p.tasks[i]? with
  | none => exact h
  | some t =>
    have hmem : t ∈ p.tasks := List.mem_of_getElem? ht
    have hti := h.2.1 t hmem
    simp only
    cases htodo : t.todo with
    | cons cell rest =>
      simp only
      have hw : t.written = false := by
        by_contra hw
        have := hti.2.2 (by simpa using hw)
        rw [htodo] at this
        cases this
      refine ⟨?_, ?_, ?_⟩
      · rw [map_set_same _ _ _ t _ ht]
        · exact h.1
        · rfl
      · intro t' ht'
        rcases List.mem_or_eq_of_mem_set ht' with h1 | rfl
        · exact h.2.1 t' h1
        · obtain ⟨h1, ⟨done, hd, ha⟩, h3⟩ := hti
          refine ⟨h1, ⟨done ++ [cell], ?_, ?_⟩, ?_⟩
          · simp only [Task.read]
            rw [hd, htodo]; simp
          · simp only [Task.read]
            rw [List.foldl_append, ← ha, addCell_same c h.part.1.symm h.part.2]
            rfl
          · simp [Task.read, hw]
      · rw [h.2.2]
        congr 1
        funext b
        unfold withWritten
        congr 1
        funext bl ch q
        rw [any_set _ _ _ t _ ht]
        rfl
    | nil =>
      simp only [resultOf_task hti htodo]
      refine ⟨?_, ?_, ?_⟩
      · rw [map_set_same _ _ _ t _ ht]
        · exact h.1
        · rfl
      · intro t' ht'
        rcases List.mem_or_eq_of_mem_set ht' with h1 | rfl
        · exact h.2.1 t' h1
        · obtain ⟨h1, h2, h3⟩ := hti
          rw [htodo] at h2
          exact ⟨h1, h2, fun _ => rfl⟩
      · rw [h.2.2]
        unfold writeSample
        rw [List.modify_modify_eq]
        simp only
        congr 1
        funext b
        simp only [Function.comp, Buffer.setData, withWritten]
        congr 1
        funext bl ch q
        rw [any_set_or (fun t : Task F V => t.written && decide (t.sample = (bl, ch, q)))
          (fun t' : Task F V => decide (t'.sample = (bl, ch, q))) _ _ t _ ht
          (by cases t.written <;> cases decide (t.sample = (bl, ch, q)) <;> simp)]
        by_cases hs : t.sample = (bl, ch, q)
        · simp [hs]
        · have : ¬ (bl = t.sample.1 ∧ ch = t.sample.2.1 ∧ q = t.sample.2.2) := by
            rintro ⟨rfl, rfl, rfl⟩; exact hs rfl
          simp [hs, this]

private theorem run_inv {c : Config F} {bufs : List (Buffer V)} {index : Nat}
    {samples : List Sample} (schedule : List Nat) : ∀ {p : Pool F V},
    PoolInv c bufs index samples p → PoolInv c bufs index samples (p.run c index schedule) := by
  induction schedule with
  | nil => intro p h; exact h
  | cons i l ih => intro p h; exact ih (step_inv h i)

private theorem start_inv (c : Config F) (bufs : List (Buffer V)) (index : Nat)
    (samples : List Sample) (b : Buffer V) (hb : bufs[index]? = some b)
    (hs : ∀ s ∈ samples, s ∈ workList c b) :
    PoolInv c bufs index samples ⟨bufs, samples.map (Task.start c bufs.length index)⟩ := by
  refine ⟨?_, ?_, ?_⟩
  · rw [List.map_map]
    conv_rhs => rw [← List.map_id samples]
    rfl
  · intro t ht
    obtain ⟨s, hs', rfl⟩ := List.mem_map.1 ht
    exact ⟨⟨b, hb, hs s hs'⟩, ⟨[], rfl, rfl⟩, by simp [Task.start]⟩
  · have : withWritten c bufs index (samples.map (Task.start c bufs.length index)) = id := by
      funext b
      simp [withWritten, Task.start, Function.comp_def]
    simp only [this, List.modify_id]

/-- C14.  The flagged samples of a time slot are handed to tasks in any order
(`samples`), and the tasks read cells and write results in any interleaving
(`schedule`).  When all have written their result, the buffers are those that
treating the samples one after the other gives. -/
theorem schedule_independent (c : Config F) (bufs : List (Buffer V)) (index : Nat) (b : Buffer V)
    (hb : bufs[index]? = some b) (samples : List Sample)
    (hs : ∀ s, s ∈ samples ↔ s ∈ workList c b) (schedule : List Nat)
    (hdone : ∀ t ∈ ((⟨bufs, samples.map (Task.start c bufs.length index)⟩ : Pool F V).run
      c index schedule).tasks, t.written = true) :
    interpolateTimestep c index bufs =
      some ((⟨bufs, samples.map (Task.start c bufs.length index)⟩ : Pool F V).run
        c index schedule).buffers := by
  have hinv := run_inv schedule (start_inv c bufs index samples b hb (fun s h => (hs s).1 h))
  have hidx := (List.getElem?_eq_some_iff.1 hb).1
  rw [interpolateTimestep_eq c bufs bufs 0 index hidx (part_self bufs) (Or.inr rfl)
    (Or.inr (by omega)) (by omega), hinv.2.2]
  congr 1
  apply List.ext_getElem?
  intro i
  rw [List.getElem?_modify, List.getElem?_modify]
  by_cases hi : index = i
  · subst hi
    rw [hb]
    simp only [if_true, Option.map_eq_map, Option.map_some, filled, withWritten, Nat.zero_add]
    congr 2
    funext bl ch q
    have hiff : ((((⟨bufs, samples.map (Task.start c bufs.length index)⟩ : Pool F V).run
        c index schedule).tasks.any fun t => t.written && decide (t.sample = (bl, ch, q))) = true) ↔
        ((bl < c.nBaselines ∧ ch < c.nChannels ∧ q < c.nPol) ∧ b.flag bl ch q = true) := by
      have hmap := hinv.1
      generalize (⟨bufs, samples.map (Task.start c bufs.length index)⟩ : Pool F V).run
        c index schedule = pp at *
      rw [← mem_workList (s := (bl, ch, q)), ← hs, ← hmap, List.any_eq_true, List.mem_map]
      constructor
      · rintro ⟨t, h1, h2⟩
        simp only [Bool.and_eq_true, decide_eq_true_eq] at h2
        exact ⟨t, h1, h2.2⟩
      · rintro ⟨t, h1, h2⟩
        exact ⟨t, h1, by simp [hdone t h1, h2]⟩
    simp only [hiff]
    rfl
  · simp [hi]

/-- Every schedule that gives each task enough steps lets it write its result: one
step per cell of its window and one to write. -/
theorem schedule_completes (c : Config F) (bufs : List (Buffer V)) (index : Nat) (b : Buffer V)
    (hb : bufs[index]? = some b) (samples : List Sample)
    (hs : ∀ s ∈ samples, s ∈ workList c b) (schedule : List Nat) (i : Nat) (t : Task F V)
    (ht : ((⟨bufs, samples.map (Task.start c bufs.length index)⟩ : Pool F V).run
      c index schedule).tasks[i]? = some t)
    (hcount : (cells c bufs.length index t.sample.2.1).length < schedule.count i) :
    t.written = true := by
  have key : ∀ (schedule : List Nat) (i : Nat) (t : Task F V),
      ((⟨bufs, samples.map (Task.start c bufs.length index)⟩ : Pool F V).run
        c index schedule).tasks[i]? = some t →
      t.todo.length = (cells c bufs.length index t.sample.2.1).length - schedule.count i ∧
      ((cells c bufs.length index t.sample.2.1).length < schedule.count i → t.written = true) := by
    intro schedule
    induction schedule using List.reverseRecOn with
    | nil =>
      intro i t ht
      simp only [Pool.run, List.foldl_nil, List.getElem?_map, Option.map_eq_some_iff] at ht
      obtain ⟨s, _, rfl⟩ := ht
      simp [Task.start]
    | append_singleton l j ih =>
      intro i t ht
      have hinv := run_inv l (start_inv c bufs index samples b hb hs)
      rw [Pool.run, List.foldl_append] at ht
      simp only [List.foldl_cons, List.foldl_nil] at ht
      rw [show List.foldl (Pool.step c index) (⟨bufs, samples.map (Task.start c bufs.length index)⟩ :
        Pool F V) l = (⟨bufs, samples.map (Task.start c bufs.length index)⟩ : Pool F V).run
          c index l from rfl] at ht
      generalize hp : (⟨bufs, samples.map (Task.start c bufs.length index)⟩ : Pool F V).run
        c index l = p at *
      unfold Pool.step at ht
      rw [List.count_append]
      cases hj : p.tasks[j]? with
      | none =>
        rw [hj] at ht
        simp only at ht
        have hij : i ≠ j := by rintro rfl; rw [hj] at ht; cases ht
        obtain ⟨h1, h2⟩ := ih i t ht
        simp [Ne.symm hij, h1]
        exact h2
      | some tj =>
        rw [hj] at ht
        simp only at ht
        have htj := hinv.2.1 tj (List.mem_of_getElem? hj)
        obtain ⟨hj1, hj2⟩ := ih j tj hj
        by_cases hij : j = i
        · subst hij
          have hlt : j < p.tasks.length := (List.getElem?_eq_some_iff.1 hj).1
          cases htodo : tj.todo with
          | cons cell rest =>
            rw [htodo] at ht hj1
            simp only [List.getElem?_set_self hlt, Option.some.injEq] at ht
            subst ht
            simp only [Task.read, List.count_singleton_self]
            simp only [List.length_cons] at hj1
            exact ⟨by omega, fun h => by omega⟩
          | nil =>
            rw [htodo] at ht hj1
            simp only [resultOf_task htj htodo, List.getElem?_set_self hlt, Option.some.injEq] at ht
            subst ht
            simp only [List.length_nil] at hj1
            simp only [List.length_nil, List.count_singleton_self]
            exact ⟨by omega, fun _ => trivial⟩
        · have hti : p.tasks[i]? = some t := by
            cases htodo : tj.todo with
            | cons cell rest =>
              rw [htodo] at ht
              simpa [List.getElem?_set_ne hij] using ht
            | nil =>
              rw [htodo] at ht
              simp only [resultOf_task htj htodo] at ht
              simpa [List.getElem?_set_ne hij] using ht
          obtain ⟨h1, h2⟩ := ih i t hti
          have h0 : List.count i [j] = 0 := by simp [hij]
          rw [h0, Nat.add_zero]
          exact ⟨h1, h2⟩
  exact (key schedule i t ht).2 hcount

/-- Two flagged samples, treated in reverse order by two tasks whose steps are
interleaved: both tasks finish, and the hypotheses above hold. -/
example :
    let c : Config Rat := ⟨1, fun d => if d = 0 then 4 else if d = 1 then 2 else 1, 1, 3, 1⟩
    let b : Buffer Rat := ⟨fun _ ch _ => some ch, fun _ ch _ => ch != 1⟩
    let p : Pool Rat Rat := (⟨[b], [(0, 2, 0), (0, 0, 0)].map (Task.start c 1 0)⟩ : Pool Rat Rat).run
      c 0 [0, 1, 0, 1, 0, 1]
    workList c b = [(0, 0, 0), (0, 2, 0)] ∧ p.tasks.map Task.written = [true, true] ∧
      p.buffers.map (fun b => (b.data 0 0 0, b.data 0 1 0, b.data 0 2 0)) =
        [(some 1, some 1, some 1)] := by
  decide +kernel

end DP3.Interpolate
