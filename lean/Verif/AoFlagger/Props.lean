import Verif.AoFlagger.Model
import Mathlib.Data.List.Basic
import Mathlib.Data.List.Induction
import Mathlib.Tactic.SplitIfs
import Mathlib.Tactic.Push

/-!
# Properties of the windows of the AOFlagger step (C101)
-/

namespace DP3.AoFlagger

set_option linter.unusedSectionVars false
set_option linter.unusedSimpArgs false

variable {D : Type}

/-- The number of full windows for `t` time slots, with windows of `n` slots and `m` overlap on both sides. -/
def nFull (n m t : Nat) : Nat := (t - 2 * m) / n

/-- The windows (start and length) for `t` time slots: full windows of n + 2m slots at multiples of n, and what
remains. -/
def windows (n m t : Nat) : List (Nat × Nat) :=
  (List.range (nFull n m t)).map (fun j => (j * n, n + 2 * m)) ++
    if nFull n m t * n < t then [(nFull n m t * n, t - nFull n m t * n)] else []

/-- The strategy flags a point in some of the windows. -/
def Hit (c : Config D) (slots : List (Slot D)) (ws : List (Nat × Nat)) (bl ch t : Nat) : Prop :=
  ∃ w ∈ ws, w.1 ≤ t ∧ t < w.1 + w.2 ∧
    c.strategy bl (((slots.drop w.1).take w.2).map (·.data)) (t - w.1) ch = true

private def hit (c : Config D) (slots : List (Slot D)) (ws : List (Nat × Nat)) (bl ch t : Nat) : Bool :=
  ws.any fun w => decide (w.1 ≤ t ∧ t < w.1 + w.2) &&
    c.strategy bl (((slots.drop w.1).take w.2).map (·.data)) (t - w.1) ch

private theorem hit_iff (c : Config D) (slots : List (Slot D)) (ws : List (Nat × Nat)) (bl ch t : Nat) :
    hit c slots ws bl ch t = true ↔ Hit c slots ws bl ch t := by
  simp [hit, Hit, List.any_eq_true, and_assoc]

/-- The slot as it is after the given windows. -/
private def after (c : Config D) (slots : List (Slot D)) (ws : List (Nat × Nat)) (p : Slot D × Nat) : Slot D :=
  { p.1 with flags := fun bl ch =>
      if c.active bl then newFlags (hit c slots ws bl ch p.2) (p.1.flags bl ch) else p.1.flags bl ch }

/-- Whether a point is newly flagged by the given windows. -/
private def isNew (c : Config D) (slots : List (Slot D)) (ws : List (Nat × Nat)) (bl ch : Nat) (p : Slot D × Nat) : Bool :=
  c.active bl && (!p.1.flags bl ch 0 && hit c slots ws bl ch p.2)

private theorem after_none (c : Config D) (slots : List (Slot D)) (ws : List (Nat × Nat)) (p : Slot D × Nat)
    (h : ∀ w ∈ ws, w.1 + w.2 ≤ p.2) : after c slots ws p = p.1 := by
  have : ∀ bl ch, hit c slots ws bl ch p.2 = false := by
    intro bl ch
    rw [Bool.eq_false_iff]
    intro hc
    obtain ⟨w, hw, -, h2, -⟩ := (hit_iff _ _ _ _ _ _).mp hc
    have := h w hw
    omega
  unfold after
  simp only [this, newFlags, Bool.and_false, Bool.false_eq_true, if_false, ite_self]

private theorem hit_append (c : Config D) (slots : List (Slot D)) (ws : List (Nat × Nat)) (w : Nat × Nat) (bl ch t : Nat) :
    hit c slots (ws ++ [w]) bl ch t = (hit c slots ws bl ch t || (decide (w.1 ≤ t ∧ t < w.1 + w.2) &&
      c.strategy bl (((slots.drop w.1).take w.2).map (·.data)) (t - w.1) ch)) := by
  simp [hit, List.any_append]

private theorem newFlags_twice (a b : Bool) (f : Nat → Bool) : newFlags b (newFlags a f) = newFlags (a || b) f := by
  unfold newFlags
  cases h : f 0 <;> cases a <;> cases b <;> simp [h]

private theorem zipIdx_map_zipIdx {X Y : Type} (l : List X) (f : X × Nat → Y) (e a : Nat) :
    ((l.zipIdx (e + a)).map f).zipIdx a = (l.zipIdx (e + a)).map fun p => (f p, p.2 - e) := by
  induction l generalizing a with
  | nil => rfl
  | cons x l ih =>
    rw [List.zipIdx_cons, List.map_cons, List.zipIdx_cons, List.map_cons, Nat.add_assoc, ih (a + 1)]
    congr 2
    omega

private theorem take_zipIdx {X : Type} (l : List X) (e n : Nat) : (l.zipIdx e).take n = (l.take n).zipIdx e := by
  induction l generalizing e n with
  | nil => simp
  | cons x l ih => cases n <;> simp [ih]

private theorem drop_zipIdx {X : Type} (l : List X) (e n : Nat) : (l.zipIdx e).drop n = (l.drop n).zipIdx (e + n) := by
  induction l generalizing e n with
  | nil => simp
  | cons x l ih =>
    cases n with
    | zero => simp
    | succ n => rw [List.zipIdx_cons, List.drop_succ_cons, ih, List.drop_succ_cons]; congr 1; omega

private theorem map_data (c : Config D) (slots : List (Slot D)) (ws : List (Nat × Nat)) (l : List (Slot D)) (e : Nat) :
    ((l.zipIdx e).map (after c slots ws)).map (·.data) = l.map (·.data) := by
  rw [List.map_map]
  have : ((fun s : Slot D => s.data) ∘ after c slots ws) = (fun s : Slot D => s.data) ∘ Prod.fst := by
    funext p; rfl
  rw [this, ← List.map_map, List.zipIdx_map_fst]

private theorem mem_zipIdx_range {X : Type} (l : List X) (e : Nat) (p : X × Nat) (h : p ∈ l.zipIdx e) :
    e ≤ p.2 ∧ p.2 < e + l.length := by
  have := List.mem_zipIdx (x := p.1) (i := p.2) (k := e) (by exact h)
  exact ⟨this.1, this.2.1⟩

/-- The new flags of the slots from `e` up to `k`. -/
private theorem flagSlots_after (c : Config D) (slots : List (Slot D)) (ws : List (Nat × Nat)) (e k : Nat)
    (l : List (Slot D)) (hl : l = (slots.drop e).take (k - e)) (hk : l.length = k - e) :
    flagSlots c ((l.zipIdx e).map (after c slots ws)) = (l.zipIdx e).map (after c slots (ws ++ [(e, k - e)])) := by
  unfold flagSlots
  rw [map_data]
  have := zipIdx_map_zipIdx l (after c slots ws) e 0
  rw [Nat.add_zero] at this
  rw [this, List.map_map]
  refine List.map_congr_left fun p hp => ?_
  obtain ⟨h1, h2⟩ := mem_zipIdx_range l e p hp
  simp only [Function.comp, flagSlot, after, hit_append]
  rw [decide_eq_true (show e ≤ p.2 ∧ p.2 < e + (k - e) by omega), ← hl]
  simp only [Bool.true_and]
  congr 1
  funext bl ch
  split
  · rw [newFlags_twice]
  · rfl

private theorem newCount_after (c : Config D) (slots : List (Slot D)) (ws : List (Nat × Nat)) (e k : Nat)
    (l : List (Slot D)) (hl : l = (slots.drop e).take (k - e)) (hk : l.length = k - e) (bl ch : Nat) :
    (l.zipIdx e).countP (isNew c slots (ws ++ [(e, k - e)]) bl ch) =
      (l.zipIdx e).countP (isNew c slots ws bl ch) + newCount c ((l.zipIdx e).map (after c slots ws)) bl ch := by
  unfold newCount
  rw [map_data]
  have := zipIdx_map_zipIdx l (after c slots ws) e 0
  rw [Nat.add_zero] at this
  rw [this, List.countP_map]
  have gen : ∀ L : List (Slot D × Nat), (∀ p ∈ L, e ≤ p.2 ∧ p.2 < k) →
      L.countP (isNew c slots (ws ++ [(e, k - e)]) bl ch) = L.countP (isNew c slots ws bl ch) +
        L.countP ((fun p : Slot D × Nat => counted c (l.map (·.data)) bl ch p.1 p.2) ∘
          fun p => (after c slots ws p, p.2 - e)) := by
    intro L
    induction L with
    | nil => intro _; rfl
    | cons p L ih =>
      intro h
      rw [List.countP_cons, List.countP_cons, List.countP_cons, ih fun q hq => h q (by simp [hq])]
      obtain ⟨h1, h2⟩ := h p (by simp)
      generalize L.countP (isNew c slots ws bl ch) = x1
      generalize List.countP _ L = x2
      simp only [isNew, Function.comp, counted, after, hit_append]
      rw [decide_eq_true (show e ≤ p.2 ∧ p.2 < e + (k - e) by omega), ← hl]
      by_cases ha : c.active bl = true
      rotate_left
      · simp [ha]
      · simp only [ha, if_true, Bool.true_and, newFlags]
        cases hf : p.1.flags bl ch 0 <;> cases hit c slots ws bl ch p.2 <;>
          cases c.strategy bl (l.map (·.data)) (p.2 - e) ch <;> simp [hf] <;> omega
  exact gen _ fun p hp => by have := mem_zipIdx_range l e p hp; omega

/-- What holds after `k` slots, with `j` full windows done. -/
private structure Inv (c : Config D) (slots : List (Slot D)) (k j : Nat) (s : State D) : Prop where
  le : j * c.window ≤ k
  low : 0 < j → j * c.window + 2 * c.overlap ≤ k
  high : k < (j + 1) * c.window + 2 * c.overlap
  out : s.out = ((slots.take (j * c.window)).zipIdx).map
    (after c slots ((List.range j).map fun i => (i * c.window, c.window + 2 * c.overlap)))
  buffer : s.buffer = (((slots.drop (j * c.window)).take (k - j * c.window)).zipIdx (j * c.window)).map
    (after c slots ((List.range j).map fun i => (i * c.window, c.window + 2 * c.overlap)))
  count : ∀ bl ch, s.count bl ch = ((slots.take k).zipIdx).countP
    (isNew c slots ((List.range j).map fun i => (i * c.window, c.window + 2 * c.overlap)) bl ch)

/-- The effect of `flag` on slots before and in the window. -/
private theorem flag_effect (c : Config D) (slots : List (Slot D)) (ws : List (Nat × Nat)) (e k : Nat) (he : e ≤ k)
    (hk : k ≤ slots.length) (s : State D)
    (hout : s.out = ((slots.take e).zipIdx).map (after c slots ws))
    (hbuf : s.buffer = (((slots.drop e).take (k - e)).zipIdx e).map (after c slots ws))
    (hcount : ∀ bl ch, s.count bl ch = ((slots.take k).zipIdx).countP (isNew c slots ws bl ch)) (w : Nat) :
    (flag c w s).out ++ (flag c w s).buffer = ((slots.take k).zipIdx).map (after c slots (ws ++ [(e, k - e)])) ∧
    ((flag c w s).out = s.out ++ ((((slots.drop e).take (k - e)).zipIdx e).map
      (after c slots (ws ++ [(e, k - e)]))).take w) ∧
    (flag c w s).buffer = ((((slots.drop e).take (k - e)).zipIdx e).map (after c slots (ws ++ [(e, k - e)]))).drop w ∧
    (s.out = ((slots.take e).zipIdx).map (after c slots (ws ++ [(e, k - e)]))) ∧
    ∀ bl ch, (flag c w s).count bl ch = ((slots.take k).zipIdx).countP (isNew c slots (ws ++ [(e, k - e)]) bl ch) := by
  have hlen : ((slots.drop e).take (k - e)).length = k - e := by simp; omega
  have hfl := flagSlots_after c slots ws e k _ rfl hlen
  have hnohit : ∀ p : Slot D × Nat, p.2 < e → ∀ bl ch,
      hit c slots (ws ++ [(e, k - e)]) bl ch p.2 = hit c slots ws bl ch p.2 := by
    intro p hp bl ch
    rw [hit_append, decide_eq_false (by omega)]
    simp
  have hout' : s.out = ((slots.take e).zipIdx).map (after c slots (ws ++ [(e, k - e)])) := by
    rw [hout]
    refine List.map_congr_left fun p hp => ?_
    have := mem_zipIdx_range _ _ p hp
    have hp2 : p.2 < e := by simp at this; omega
    unfold after
    simp only [hnohit p hp2]
  have hsplit : (slots.take k).zipIdx = (slots.take e).zipIdx ++ ((slots.drop e).take (k - e)).zipIdx e := by
    have : slots.take k = slots.take e ++ (slots.drop e).take (k - e) := by
      conv_lhs => rw [show k = e + (k - e) by omega]
      rw [List.take_add]
    rw [this, List.zipIdx_append]
    simp [Nat.min_eq_left (by omega : e ≤ slots.length)]
  refine ⟨?_, ?_, ?_, hout', fun bl ch => ?_⟩
  · simp only [flag]
    rw [List.append_assoc, List.take_append_drop, hbuf, hfl, hout', ← List.map_append, hsplit]
  · simp only [flag]; rw [hbuf, hfl]
  · simp only [flag]; rw [hbuf, hfl]
  · simp only [flag]
    rw [hcount, hbuf, hsplit, List.countP_append, List.countP_append, newCount_after c slots ws e k _ rfl hlen bl ch,
      Nat.add_assoc]
    congr 1
    refine List.countP_congr fun p hp => ?_
    have := mem_zipIdx_range _ _ p hp
    have hp2 : p.2 < e := by simp at this; omega
    simp only [isNew, hnohit p hp2]

private theorem inv_step (c : Config D) (slots : List (Slot D)) (k j : Nat) (s : State D) (slot : Slot D)
    (hw : 0 < c.window) (hk : slots[k]? = some slot) (h : Inv c slots k j s) :
    ∃ j', Inv c slots (k + 1) j' (process c s slot) := by
  obtain ⟨hlt, hget⟩ := List.getElem?_eq_some_iff.mp hk
  have hle := h.le
  have hend : ∀ w ∈ (List.range j).map fun i => (i * c.window, c.window + 2 * c.overlap), w.1 + w.2 ≤ k := by
    intro w hwm
    obtain ⟨i, hi, rfl⟩ := List.mem_map.mp hwm
    rw [List.mem_range] at hi
    have h1 : (i + 1) * c.window ≤ j * c.window := Nat.mul_le_mul_right _ hi
    rw [Nat.succ_mul] at h1
    have := h.low (by omega)
    show i * c.window + (c.window + 2 * c.overlap) ≤ k
    omega
  have hbuf : s.buffer ++ [slot] = (((slots.drop (j * c.window)).take (k + 1 - j * c.window)).zipIdx (j * c.window)).map
      (after c slots ((List.range j).map fun i => (i * c.window, c.window + 2 * c.overlap))) := by
    rw [show k + 1 - j * c.window = (k - j * c.window) + 1 by omega, List.take_add_one, List.getElem?_drop,
      show j * c.window + (k - j * c.window) = k by omega, hk, Option.toList_some, List.zipIdx_append, List.map_append,
      ← h.buffer]
    congr 1
    have hl : ((slots.drop (j * c.window)).take (k - j * c.window)).length = k - j * c.window := by simp; omega
    rw [hl]
    simp only [List.zipIdx_cons, List.zipIdx_nil, List.map_cons, List.map_nil]
    rw [after_none]
    intro w hwm
    have := hend w hwm
    show _ ≤ j * c.window + (k - j * c.window)
    omega
  have hcount : ∀ bl ch, s.count bl ch = ((slots.take (k + 1)).zipIdx).countP
      (isNew c slots ((List.range j).map fun i => (i * c.window, c.window + 2 * c.overlap)) bl ch) := by
    intro bl ch
    rw [h.count, List.take_add_one, hk, Option.toList_some, List.zipIdx_append, List.countP_append]
    have : hit c slots ((List.range j).map fun i => (i * c.window, c.window + 2 * c.overlap)) bl ch
        (0 + (slots.take k).length) = false := by
      rw [Bool.eq_false_iff]
      intro hc
      obtain ⟨w, hwm, -, h2, -⟩ := (hit_iff _ _ _ _ _ _).mp hc
      have := hend w hwm
      simp at h2
      omega
    simp only [List.zipIdx_cons, List.zipIdx_nil, List.countP_cons, List.countP_nil, isNew, this]
    simp
  have hblen : (s.buffer ++ [slot]).length = k + 1 - j * c.window := by
    rw [hbuf]; simp; omega
  unfold process
  simp only
  split
  · rename_i hfull
    rw [hblen] at hfull
    obtain ⟨-, h2, h3, h4, h5⟩ := flag_effect c slots _ (j * c.window) (k + 1) (by omega) (by omega)
      { s with buffer := s.buffer ++ [slot] } h.out hbuf hcount c.window
    have hws : ((List.range j).map fun i => (i * c.window, c.window + 2 * c.overlap)) ++
        [(j * c.window, k + 1 - j * c.window)] =
        (List.range (j + 1)).map fun i => (i * c.window, c.window + 2 * c.overlap) := by
      rw [List.range_succ, List.map_append, hfull]; rfl
    rw [hws] at h2 h3 h4 h5
    have hmul : (j + 1) * c.window = j * c.window + c.window := Nat.succ_mul _ _
    refine ⟨j + 1, ⟨by omega, fun _ => by omega, by rw [Nat.succ_mul (j + 1)]; omega, ?_, ?_, h5⟩⟩
    · rw [h2, h4]
      rw [← List.map_take, ← List.map_append]
      congr 1
      rw [hmul, List.take_add, List.zipIdx_append]
      congr 1
      rw [take_zipIdx, List.take_take]
      congr 2
      · omega
      · simp; omega
    · rw [h3, ← List.map_drop]
      congr 1
      rw [drop_zipIdx, List.drop_take, List.drop_drop, hmul]
      congr 1
      congr 1
      omega
  · rename_i hnot
    rw [hblen] at hnot
    have hh := h.high
    rw [Nat.succ_mul] at hh
    exact ⟨j, ⟨by omega, fun hj => by have := h.low hj; omega, by rw [Nat.succ_mul]; omega, h.out, hbuf, hcount⟩⟩

/-- C101. The next step gets every time slot once and in order. Its data are those of the input, and a point gets
all four flags iff its first correlation was not flagged, its baseline is used and the strategy flags it in one of the
windows; all other flags stay. The flag counts are the numbers of the points that are flagged newly. -/
theorem run_spec (c : Config D) (hw : 0 < c.window) (slots : List (Slot D)) :
    (run c slots).out.length = slots.length ∧
    (∀ (t : Nat) (slot : Slot D), slots[t]? = some slot → ∃ o, (run c slots).out[t]? = some o ∧ o.data = slot.data ∧
      ∀ bl ch, ((c.active bl = true ∧ slot.flags bl ch 0 = false ∧
            Hit c slots (windows c.window c.overlap slots.length) bl ch t) → ∀ corr, o.flags bl ch corr = true) ∧
        (¬ (c.active bl = true ∧ slot.flags bl ch 0 = false ∧
            Hit c slots (windows c.window c.overlap slots.length) bl ch t) →
          o.flags bl ch = slot.flags bl ch)) ∧
    ∀ bl ch, (run c slots).count bl ch = (List.range slots.length).countP fun t =>
      match slots[t]?, (run c slots).out[t]? with
      | some slot, some o => !slot.flags bl ch 0 && o.flags bl ch 0
      | _, _ => false := by
  have hinv : ∀ k, k ≤ slots.length → ∃ j, Inv c slots k j ((slots.take k).foldl (process c) initial) := by
    intro k
    induction k with
    | zero =>
      intro _
      exact ⟨0, ⟨by omega, by omega, by omega, by simp [initial], by simp [initial], by simp [initial]⟩⟩
    | succ k ih =>
      intro hk
      obtain ⟨j, hj⟩ := ih (by omega)
      have hget : slots[k]? = some slots[k] := List.getElem?_eq_getElem (by omega)
      rw [List.take_add_one, hget, Option.toList_some, List.foldl_append, List.foldl_cons, List.foldl_nil]
      exact inv_step c slots k j _ _ hw hget hj
  obtain ⟨j, hj⟩ := hinv slots.length (Nat.le_refl _)
  rw [List.take_length] at hj
  set s := slots.foldl (process c) initial with hs
  have hjfull : j = nFull c.window c.overlap slots.length := by
    unfold nFull
    symm
    have h1 := hj.low
    have h2 := hj.high
    rcases Nat.eq_zero_or_pos j with h0 | h0
    · subst h0
      rw [Nat.div_eq_of_lt]
      omega
    · have := h1 h0
      apply Nat.div_eq_of_lt_le
      · omega
      · omega
  have key : (run c slots).out = (slots.zipIdx).map (after c slots (windows c.window c.overlap slots.length)) ∧
      ∀ bl ch, (run c slots).count bl ch =
        (slots.zipIdx).countP (isNew c slots (windows c.window c.overlap slots.length) bl ch) := by
    have hle := hj.le
    have hblen : s.buffer.length = slots.length - j * c.window := by rw [hj.buffer]; simp
    unfold run finish windows
    rw [← hs, ← hjfull, hblen]
    by_cases hpos : j * c.window < slots.length
    · rw [if_pos (by omega), if_pos hpos]
      obtain ⟨h1, -, h3, -, h5⟩ := flag_effect c slots _ (j * c.window) slots.length hle (Nat.le_refl _) s hj.out
        hj.buffer hj.count (slots.length - j * c.window)
      rw [List.take_length] at h1 h5
      refine ⟨?_, h5⟩
      have : (flag c (slots.length - j * c.window) s).buffer = [] := by
        rw [h3]
        apply List.drop_eq_nil_of_le
        simp
      rw [this, List.append_nil] at h1
      exact h1
    · rw [if_neg (by omega), if_neg hpos, List.append_nil]
      have he : j * c.window = slots.length := by omega
      refine ⟨?_, fun bl ch => ?_⟩
      · rw [hj.out, he, List.take_length]
      · rw [hj.count, List.take_length]
  obtain ⟨hout, hcount⟩ := key
  have hget : ∀ (t : Nat) (slot : Slot D), slots[t]? = some slot → (run c slots).out[t]? =
      some (after c slots (windows c.window c.overlap slots.length) (slot, t)) := by
    intro t slot ht
    rw [hout, List.getElem?_map, List.getElem?_zipIdx, ht]
    simp
  refine ⟨by rw [hout]; simp, fun t slot ht => ?_, fun bl ch => ?_⟩
  · refine ⟨_, hget t slot ht, rfl, fun bl ch => ⟨?_, ?_⟩⟩
    · rintro ⟨h1, h2, h3⟩ corr
      simp only [after, if_pos h1, newFlags, h2, (hit_iff _ _ _ _ _ _).mpr h3, Bool.not_false, Bool.and_self, if_true]
    · intro hn
      simp only [after, newFlags]
      split
      · rename_i h1
        split
        · rename_i h2
          simp only [Bool.and_eq_true, Bool.not_eq_true'] at h2
          exact absurd ⟨h1, h2.1, (hit_iff _ _ _ _ _ _).mp h2.2⟩ hn
        · rfl
      · rfl
  · rw [hcount]
    have gen : ∀ (l : List (Slot D)) (k : Nat) (P : Slot D × Nat → Bool) (Q : Nat → Bool),
        (∀ (i : Nat) (x : Slot D), l[i]? = some x → P (x, k + i) = Q (k + i)) →
        (l.zipIdx k).countP P = ((List.range' k l.length).countP Q) := by
      intro l
      induction l with
      | nil => intro k P Q _; rfl
      | cons x l ih =>
        intro k P Q h
        rw [List.zipIdx_cons, List.length_cons, List.range'_succ, List.countP_cons, List.countP_cons,
          ih (k + 1) P Q fun i y hy => by
            have := h (i + 1) y (by simpa using hy)
            rw [show k + 1 + i = k + (i + 1) by omega]; exact this]
        have := h 0 x (by simp)
        rw [Nat.add_zero] at this
        rw [this]
    rw [List.range_eq_range']
    apply gen
    intro i x hx
    rw [Nat.zero_add]
    simp only [hx, hget i x hx]
    simp only [isNew, after, newFlags]
    cases c.active bl <;> cases hf : x.flags bl ch 0 <;>
      cases hit c slots (windows c.window c.overlap slots.length) bl ch i <;> simp [hf]

private theorem samples_step (c : Config D) (hw : 0 < c.window) (slots : List (Slot D)) :
    let s := slots.foldl (process c) initial
    s.buffer.length + s.out.length = slots.length ∧ s.buffer.length < c.window + 2 * c.overlap ∧
      ∃ j, s.out.length = j * c.window ∧ s.samples = j * (c.window + 2 * c.overlap) ∧ (0 < j → 2 * c.overlap ≤ s.buffer.length) := by
  induction slots using List.reverseRecOn with
  | nil => exact ⟨rfl, by simp [initial]; omega, 0, by simp [initial], by simp [initial], by simp⟩
  | append_singleton l x ih =>
    simp only [List.foldl_append, List.foldl_cons, List.foldl_nil, List.length_append, List.length_singleton]
    obtain ⟨h1, h2, j, h3, h4, h5⟩ := ih
    generalize l.foldl (process c) initial = s at *
    unfold process
    simp only
    split
    · rename_i hf
      simp only [List.length_append, List.length_singleton] at hf
      have hl : (flagSlots c (s.buffer ++ [x])).length = s.buffer.length + 1 := by simp [flagSlots]
      simp only [flag, List.length_append, List.length_take, List.length_drop, hl, List.length_singleton]
      refine ⟨by omega, by omega, j + 1, by rw [Nat.succ_mul]; omega, by rw [Nat.succ_mul]; omega, fun _ => by omega⟩
    · rename_i hf
      simp only [List.length_append, List.length_singleton] at hf ⊢
      exact ⟨by omega, by omega, j, h3, h4, fun h => by have := h5 h; omega⟩

/-- C101. The quality statistics of a baseline are taken over the overlaps again for each window: they count
2m slots too many for every full window that is not the last. -/
theorem samples_spec (c : Config D) (hw : 0 < c.window) (slots : List (Slot D)) :
    (run c slots).samples = ((windows c.window c.overlap slots.length).map Prod.snd).sum ∧
    (run c slots).samples = slots.length + nFull c.window c.overlap slots.length * (2 * c.overlap) := by
  obtain ⟨h1, h2, j, h3, h4, h5⟩ := samples_step c hw slots
  have hjn : j = nFull c.window c.overlap slots.length := by
    unfold nFull
    symm
    rcases Nat.eq_zero_or_pos j with h0 | h0
    · subst h0
      rw [Nat.div_eq_of_lt]
      omega
    · have := h5 h0
      apply Nat.div_eq_of_lt_le
      · omega
      · rw [Nat.add_mul]; omega
  have hsum : (((List.range j).map fun i => (i * c.window, c.window + 2 * c.overlap)).map Prod.snd).sum =
      j * (c.window + 2 * c.overlap) := by
    rw [List.map_map]
    have : (Prod.snd ∘ fun i : Nat => (i * c.window, c.window + 2 * c.overlap)) =
        fun _ => c.window + 2 * c.overlap := rfl
    rw [this]
    simp
  have hrun : (run c slots).samples = j * (c.window + 2 * c.overlap) + (slots.length - j * c.window) := by
    unfold run finish
    split
    · simp only [flag]; omega
    · omega
  rw [hrun]
  refine ⟨?_, ?_⟩
  · unfold windows
    rw [← hjn, List.map_append, List.sum_append, hsum]
    congr 1
    split
    · simp
    · simp; omega
  · rw [← hjn, Nat.mul_add]
    have : j * c.window ≤ slots.length := by omega
    omega

/-- C101. All slots are in some window, windows start at multiples of the window size, and no window has more slots
than fit in the buffer. -/
theorem windows_spec (n m t : Nat) (hn : 0 < n) :
    (∀ i < t, ∃ w ∈ windows n m t, w.1 ≤ i ∧ i < w.1 + w.2) ∧
    ∀ w ∈ windows n m t, n ∣ w.1 ∧ 0 < w.2 ∧ w.2 ≤ n + 2 * m ∧ w.1 + w.2 ≤ t ∧
      (w.2 = n + 2 * m ∨ w.1 + w.2 = t) := by
  have hfull : nFull n m t * n ≤ t - 2 * m := by unfold nFull; exact Nat.div_mul_le_self _ _
  have hrest : t - 2 * m < (nFull n m t + 1) * n := by
    unfold nFull; rw [Nat.add_mul, Nat.one_mul]; exact Nat.lt_div_mul_add hn
  rw [Nat.add_mul, Nat.one_mul] at hrest
  constructor
  · intro i hi
    by_cases h : i < nFull n m t * n
    · refine ⟨(i / n * n, n + 2 * m), ?_, ?_, ?_⟩
      · unfold windows
        rw [List.mem_append]
        refine .inl (List.mem_map.mpr ⟨i / n, List.mem_range.mpr ?_, rfl⟩)
        exact (Nat.div_lt_iff_lt_mul hn).mpr h
      · exact Nat.div_mul_le_self _ _
      · show i < i / n * n + (n + 2 * m)
        have := Nat.lt_div_mul_add hn (a := i)
        omega
    · refine ⟨(nFull n m t * n, t - nFull n m t * n), ?_, by show _ ≤ i; omega, by show i < _ + _; omega⟩
      unfold windows
      rw [List.mem_append, if_pos (by omega)]
      exact .inr (List.mem_singleton.mpr rfl)
  · intro w hw
    unfold windows at hw
    rw [List.mem_append] at hw
    rcases hw with hw | hw
    · obtain ⟨j, hj, rfl⟩ := List.mem_map.mp hw
      rw [List.mem_range] at hj
      have h1 : (j + 1) * n ≤ nFull n m t * n := Nat.mul_le_mul_right _ hj
      rw [Nat.succ_mul] at h1
      exact ⟨Nat.dvd_mul_left _ _, by show 0 < n + 2 * m; omega, Nat.le_refl _, by show j * n + (n + 2 * m) ≤ t; omega,
        .inl rfl⟩
    · split at hw
      · rw [List.mem_singleton] at hw
        subst hw
        exact ⟨Nat.dvd_mul_left _ _, by show 0 < t - _; omega, by show t - _ ≤ _; omega, by show _ + (t - _) ≤ t; omega,
          .inr (by show _ + (t - _) = t; omega)⟩
      · simp at hw

/-! ## Examples -/

/-- One baseline; the strategy flags values above twice the mean of the window. -/
private def exConfig : Config Nat where
  window := 2
  overlap := 1
  active := fun _ => true
  strategy := fun _ datas t _ => decide (2 * datas.sum < (datas.getD t 0) * datas.length)

private def exSlots : List (Slot Nat) := [1, 1, 1, 9, 40, 1, 1].map fun d => ⟨d, fun _ _ _ => false⟩

/-- Of `run_spec`, `windows_spec` and `samples_spec`: the windows are [1, 1, 1, 9], [1, 9, 40, 1] and [40, 1, 1]; the 9 is only
flagged in the first of them. -/
example : ((run exConfig exSlots).out.map fun s => (s.data, s.flags 0 0 0)) =
      [(1, false), (1, false), (1, false), (9, true), (40, true), (1, false), (1, false)] ∧
    (run exConfig exSlots).count 0 0 = 2 ∧ (run exConfig exSlots).samples = 11 ∧ windows 2 1 7 = [(0, 4), (2, 4), (4, 3)] := by
  decide

end DP3.AoFlagger
