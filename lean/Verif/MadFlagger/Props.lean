import Verif.MadFlagger.WindowProps
import Mathlib.Data.List.Sort
import Mathlib.Algebra.Field.Rat
import Mathlib.Algebra.Order.Ring.Rat
import Mathlib.Tactic.NormNum

/-!
# Properties of the flagging of the MADFlagger (C30, C63, C64, C65)
-/

namespace DP3.MadFlagger

set_option linter.unusedSectionVars false

/-- **C30.**  A baseline with a smaller time window uses the first time entries only: those are the
time slots within half of its own window. -/
theorem offsets_take (h k : Nat) (hk : k ≤ h) : (offsets h).take (2 * k + 1) = offsets k := by
  have hl : ∀ n : Nat, ((List.range n).flatMap fun (k : Nat) =>
      [-((k : Int) + 1), (k : Int) + 1]).length = 2 * n := by
    intro n
    induction n with
    | zero => rfl
    | succ n ih => rw [List.range_succ, List.flatMap_append, List.length_append, ih]; simp; omega
  rw [offsets, offsets, List.take_succ_cons]
  congr 1
  obtain ⟨d, rfl⟩ := Nat.exists_eq_add_of_le hk
  rw [List.range_add, List.flatMap_append, List.take_append_of_le_length (by rw [hl]),
    List.take_of_length_le (by rw [hl])]

example : offsets 3 = [0, -1, 1, -2, 2, -3, 3] ∧ (offsets 3).take 3 = [0, -1, 1] := by decide

section

variable {F : Type} [Field F] [LinearOrder F]

/-- What the C++ standard says about `std::nth_element`: the vector is reordered such that nothing
before position `k` is larger, and nothing after it smaller, than the element at `k`. -/
def NthContract (nth : List F → Nat → List F) : Prop :=
  ∀ (v : List F) (k : Nat), k < v.length →
    (nth v k).Perm v ∧
    (∀ x ∈ (nth v k).take k, x ≤ (nth v k).getD k 0) ∧
    (∀ x ∈ (nth v k).drop (k + 1), (nth v k).getD k 0 ≤ x)

/-- The median: the middle of the sorted values, or the mean of the two in the middle. -/
def medianOf (v : List F) : F :=
  let s := v.insertionSort (· ≤ ·)
  if v.length % 2 = 1 then s.getD (v.length / 2) 0
  else (s.getD (v.length / 2) 0 + s.getD (v.length / 2 - 1) 0) / 2

private theorem sort_eq_of_perm {v w : List F} (h : v.Perm w) :
    v.insertionSort (· ≤ ·) = w.insertionSort (· ≤ ·) := by
  apply List.Perm.eq_of_pairwise (le := (· ≤ ·))
  · intro a b _ _ h1 h2; exact le_antisymm h1 h2
  · exact List.pairwise_insertionSort _ _
  · exact List.pairwise_insertionSort _ _
  · exact (List.perm_insertionSort _ v).trans (h.trans (List.perm_insertionSort _ w).symm)

private theorem medianOf_perm {v w : List F} (h : v.Perm w) : medianOf v = medianOf w := by
  unfold medianOf
  rw [sort_eq_of_perm h, h.length_eq]

private theorem nth_order (nth : List F → Nat → List F) (hnth : NthContract nth) (v : List F)
    (k : Nat) (hk : k < v.length) :
    (nth v k).getD k 0 = (v.insertionSort (· ≤ ·)).getD k 0 := by
  obtain ⟨hp, h1, h2⟩ := hnth v k hk
  rw [← sort_eq_of_perm hp]
  have hkw : k < (nth v k).length := by rw [hp.length_eq]; exact hk
  generalize nth v k = w at *
  have hx : w.getD k 0 = w[k] := by simp [List.getElem?_eq_getElem hkw]
  rw [hx] at h1 h2 ⊢
  have hsplit : w = w.take k ++ w[k] :: w.drop (k + 1) := by simp
  have hsort : w.insertionSort (· ≤ ·) =
      (w.take k).insertionSort (· ≤ ·) ++ w[k] :: (w.drop (k + 1)).insertionSort (· ≤ ·) := by
    apply List.Perm.eq_of_pairwise (le := (· ≤ ·))
    · intro a b _ _ h1 h2; exact le_antisymm h1 h2
    · exact List.pairwise_insertionSort _ _
    · rw [List.pairwise_append]
      refine ⟨List.pairwise_insertionSort _ _, ?_, ?_⟩
      · rw [List.pairwise_cons]
        refine ⟨?_, List.pairwise_insertionSort _ _⟩
        intro a ha
        exact h2 a ((List.perm_insertionSort _ _).mem_iff.1 ha)
      · intro a ha b hb
        have ha' := h1 a ((List.perm_insertionSort _ _).mem_iff.1 ha)
        rcases List.mem_cons.1 hb with rfl | hb
        · exact ha'
        · exact le_trans ha' (h2 b ((List.perm_insertionSort _ _).mem_iff.1 hb))
    · refine (List.perm_insertionSort _ w).trans ?_
      conv_lhs => rw [hsplit]
      exact (List.perm_insertionSort _ _).symm.append
        ((List.perm_insertionSort _ _).symm.cons _)
  rw [hsort, List.getD_eq_getElem?_getD, List.getElem?_append_right]
  · simp [hkw.le]
  · simp [hkw.le]

/-! ## C64 -/

/-- **C64, partial.**  For an odd number of values `Median` returns their median, and only reorders
the vector, whatever order `nth_element` gives the other elements; without values it returns 0.
Missing: an even number of values, for which the result can be different (`median_even`). -/
theorem median_partial (nth : List F → Nat → List F) (hnth : NthContract nth) (v : List F) :
    (v = [] → (median nth v).1 = 0) ∧
    (v.length % 2 = 1 → (median nth v).1 = medianOf v) ∧ (median nth v).2.Perm v := by
  refine ⟨fun h => by rw [h]; rfl, ?_, ?_⟩
  · intro hodd
    have hne : ¬ v.isEmpty = true := by
      intro h; rw [List.isEmpty_iff.1 h] at hodd; simp at hodd
    rw [median, if_neg hne]
    simp only [if_pos hodd, medianOf]
    exact nth_order nth hnth v _ (by omega)
  · rw [median]
    by_cases hne : v.isEmpty = true
    · rw [if_pos hne]
    · rw [if_neg hne]
      have hpos : 0 < v.length := by
        cases v with
        | nil => simp at hne
        | cons a l => simp
      have h1 := (hnth v (v.length / 2) (by omega)).1
      simp only
      split_ifs
      · exact h1
      · have h2 := (hnth (nth v (v.length / 2)) (v.length / 2 - 1)
          (by rw [h1.length_eq]; omega)).1
        exact h2.trans h1

/-- An `nth_element` that sorts everything. -/
def nthSort (v : List F) (_ : Nat) : List F := v.insertionSort (· ≤ ·)

/-- An `nth_element` that leaves the elements after the wanted one in descending order. -/
def nthDescend (v : List F) (k : Nat) : List F :=
  let s := v.insertionSort (· ≤ ·)
  s.take (k + 1) ++ (s.drop (k + 1)).reverse

private theorem sorted_contract (v : List F) (k : Nat) (hk : k < v.length) :
    (∀ x ∈ (v.insertionSort (· ≤ ·)).take k, x ≤ (v.insertionSort (· ≤ ·)).getD k 0) ∧
    (∀ x ∈ (v.insertionSort (· ≤ ·)).drop (k + 1), (v.insertionSort (· ≤ ·)).getD k 0 ≤ x) := by
  have hs : (v.insertionSort (· ≤ ·)).Pairwise (· ≤ ·) := List.pairwise_insertionSort _ _
  have hl : k < (v.insertionSort (· ≤ ·)).length := by
    rw [(List.perm_insertionSort (· ≤ ·) v).length_eq]; exact hk
  generalize v.insertionSort (· ≤ ·) = s at hs hl
  have hx : s.getD k 0 = s[k] := by simp [List.getElem?_eq_getElem hl]
  have hsplit : s = s.take k ++ s[k] :: s.drop (k + 1) := by simp
  rw [hx]
  rw [hsplit, List.pairwise_append, List.pairwise_cons] at hs
  exact ⟨fun x hx => hs.2.2 x hx _ List.mem_cons_self, fun x hx => hs.2.1.1 x hx⟩

theorem nthSort_contract : NthContract (nthSort (F := F)) := fun v k hk =>
  ⟨List.perm_insertionSort _ v, sorted_contract v k hk⟩

theorem nthDescend_contract : NthContract (nthDescend (F := F)) := by
  intro v k hk
  have hl : k < (v.insertionSort (· ≤ ·)).length := by
    rw [(List.perm_insertionSort (· ≤ ·) v).length_eq]; exact hk
  have hp : (nthDescend v k).Perm (v.insertionSort (· ≤ ·)) := by
    unfold nthDescend
    conv_rhs => rw [← List.take_append_drop (k + 1) (v.insertionSort (· ≤ ·))]
    exact (List.reverse_perm _).append_left _
  obtain ⟨h1, h2⟩ := sorted_contract v k hk
  have hget : (nthDescend v k).getD k 0 = (v.insertionSort (· ≤ ·)).getD k 0 := by
    unfold nthDescend
    simp only [List.getD_eq_getElem?_getD]
    rw [List.getElem?_append_left (by rw [List.length_take]; omega), List.getElem?_take,
      if_pos (by omega)]
  have hlen : ((v.insertionSort (· ≤ ·)).take (k + 1)).length = k + 1 := by
    rw [List.length_take]; omega
  refine ⟨hp.trans (List.perm_insertionSort _ v), ?_, ?_⟩
  · rw [hget]
    unfold nthDescend
    simp only
    rw [List.take_append_of_le_length (by rw [hlen]; omega), List.take_take,
      show min k (k + 1) = k by omega]
    exact h1
  · rw [hget]
    unfold nthDescend
    simp only
    rw [List.drop_append_of_le_length (by rw [hlen]), List.drop_of_length_le (by rw [hlen]),
      List.nil_append]
    intro x hx
    exact h2 x (List.mem_reverse.1 hx)

end

example : (median nthDescend ([3, 1, 2] : List ℚ)).1 = 2 := by decide +kernel

/-- **C64 fails for an even number of values.**  The second `nth_element` may move the element that
the first one has put in place, so that the result is not the median. -/
theorem median_even :
    NthContract (nthDescend (F := ℚ)) ∧
    (median nthDescend ([4, 2, 1, 3] : List ℚ)).1 = 3 ∧
    medianOf ([4, 2, 1, 3] : List ℚ) = 5 / 2 :=
  ⟨nthDescend_contract, by decide +kernel, by decide +kernel⟩

/-! ## C63 -/

section

variable {F : Type} [Field F] [LinearOrder F]

/-- Median and median absolute difference decide on flagging. -/
def Exceeds (mad threshold : F) (values : List F) (x : F) : Prop :=
  x > medianOf values +
    threshold * medianOf (values.map fun (y : F) => |y - medianOf values|) * mad

private theorem factors_full (nth : List F → Nat → List F) (hnth : NthContract nth)
    (temp values : List F) (hlen : values.length = temp.length) (hodd : values.length % 2 = 1) :
    (factors nth temp values).1 = medianOf values ∧
    (factors nth temp values).2.1 =
      medianOf (values.map fun (y : F) => |y - medianOf values|) ∧
    (factors nth temp values).2.2.length = temp.length := by
  have hne : ¬ values.isEmpty = true := by
    intro h; rw [List.isEmpty_iff.1 h] at hodd; simp at hodd
  have ht0 : values ++ temp.drop values.length = values := by
    rw [List.drop_of_length_le (by omega), List.append_nil]
  obtain ⟨_, hm, hp⟩ := median_partial nth hnth values
  have hm := hm hodd
  have hmap : ((median nth values).2.mapIdx fun i x =>
      if i < values.length then |x - (median nth values).1| else x) =
      (median nth values).2.map fun (y : F) => |y - medianOf values| := by
    apply List.ext_getElem
    · simp
    · intro i h1 h2
      have : i < values.length := by
        rw [List.length_mapIdx, hp.length_eq] at h1; exact h1
      simp [this, hm]
  have hpm := hp.map fun (y : F) => |y - medianOf values|
  obtain ⟨_, gm, gp⟩ := median_partial nth hnth
    ((median nth values).2.map fun (y : F) => |y - medianOf values|)
  have gm := gm (by rw [hpm.length_eq, List.length_map]; exact hodd)
  refine ⟨?_, ?_, ?_⟩
  · rw [factors, if_neg hne]; simp only [ht0, hm]
  · rw [factors, if_neg hne]
    simp only [ht0, hmap, gm]
    exact medianOf_perm hpm
  · rw [factors, if_neg hne]
    simp only [ht0, hmap]
    rw [gp.length_eq, hpm.length_eq, List.length_map, hlen]

/-- **C63, partial.**  If the window of every tested correlation is completely unflagged and of the
maximum size, a channel is flagged if and only if a tested correlation is flagged already or its
amplitude exceeds the median of the amplitudes in its window by more than the threshold times the
median absolute difference (times the constant `mad`), whatever was computed before and whatever
order `nth_element` gives the elements.  Missing: windows with flagged samples or of less than the
maximum size, for which the result depends on earlier computations (`stale_median`). -/
theorem flag_partial (nth : List F → Nat → List F) (hnth : NthContract nth) (mad threshold : F)
    (slot : Slot F) (slots : List (Slot F)) (bl : Nat) (chan : Int) (chans : List Int) :
    ∀ (corrs : List Nat) (temp : List F), temp.length % 2 = 1 →
      (∀ ip ∈ corrs, (windowValues slots bl chans ip).length = temp.length) →
      ((flagChannel nth mad threshold slot slots bl chan chans corrs temp).1 = true ↔
        ∃ ip ∈ corrs, slot.flag bl chan ip = true ∨
          Exceeds mad threshold (windowValues slots bl chans ip) (slot.ampl bl chan ip))
  | [], temp, _, _ => by simp [flagChannel]
  | ip :: rest, temp, hodd, h => by
    have hip := h ip (by simp)
    obtain ⟨h1, h2, h3⟩ := factors_full nth hnth temp (windowValues slots bl chans ip) hip
      (by rw [hip]; exact hodd)
    have ih := flag_partial nth hnth mad threshold slot slots bl chan chans rest
      (factors nth temp (windowValues slots bl chans ip)).2.2 (by rw [h3]; exact hodd)
      (fun x hx => by rw [h3]; exact h x (List.mem_cons_of_mem _ hx))
    rw [flagChannel]
    by_cases hf : slot.flag bl chan ip = true
    · rw [if_pos hf]
      exact ⟨fun _ => ⟨ip, by simp, Or.inl hf⟩, fun _ => rfl⟩
    · rw [if_neg hf]
      simp only
      rw [h1, h2]
      by_cases hx : slot.ampl bl chan ip > medianOf (windowValues slots bl chans ip) +
          threshold * medianOf ((windowValues slots bl chans ip).map fun (y : F) =>
            |y - medianOf (windowValues slots bl chans ip)|) * mad
      · rw [if_pos hx]
        exact ⟨fun _ => ⟨ip, by simp, Or.inr hx⟩, fun _ => rfl⟩
      · rw [if_neg hx, ih]
        constructor
        · rintro ⟨x, hx1, hx2⟩
          exact ⟨x, List.mem_cons_of_mem _ hx1, hx2⟩
        · rintro ⟨x, hx1, hx2⟩
          rcases List.mem_cons.1 hx1 with rfl | hx1
          · rcases hx2 with hx2 | hx2
            · exact absurd hx2 hf
            · exact absurd hx2 hx
          · exact ⟨x, hx1, hx2⟩

end

/-- One slot, three channels with amplitudes 1, 2 and 9, without flags. -/
def spike : Slot ℚ where
  ampl := fun _ c _ => if c = 0 then 1 else if c = 1 then 2 else 9
  flag := fun _ _ _ => false

example : (flagChannel nthDescend 1 1 spike [spike] 0 2 [0, 1, 2] [0] [7, 7, 7]).1 = true ∧
    (flagChannel nthDescend 1 1 spike [spike] 0 1 [0, 1, 2] [0] [7, 7, 7]).1 = false ∧
    (windowValues [spike] 0 [0, 1, 2] 0).length = 3 := by decide +kernel

/-- As `spike`, but with the last two channels flagged. -/
def flaggedTail : Slot ℚ where
  ampl := fun _ c _ => if c = 0 then 1 else if c = 1 then 2 else 9
  flag := fun _ c _ => decide (c ≠ 0)

/-- **C63 fails.**  With flagged samples in the window, the medians include what earlier windows
left in the buffer: the same sample in the same window is flagged or not. -/
theorem stale_median :
    (flagChannel nthSort 1 1 flaggedTail [flaggedTail] 0 0 [0, 1, 2] [0] [0, 0, 0]).1 = true ∧
    (flagChannel nthSort 1 1 flaggedTail [flaggedTail] 0 0 [0, 1, 2] [0] [5, 5, 5]).1 = false ∧
    ¬ Exceeds 1 1 (windowValues [flaggedTail] 0 [0, 1, 2] 0) (flaggedTail.ampl 0 0 0) := by
  refine ⟨by decide +kernel, by decide +kernel, ?_⟩
  unfold Exceeds
  decide +kernel

/-! ## C65 -/

/-- **C65, partial.**  If in each channel either all or none of the correlations are flagged, the
application of the autocorrelation flags flags exactly the samples that are flagged already and, for
cross-correlations in the length range, those for which the autocorrelation of one of the two
antennas exists and is flagged.  Missing: samples with some of the correlations flagged
(`auto_missed`). -/
theorem auto_partial (flag : Nat → Int → Nat → Bool) (auto : Nat → Int) (ant1 ant2 : Nat → Nat)
    (inRange : Bool) (bl : Nat) (chan : Int) (corr : Nat)
    (hall : ∀ b c, flag b chan c = flag b chan 0) :
    applyAuto flag auto ant1 ant2 inRange bl chan corr = true ↔
      flag bl chan corr = true ∨
      (ant1 bl ≠ ant2 bl ∧ inRange = true ∧
        ∃ a, (a = ant1 bl ∨ a = ant2 bl) ∧ 0 ≤ auto a ∧ flag (auto a).toNat chan corr = true) := by
  rw [hall bl corr]
  simp only [hall _ corr]
  unfold applyAuto
  rw [hall bl corr]
  by_cases hc : ant1 bl ≠ ant2 bl ∧ inRange = true
  · rw [if_pos hc]
    simp only [hc.1, hc.2, ne_eq, not_false_eq_true, true_and, or_and_right,
      exists_or, exists_eq_left]
    generalize auto (ant1 bl) = i1
    generalize auto (ant2 bl) = i2
    generalize flag bl chan 0 = f
    by_cases h1 : i1 < 0
    · by_cases h2 : i2 < 0
      · rw [if_neg (by omega)]
        simp [show ¬ 0 ≤ i1 by omega, show ¬ 0 ≤ i2 by omega]
      · rw [if_pos (by omega)]
        simp only [if_pos h1]
        simp only [show ¬ 0 ≤ i1 by omega, show 0 ≤ i2 by omega, false_and, true_and, false_or]
        cases f <;> cases flag i2.toNat chan 0 <;> simp
    · by_cases h2 : i2 < 0
      · rw [if_pos (by omega)]
        simp only [if_neg h1, if_pos h2]
        simp only [show 0 ≤ i1 by omega, show ¬ 0 ≤ i2 by omega, false_and, true_and, or_false]
        cases f <;> cases flag i1.toNat chan 0 <;> simp
      · rw [if_pos (by omega)]
        simp only [if_neg h1, if_neg h2]
        simp only [show 0 ≤ i1 by omega, show 0 ≤ i2 by omega, true_and]
        cases f <;> cases flag i1.toNat chan 0 <;> cases flag i2.toNat chan 0 <;> simp
  · rw [if_neg hc]
    constructor
    · exact Or.inl
    · rintro (h | ⟨h1, h2, _⟩)
      · exact h
      · exact absurd ⟨h1, h2⟩ hc

/-- Baseline 0 is the autocorrelation of antenna 0 and flagged; antenna 1 has none. -/
example : applyAuto (fun b _ _ => decide (b = 0)) (fun a => if a = 0 then 0 else -1) (fun _ => 0)
    (fun b => b) true 1 3 2 = true := by decide

/-- **C65 fails.**  A sample with only its first correlation flagged is not flagged further. -/
theorem auto_missed :
    let flag : Nat → Int → Nat → Bool := fun b _ c => decide (b = 0 ∨ c = 0)
    applyAuto flag (fun a => if a = 0 then 0 else -1) (fun _ => 0) (fun b => b) true 1 3 2 = false ∧
    flag 0 3 2 = true := by decide

end DP3.MadFlagger
