import Verif.Constraints.Model
import Mathlib.Algebra.Field.Basic
import Mathlib.Algebra.CharZero.Defs
import Mathlib.Algebra.Field.Rat
import Mathlib.Algebra.Order.Ring.Rat
import Mathlib.Data.List.Nodup
import Mathlib.Tactic.FieldSimp
import Mathlib.Tactic.NormNum
import Mathlib.Tactic.Ring

/-!
# Properties of the averaging and referencing constraints (C38, C39, C70)
-/

namespace DP3.Constraints

set_option linter.unusedSectionVars false
set_option linter.unusedSimpArgs false

variable {F : Type} [Field F] [DecidableEq F]

/-! ## The specification -/

/-- The mean of the finite values of a list; not finite if there are none. -/
def finiteMean (l : List (Option F)) : Option F :=
  let v := l.filterMap id
  if v = [] then none else some (v.sum / (v.length : F))

/-- A value of the group of `factor` consecutive sub-solutions that contains sub-solution `i` of `n`;
the last group may be shorter. -/
def groupMean (factor n : Nat) (values : Nat → Option F) (i : Nat) : Option F :=
  finiteMean (((List.range n).filter fun j => decide (j / factor = i / factor)).map values)

/-! ## Helpers -/

private theorem sumFinite_aux (l : List (Option F)) (a : F) (n : Nat) :
    l.foldl (fun (acc : F × Nat) v =>
        (acc.1 + v.getD 0, acc.2 + (if v.isSome then 1 else 0))) (a, n) =
      (a + (l.filterMap id).sum, n + (l.filterMap id).length) := by
  induction l generalizing a n with
  | nil => simp
  | cons v l ih =>
    rw [List.foldl_cons, ih]
    cases v with
    | none => simp
    | some x => simp [add_assoc, Nat.add_assoc, Nat.add_comm 1]

theorem divide_sumFinite (l : List (Option F)) : divide (sumFinite l) = finiteMean l := by
  unfold sumFinite divide finiteMean
  rw [sumFinite_aux]
  simp

/-- Steps that each change one slice only. -/
private theorem foldl_frame {S B : Type} (f : S → Nat → S) (get : S → Nat → B)
    (hframe : ∀ s k c, c ≠ k → get (f s k) c = get s c) (l : List Nat) (hl : l.Nodup) (s : S)
    (c : Nat) :
    (c ∉ l → get (l.foldl f s) c = get s c) ∧
      (c ∈ l → ∃ sc, get sc c = get s c ∧ get (l.foldl f s) c = get (f sc c) c) := by
  induction l generalizing s with
  | nil => simp
  | cons k l ih =>
    rw [List.nodup_cons] at hl
    rw [List.foldl_cons]
    obtain ⟨h1, h2⟩ := ih hl.2 (f s k)
    refine ⟨?_, ?_⟩
    · intro hc
      simp only [List.mem_cons, not_or] at hc
      rw [h1 hc.2, hframe _ _ _ hc.1]
    · intro hc
      by_cases hk : c = k
      · subst hk
        exact ⟨s, rfl, h1 hl.1⟩
      · obtain ⟨sc, e1, e2⟩ := h2 (by simpa [hk] using hc)
        exact ⟨sc, by rw [e1, hframe _ _ _ hk], e2⟩

/-! ## C38 -/

private theorem assign_eq (nDir nPol ch : Nat) (mean : Nat → Nat → Option F) (set : List Nat)
    (s : Sol F) (c a d p : Nat) :
    set.foldl (fun (s : Sol F) a => fun c a' d p =>
        if c = ch ∧ a' = a ∧ d < nDir ∧ p < nPol then mean d p else s c a' d p) s c a d p =
      if c = ch ∧ a ∈ set ∧ d < nDir ∧ p < nPol then mean d p else s c a d p := by
  induction set generalizing s with
  | nil => simp
  | cons b set ih =>
    rw [List.foldl_cons, ih]
    by_cases h1 : c = ch ∧ a ∈ set ∧ d < nDir ∧ p < nPol
    · rw [if_pos h1, if_pos ⟨h1.1, List.mem_cons_of_mem _ h1.2.1, h1.2.2⟩]
    · rw [if_neg h1]
      by_cases h2 : c = ch ∧ a = b ∧ d < nDir ∧ p < nPol
      · rw [if_pos h2, if_pos ⟨h2.1, by simp [h2.2.1], h2.2.2⟩]
      · rw [if_neg h2, if_neg]
        rintro ⟨e1, e2, e3⟩
        rcases List.mem_cons.1 e2 with e2 | e2
        · exact h2 ⟨e1, e2, e3⟩
        · exact h1 ⟨e1, e2, e3⟩

theorem applySet_eq (nDir nPol ch : Nat) (s : Sol F) (set : List Nat) (c a d p : Nat) :
    applySet nDir nPol ch s set c a d p =
      if c = ch ∧ a ∈ set ∧ d < nDir ∧ p < nPol then finiteMean (set.map fun a => s ch a d p)
      else s c a d p := by
  unfold applySet
  rw [← divide_sumFinite]
  exact assign_eq nDir nPol ch (fun d p => divide (sumFinite (set.map fun a => s ch a d p))) set s
    c a d p

/-- The loop over the sets for one channel. -/
private theorem sets_eq (nDir nPol ch : Nat) (sets : List (List Nat))
    (hdis : sets.Pairwise List.Disjoint) (s : Sol F) (c a d p : Nat) :
    ((c ≠ ch ∨ (∀ set ∈ sets, a ∉ set) ∨ nDir ≤ d ∨ nPol ≤ p) →
        sets.foldl (applySet nDir nPol ch) s c a d p = s c a d p) ∧
      (∀ set ∈ sets, a ∈ set → c = ch → d < nDir → p < nPol →
        sets.foldl (applySet nDir nPol ch) s c a d p = finiteMean (set.map fun a => s ch a d p)) := by
  induction sets generalizing s with
  | nil => simp
  | cons t sets ih =>
    rw [List.pairwise_cons] at hdis
    obtain ⟨h1, h2⟩ := ih hdis.2 (applySet nDir nPol ch s t)
    rw [List.foldl_cons]
    constructor
    · intro h
      rw [h1 (by
        rcases h with h | h | h | h
        · exact .inl h
        · exact .inr (.inl fun set hs => h set (List.mem_cons_of_mem _ hs))
        · exact .inr (.inr (.inl h))
        · exact .inr (.inr (.inr h))), applySet_eq, if_neg]
      rintro ⟨e1, e2, e3, e4⟩
      rcases h with h | h | h | h
      · exact h e1
      · exact h t (by simp) e2
      · omega
      · omega
    · intro set hs ha hc hd hp
      rcases List.mem_cons.1 hs with rfl | hs
      · rw [h1 (.inr (.inl fun set' hs' => List.disjoint_left.1 (hdis.1 set' hs') ha)), applySet_eq,
          if_pos ⟨hc, ha, hd, hp⟩]
      · rw [h2 set hs ha hc hd hp]
        congr 1
        apply List.map_congr_left
        intro b hb
        rw [applySet_eq, if_neg]
        rintro ⟨-, e2, -⟩
        exact List.disjoint_left.1 (hdis.1 set hs) e2 hb

/-- C38: after `AntennaConstraint::Apply` every antenna of a set has, for each channel, direction and
polarisation, the mean of the finite values that the antennas of the set had before. -/
theorem antenna_mean (nCh nDir nPol : Nat) (sets : List (List Nat))
    (hdis : sets.Pairwise List.Disjoint) (s : Sol F) {set : List Nat} (hset : set ∈ sets)
    {ch a d p : Nat} (ha : a ∈ set) (hc : ch < nCh) (hd : d < nDir) (hp : p < nPol) :
    antennaApply nCh nDir nPol sets s ch a d p = finiteMean (set.map fun a => s ch a d p) := by
  have := (foldl_frame (fun (s : Sol F) ch => sets.foldl (applySet nDir nPol ch) s)
    (fun s c => s c) (by
      intro s k c hck
      funext a d p
      exact (sets_eq nDir nPol k sets hdis s c a d p).1 (.inl hck))
    (List.range nCh) List.nodup_range s ch).2 (by simpa using hc)
  obtain ⟨sc, e1, e2⟩ := this
  unfold antennaApply
  rw [e2, (sets_eq nDir nPol ch sets hdis sc ch a d p).2 set hset ha rfl hd hp, e1]

/-- C38: the other antennas do not change. -/
theorem antenna_other (nCh nDir nPol : Nat) (sets : List (List Nat))
    (hdis : sets.Pairwise List.Disjoint) (s : Sol F) {ch a d p : Nat}
    (ha : (∀ set ∈ sets, a ∉ set) ∨ nCh ≤ ch ∨ nDir ≤ d ∨ nPol ≤ p) :
    antennaApply nCh nDir nPol sets s ch a d p = s ch a d p := by
  have := foldl_frame (fun (s : Sol F) ch => sets.foldl (applySet nDir nPol ch) s)
    (fun s c => s c) (by
      intro s k c hck
      funext a d p
      exact (sets_eq nDir nPol k sets hdis s c a d p).1 (.inl hck))
    (List.range nCh) List.nodup_range s ch
  unfold antennaApply
  by_cases hc : ch < nCh
  · obtain ⟨sc, e1, e2⟩ := this.2 (by simpa using hc)
    rw [e2, (sets_eq nDir nPol ch sets hdis sc ch a d p).1, e1]
    rcases ha with h | h | h | h
    · exact .inr (.inl h)
    · omega
    · exact .inr (.inr (.inl h))
    · exact .inr (.inr (.inr h))
  · rw [this.1 (by simpa using hc)]

private theorem finiteMean_replicate [CharZero F] (n : Nat) (hn : n ≠ 0) (v : Option F) :
    finiteMean (List.replicate n v) = v := by
  unfold finiteMean
  cases v with
  | none => simp
  | some x =>
    have : (List.replicate n (some x)).filterMap id = List.replicate n x := by
      induction n with
      | zero => rfl
      | succ n ih => simp [List.replicate_succ, List.filterMap_cons]
    have hn' : (n : F) ≠ 0 := by exact_mod_cast hn
    simp only [this, List.sum_replicate, List.length_replicate, nsmul_eq_mul]
    rw [if_neg (by simp [hn])]
    rw [mul_comm, mul_div_assoc, div_self hn', mul_one]

/-- C38: applying the constraint twice is the same as applying it once. -/
theorem antenna_idempotent [CharZero F] (nCh nDir nPol : Nat) (sets : List (List Nat))
    (hdis : sets.Pairwise List.Disjoint) (s : Sol F) :
    antennaApply nCh nDir nPol sets (antennaApply nCh nDir nPol sets s) =
      antennaApply nCh nDir nPol sets s := by
  funext ch a d p
  by_cases h : (∀ set ∈ sets, a ∉ set) ∨ nCh ≤ ch ∨ nDir ≤ d ∨ nPol ≤ p
  · exact antenna_other nCh nDir nPol sets hdis _ h
  · simp only [not_or, not_forall, not_not, Nat.not_le] at h
    obtain ⟨⟨set, hset, ha⟩, hc, hd, hp⟩ := h
    rw [antenna_mean nCh nDir nPol sets hdis _ hset ha hc hd hp,
      antenna_mean nCh nDir nPol sets hdis s hset ha hc hd hp]
    have : (set.map fun a => antennaApply nCh nDir nPol sets s ch a d p) =
        List.replicate set.length (finiteMean (set.map fun a => s ch a d p)) := by
      rw [List.eq_replicate_iff]
      refine ⟨by simp, ?_⟩
      intro b hb
      simp only [List.mem_map] at hb
      obtain ⟨a', ha', rfl⟩ := hb
      exact antenna_mean nCh nDir nPol sets hdis s hset ha' hc hd hp
    rw [this, finiteMean_replicate]
    intro h0
    rw [List.length_eq_zero_iff] at h0
    rw [h0] at ha
    cases ha

/-- Four antennas, two sets, one value that is not finite. -/
def exSol : Sol ℚ := fun _ a _ _ => [some 1, some 3, none, some 8][a]!

example : antennaApply 1 1 1 [[0, 1, 2], [3]] exSol 0 2 0 0 = some 2 := by decide +kernel
example : [[0, 1, 2], [3]].Pairwise List.Disjoint := by simp

/-- With sets that share an antenna, which the settings do not exclude, the antennas of the first set
get different values. -/
theorem antenna_overlap :
    antennaApply 1 1 1 [[0, 1], [1, 3]] exSol 0 0 0 0 ≠
      antennaApply 1 1 1 [[0, 1], [1, 3]] exSol 0 1 0 0 := by decide +kernel

/-! ## C39 -/

private theorem assignGroup_eq (nCh nPol antenna index : Nat) (mean : Nat → Nat → Option F)
    (c a d p : Nat) (l : List Nat) (s : Sol F) :
    l.foldl (fun (s : Sol F) i => fun c a d p =>
        if c < nCh ∧ a = antenna ∧ d = index + i ∧ p < nPol then mean c p else s c a d p) s c a d p =
      if c < nCh ∧ a = antenna ∧ (∃ i ∈ l, d = index + i) ∧ p < nPol then mean c p
      else s c a d p := by
  induction l generalizing s with
  | nil => simp
  | cons i l ih =>
    rw [List.foldl_cons, ih]
    by_cases h1 : c < nCh ∧ a = antenna ∧ (∃ i ∈ l, d = index + i) ∧ p < nPol
    · obtain ⟨e1, e2, ⟨j, hj, e3⟩, e4⟩ := h1
      rw [if_pos ⟨e1, e2, ⟨j, hj, e3⟩, e4⟩, if_pos ⟨e1, e2, ⟨j, by simp [hj], e3⟩, e4⟩]
    · rw [if_neg h1]
      by_cases h2 : c < nCh ∧ a = antenna ∧ d = index + i ∧ p < nPol
      · rw [if_pos h2, if_pos ⟨h2.1, h2.2.1, ⟨i, by simp, h2.2.2.1⟩, h2.2.2.2⟩]
      · rw [if_neg h2, if_neg]
        rintro ⟨e1, e2, ⟨j, hj, e3⟩, e4⟩
        rcases List.mem_cons.1 hj with rfl | hj
        · exact h2 ⟨e1, e2, e3, e4⟩
        · exact h1 ⟨e1, e2, ⟨j, hj, e3⟩, e4⟩

theorem averageGroup_eq (nCh nPol antenna index size : Nat) (s : Sol F) (c a d p : Nat) :
    averageGroup nCh nPol antenna index size s c a d p =
      if c < nCh ∧ a = antenna ∧ (index ≤ d ∧ d < index + size) ∧ p < nPol then
        finiteMean ((List.range size).map fun i => s c antenna (index + i) p)
      else s c a d p := by
  have e : (∃ i ∈ List.range size, d = index + i) ↔ index ≤ d ∧ d < index + size := by
    constructor
    · rintro ⟨i, hi, rfl⟩
      rw [List.mem_range] at hi
      omega
    · rintro ⟨h1, h2⟩
      exact ⟨d - index, by rw [List.mem_range]; omega, by omega⟩
  unfold averageGroup
  rw [← divide_sumFinite]
  have := assignGroup_eq nCh nPol antenna index
    (fun c p => divide (sumFinite ((List.range size).map fun i => s c antenna (index + i) p)))
    c a d p (List.range size) s
  simp only [e] at this
  exact this

private theorem filter_range_group (factor n k : Nat) (hf : 0 < factor) (hk : k * factor ≤ n) :
    ((List.range n).filter fun j => decide (j / factor = k)) =
      (List.range (min (factor + k * factor) n - k * factor)).map (k * factor + ·) := by
  apply List.Perm.eq_of_pairwise (le := (· < ·))
  · intro a b _ _ h1 h2
    omega
  · exact List.Pairwise.filter _ List.pairwise_lt_range
  · rw [List.pairwise_map]
    exact List.pairwise_lt_range.imp fun h => by omega
  · rw [List.perm_ext_iff_of_nodup]
    · intro a
      simp only [List.mem_filter, List.mem_range, decide_eq_true_eq, List.mem_map]
      constructor
      · rintro ⟨h1, h2⟩
        have h3 := Nat.div_add_mod a factor
        have h4 := Nat.mod_lt a hf
        rw [h2, Nat.mul_comm] at h3
        exact ⟨a - k * factor, by omega, by omega⟩
      · rintro ⟨i, hi, rfl⟩
        refine ⟨by omega, ?_⟩
        rw [Nat.add_comm, Nat.add_mul_div_right _ _ hf, Nat.div_eq_of_lt (by omega), Nat.zero_add]
    · exact List.nodup_range.filter _
    · exact (List.nodup_map_iff (fun a b h => by simpa using h)).2 List.nodup_range

private theorem intervalLoop_eq (nCh nPol antenna factor n : Nat) (hf : 0 < factor) (o : Nat)
    (fuel start : Nat) (s : Sol F) (hs : start ≤ n) (hm : start = n ∨ ∃ k, start = k * factor)
    (hfuel : n ≤ start + fuel) :
    (intervalLoop nCh nPol antenna factor n fuel start (o + start) s).1 = o + n ∧
      ∀ c a d p, (intervalLoop nCh nPol antenna factor n fuel start (o + start) s).2 c a d p =
        if c < nCh ∧ a = antenna ∧ (o + start ≤ d ∧ d < o + n) ∧ p < nPol then
          groupMean factor n (fun j => s c antenna (o + j) p) (d - o)
        else s c a d p := by
  induction fuel generalizing start s with
  | zero =>
    have : start = n := by omega
    subst this
    refine ⟨rfl, ?_⟩
    intro c a d p
    rw [if_neg (by omega)]
    rfl
  | succ fuel ih =>
    unfold intervalLoop
    by_cases hlt : start < n
    · rw [if_pos hlt]
      obtain ⟨k, hk⟩ : ∃ k, start = k * factor := by
        rcases hm with h | h
        · omega
        · exact h
      simp only
      have hsize : start + (min (factor + start) n - start) = min (factor + start) n := by omega
      have hsize' : o + start + (min (factor + start) n - start) = o + min (factor + start) n := by
        omega
      rw [hsize, hsize']
      obtain ⟨h1, h2⟩ := ih (min (factor + start) n)
        (averageGroup nCh nPol antenna (o + start) (min (factor + start) n - start) s)
        (by omega) (by
          by_cases h : factor + start ≤ n
          · right
            exact ⟨k + 1, by rw [Nat.min_eq_left h, hk, Nat.succ_mul, Nat.add_comm]⟩
          · left
            omega) (by omega)
      refine ⟨h1, ?_⟩
      intro c a d p
      rw [h2]
      by_cases hA : c < nCh ∧ a = antenna ∧ (o + min (factor + start) n ≤ d ∧ d < o + n) ∧ p < nPol
      · rw [if_pos hA, if_pos ⟨hA.1, hA.2.1, by omega, hA.2.2.2⟩]
        unfold groupMean
        congr 1
        apply List.map_congr_left
        intro j hj
        simp only [List.mem_filter, List.mem_range, decide_eq_true_eq] at hj
        rw [averageGroup_eq, if_neg]
        rintro ⟨-, -, ⟨-, e⟩, -⟩
        -- j is in the group of d, beyond this group
        have hd : k + 1 ≤ (d - o) / factor := by
          rw [Nat.le_div_iff_mul_le hf, Nat.succ_mul, ← hk]
          omega
        have hj' : (k + 1) * factor ≤ j := by
          rw [← Nat.le_div_iff_mul_le hf]
          omega
        rw [Nat.succ_mul, ← hk] at hj'
        omega
      · rw [if_neg hA, averageGroup_eq]
        by_cases hB : c < nCh ∧ a = antenna ∧ (o + start ≤ d ∧
            d < o + start + (min (factor + start) n - start)) ∧ p < nPol
        · obtain ⟨b1, b2, b3, b4⟩ := hB
          rw [if_pos ⟨b1, b2, b3, b4⟩, if_pos ⟨b1, b2, by omega, b4⟩]
          unfold groupMean
          have hdk : (d - o) / factor = k := by
            have e1 : k ≤ (d - o) / factor := by
              rw [Nat.le_div_iff_mul_le hf, ← hk]
              omega
            have e2 : (d - o) / factor < k + 1 := by
              rw [Nat.div_lt_iff_lt_mul hf, Nat.succ_mul, ← hk]
              omega
            omega
          rw [hdk, filter_range_group factor n k hf (by omega), ← hk, List.map_map]
          congr 1
          apply List.map_congr_left
          intro i _
          simp only [Function.comp_def]
          congr 1
          omega
        · rw [if_neg hB, if_neg]
          rintro ⟨b1, b2, b3, b4⟩
          by_cases h : d < o + min (factor + start) n
          · exact hB ⟨b1, b2, by omega, b4⟩
          · exact hA ⟨b1, b2, by omega, b4⟩
    · rw [if_neg hlt]
      refine ⟨by show o + start = o + n; omega, ?_⟩
      intro c a d p
      rw [if_neg (by omega)]

private theorem directions_eq (nCh nPol antenna factor : Nat) (hf : 0 < factor)
    (perDirection : List Nat) (o : Nat) (s : Sol F) (c a p : Nat) :
    ((c < nCh → p < nPol → a = antenna → ∀ k n, perDirection[k]? = some n → ∀ i, i < n →
        (perDirection.foldl (fun (st : Nat × Sol F) nSub =>
          intervalLoop nCh nPol antenna factor nSub nSub 0 st.1 st.2) (o, s)).2 c a
            (o + (perDirection.take k).sum + i) p =
          groupMean factor n (fun j => s c antenna (o + (perDirection.take k).sum + j) p) i) ∧
      ∀ d, (nCh ≤ c ∨ nPol ≤ p ∨ a ≠ antenna ∨ d < o ∨ o + perDirection.sum ≤ d) →
        (perDirection.foldl (fun (st : Nat × Sol F) nSub =>
          intervalLoop nCh nPol antenna factor nSub nSub 0 st.1 st.2) (o, s)).2 c a d p =
          s c a d p) := by
  induction perDirection generalizing o s with
  | nil => simp
  | cons m l ih =>
    obtain ⟨e1, e2⟩ := intervalLoop_eq (F := F) nCh nPol antenna factor m hf o m 0 s (by omega)
      (.inr ⟨0, by simp⟩) (by omega)
    rw [Nat.add_zero] at e1 e2
    rw [List.foldl_cons]
    generalize hst : intervalLoop nCh nPol antenna factor m m 0 o s = st at e1 e2
    obtain ⟨o', s'⟩ := st
    simp only at e1 e2
    subst e1
    obtain ⟨h1, h2⟩ := ih (o + m) s'
    refine ⟨?_, ?_⟩
    · intro hc hp ha k n hk i hi
      cases k with
      | zero =>
        simp only [List.getElem?_cons_zero, Option.some.injEq] at hk
        subst hk
        simp only [List.take_zero, List.sum_nil, Nat.add_zero]
        rw [h2 _ (by omega), e2, if_pos ⟨hc, ha, by omega, hp⟩]
        congr 1
        omega
      | succ k =>
        simp only [List.getElem?_cons_succ] at hk
        have := h1 hc hp ha k n hk i hi
        simp only [List.take_succ_cons, List.sum_cons, ← Nat.add_assoc]
        rw [this]
        congr 1
        funext j
        rw [e2, if_neg (by omega)]
    · intro d hd
      rw [List.sum_cons] at hd
      rw [h2 d (by omega), e2, if_neg (by omega)]

/-- C39: after `AntennaIntervalConstraint::Apply`, sub-solution `i` of a direction of an antenna is
the mean of the finite values, before, of the sub-solutions `j` of that same antenna and direction with
`j / factor = i / factor`, where `factor` is the averaging factor of the antenna. -/
theorem interval_mean (nCh nAnt nPol : Nat) (factors perDirection : List Nat) (s : Sol F)
    {c a p k n factor i : Nat} (hc : c < nCh) (ha : a < nAnt) (hp : p < nPol)
    (hk : perDirection[k]? = some n) (hi : i < n) (hfac : factors[a]? = some factor)
    (hf : ∀ f ∈ factors, 0 < f) (hlen : factors.length = nAnt) :
    intervalApply nCh nAnt nPol factors perDirection s c a ((perDirection.take k).sum + i) p =
      groupMean factor n (fun j => s c a ((perDirection.take k).sum + j) p) i := by
  have hpos : ∀ b, b < nAnt → 0 < factors.getD b 0 := by
    intro b hb
    rw [List.getD_eq_getElem?_getD, List.getElem?_eq_getElem (by omega)]
    exact hf _ (List.getElem_mem _)
  -- restrict the step to valid antennas
  have hcongr : ∀ (l : List Nat) (s : Sol F), (∀ b ∈ l, b < nAnt) →
      l.foldl (fun s antenna =>
        intervalAntenna nCh nPol perDirection antenna (factors.getD antenna 0) s) s =
      l.foldl (fun s antenna =>
        intervalAntenna nCh nPol perDirection antenna (max 1 (factors.getD antenna 0)) s) s := by
    intro l
    induction l with
    | nil => intros; rfl
    | cons b l ih =>
      intro s hb
      rw [List.foldl_cons, List.foldl_cons, ih _ fun x hx => hb x (by simp [hx])]
      have := hpos b (hb b (by simp))
      rw [Nat.max_eq_right (by omega : 1 ≤ factors.getD b 0)]
  have := (foldl_frame (fun (s : Sol F) antenna =>
      intervalAntenna nCh nPol perDirection antenna (max 1 (factors.getD antenna 0)) s)
    (fun s a => fun c d p => s c a d p) (by
      intro s b a hab
      funext c d p
      exact (directions_eq nCh nPol b _ (by omega) perDirection 0 s c a p).2 d
        (.inr (.inr (.inl hab)))) (List.range nAnt) List.nodup_range s a).2 (by simpa using ha)
  obtain ⟨sc, e1, e2⟩ := this
  unfold intervalApply
  rw [hcongr _ _ (by simp)]
  have e2' := congrFun (congrFun (congrFun e2 c) ((perDirection.take k).sum + i)) p
  rw [e2']
  have hfa : factors.getD a 0 = factor := by
    rw [List.getD_eq_getElem?_getD, hfac]; rfl
  have hfp := hf factor (List.mem_of_getElem? hfac)
  have hval := (directions_eq nCh nPol a (max 1 (factors.getD a 0)) (by omega) perDirection 0 sc c a
    p).1 hc hp rfl k n hk i hi
  rw [hfa, Nat.max_eq_right (by omega : 1 ≤ factor)] at hval ⊢
  simp only [Nat.zero_add] at hval
  unfold intervalAntenna
  rw [hval]
  congr 1
  funext j
  exact congrFun (congrFun (congrFun e1 c) _) p

/-- C39: what `Initialize` accepts is what the theorem above needs. -/
theorem initialize_ok (factors : List Nat) (nAnt : Nat) (perDirection : List Nat)
    (h : intervalInitialize factors nAnt perDirection = some ()) :
    factors.length = nAnt ∧ (∀ f ∈ factors, 0 < f) := by
  unfold intervalInitialize at h
  split_ifs at h with h1 h2
  refine ⟨by simpa using h1, ?_⟩
  intro f hf
  simp only [List.any_eq_true, beq_iff_eq, not_exists, not_and] at h2
  have := h2 f hf
  omega

/-- Two directions, with 5 and 1 sub-solutions; factors 2 and 3. -/
def exInterval : Sol ℚ := fun _ a d _ =>
  if a = 0 then [some 1, some 3, none, some 7, some 9, some 100][d]! else some (d : ℚ)

example : (List.range 6).map (fun d => intervalApply 1 2 1 [2, 3] [5, 1] exInterval 0 0 d 0) =
    [some 2, some 2, some 7, some 7, some 9, some 100] := by decide +kernel
example : (List.range 6).map (fun d => intervalApply 1 2 1 [2, 3] [5, 1] exInterval 0 1 d 0) =
    [some 1, some 1, some 1, some (7 / 2), some (7 / 2), some 5] := by decide +kernel
example : intervalInitialize [2, 3] 2 [5, 1] = some () := by decide

/-! ## C70 -/

private theorem antennas_eq (nSub pol ref ch : Nat) (l : List Nat) (hl : l.Nodup) (s : Sol F)
    (c a d p : Nat) :
    l.foldl (fun (s : Sol F) antenna =>
        if antenna ≠ ref then fun c a d p =>
          if c = ch ∧ a = antenna ∧ d < nSub ∧ p = pol then div (s c a d p) (s c ref d p)
          else s c a d p
        else s) s c a d p =
      if c = ch ∧ (a ∈ l ∧ a ≠ ref) ∧ d < nSub ∧ p = pol then div (s c a d p) (s c ref d p)
      else s c a d p := by
  induction l generalizing s with
  | nil => simp
  | cons b l ih =>
    rw [List.nodup_cons] at hl
    rw [List.foldl_cons, ih hl.2]
    by_cases hb : b = ref
    · subst hb
      simp only [ne_eq, not_true_eq_false, if_false]
      by_cases ha : a = b
      · subst ha; simp
      · simp [ha]
    · simp only [ne_eq, hb, not_false_eq_true, if_true]
      have hr : ∀ c d p, (if c = ch ∧ ref = b ∧ d < nSub ∧ p = pol then div (s c ref d p) (s c ref d p)
          else s c ref d p) = s c ref d p := by
        intro c d p
        rw [if_neg]
        rintro ⟨-, e, -⟩
        exact hb e.symm
      simp only [hr]
      by_cases ha : a = b
      · subst ha
        simp [hl.1, hb]
      · simp [ha]

theorem referenceChannel_eq (nAnt nSub pol ref : Nat) (s : Sol F) (ch c a d p : Nat) :
    referenceChannel nAnt nSub pol ref s ch c a d p =
      if c = ch ∧ d < nSub ∧ p = pol then
        if a = ref then some 1
        else if a < nAnt then div (s c a d p) (s c ref d p) else s c a d p
      else s c a d p := by
  unfold referenceChannel
  rw [antennas_eq _ _ _ _ _ List.nodup_range]
  simp only [List.mem_range]
  by_cases h : c = ch ∧ d < nSub ∧ p = pol
  · obtain ⟨h1, h2, h3⟩ := h
    by_cases h4 : a = ref <;> by_cases h5 : a < nAnt <;> simp [h1, h2, h3, h4, h5]
  · rw [if_neg h]
    by_cases h4 : a = ref
    · rw [if_neg (by tauto), if_neg (by tauto)]
    · rw [if_neg (by tauto), if_neg (by tauto)]

/-- The reference antenna of a polarisation: the first of which more than 20% of the solutions of
the first direction is finite, and the first antenna if there is none. -/
def IsReference (nCh nAnt : Nat) (s : Sol F) (p ref : Nat) : Prop :=
  let good := fun a => nCh < 5 * ((List.range nCh).filter fun c => (s c a 0 p).isSome).length
  (ref < nAnt ∧ good ref ∧ ∀ a, a < ref → ¬ good a) ∨ (ref = 0 ∧ ∀ a, a < nAnt → ¬ good a)

theorem chooseReference_spec (nCh nAnt : Nat) (s : Sol F) (p : Nat) :
    IsReference nCh nAnt s p (chooseReference nCh nAnt s p) := by
  unfold chooseReference IsReference
  simp only
  cases hf : (List.range nAnt).find? fun a =>
      decide (nCh < 5 * ((List.range nCh).filter fun c => (s c a 0 p).isSome).length) with
  | none =>
    right
    refine ⟨rfl, ?_⟩
    intro a ha
    have := List.find?_eq_none.1 hf a (by simpa using ha)
    simpa using this
  | some r =>
    left
    obtain ⟨h1, i, hi, h2, h3⟩ := List.find?_eq_some_iff_getElem.1 hf
    simp only [List.length_range] at hi
    simp only [List.getElem_range] at h2 h3
    subst h2
    refine ⟨hi, by simpa using h1, ?_⟩
    intro a ha
    have := h3 a ha
    simpa using this

/-- C70: for every polarisation there is one reference antenna, chosen by the given rule, whose
solutions become one, and all other solutions of the polarisation are divided by the ones the
reference antenna had. -/
theorem reference_spec (nCh nAnt nSub nPol : Nat) (s : Sol F) {p : Nat} (hp : p < nPol) :
    ∃ ref, IsReference nCh nAnt s p ref ∧ ∀ c, c < nCh → ∀ d, d < nSub →
      applyReference nCh nAnt nSub nPol s c ref d p = some 1 ∧
      ∀ a, a < nAnt → a ≠ ref →
        applyReference nCh nAnt nSub nPol s c a d p = div (s c a d p) (s c ref d p) := by
  -- per polarisation
  have hch : ∀ (s : Sol F) (pol c a d p : Nat), p ≠ pol →
      (List.range nCh).foldl (referenceChannel nAnt nSub pol (chooseReference nCh nAnt s pol)) s c a
        d p = s c a d p := by
    intro s pol c a d p hpp
    generalize chooseReference nCh nAnt s pol = ref
    induction (List.range nCh) generalizing s with
    | nil => rfl
    | cons k l ih =>
      rw [List.foldl_cons, ih, referenceChannel_eq, if_neg]
      tauto
  have := (foldl_frame (fun (s : Sol F) pol =>
      (List.range nCh).foldl (referenceChannel nAnt nSub pol (chooseReference nCh nAnt s pol)) s)
    (fun s p => fun c a d => s c a d p) (by
      intro s k p hpk
      funext c a d
      exact hch s k c a d p hpk) (List.range nPol) List.nodup_range s p).2 (by simpa using hp)
  obtain ⟨sp, e1, e2⟩ := this
  have hsp : ∀ c a d, sp c a d p = s c a d p := fun c a d => congrFun (congrFun (congrFun e1 c) a) d
  refine ⟨chooseReference nCh nAnt sp p, ?_, ?_⟩
  · have := chooseReference_spec nCh nAnt sp p
    unfold IsReference at this ⊢
    simp only [hsp] at this
    exact this
  · intro c hc d hd
    have hfr := (foldl_frame (referenceChannel (F := F) nAnt nSub p (chooseReference nCh nAnt sp p))
      (fun s c => s c) (by
        intro s k c hck
        funext a d p
        rw [referenceChannel_eq, if_neg]
        tauto) (List.range nCh) List.nodup_range sp c).2 (by simpa using hc)
    obtain ⟨sc, f1, f2⟩ := hfr
    have hval : ∀ a, applyReference nCh nAnt nSub nPol s c a d p =
        referenceChannel nAnt nSub p (chooseReference nCh nAnt sp p) sc c c a d p := by
      intro a
      have g1 := congrFun (congrFun (congrFun e2 c) a) d
      have g2 := congrFun (congrFun (congrFun f2 a) d) p
      unfold applyReference
      simp only at g1 g2 ⊢
      rw [g1, g2]
    have hsc : ∀ a, sc c a d p = s c a d p := by
      intro a
      have := congrFun (congrFun (congrFun f1 a) d) p
      rw [this, hsp]
    refine ⟨?_, ?_⟩
    · rw [hval, referenceChannel_eq]
      simp [hd]
    · intro a ha har
      rw [hval, referenceChannel_eq, if_pos ⟨rfl, hd, rfl⟩, if_neg har, if_pos ha, hsc, hsc]

/-- C70: the ratio of the solutions of two antennas, which is all that the visibilities determine,
does not change where the solution of the reference antenna was finite and non-zero. -/
theorem reference_ratio (nCh nAnt nSub nPol : Nat) (s : Sol F) {p : Nat} (hp : p < nPol) :
    ∃ ref, IsReference nCh nAnt s p ref ∧ ∀ c, c < nCh → ∀ d, d < nSub →
      (∃ r, s c ref d p = some r ∧ r ≠ 0) → ∀ a b, a < nAnt → b < nAnt →
        div (applyReference nCh nAnt nSub nPol s c a d p)
            (applyReference nCh nAnt nSub nPol s c b d p) = div (s c a d p) (s c b d p) := by
  obtain ⟨ref, h1, h2⟩ := reference_spec nCh nAnt nSub nPol s hp
  refine ⟨ref, h1, ?_⟩
  rintro c hc d hd ⟨r, hr, hr0⟩ a b ha hb
  obtain ⟨h3, h4⟩ := h2 c hc d hd
  have hx : ∀ a, a < nAnt →
      applyReference nCh nAnt nSub nPol s c a d p = div (s c a d p) (some r) := by
    intro a ha
    by_cases har : a = ref
    · subst har
      rw [h3, hr]
      simp [div, hr0]
    · rw [h4 a ha har, hr]
  rw [hx a ha, hx b hb]
  cases s c a d p with
  | none => simp [div]
  | some x =>
    cases s c b d p with
    | none => simp [div, hr0]
    | some y =>
      by_cases hy : y = 0
      · simp [div, hr0, hy]
      · simp only [div, if_neg hr0, if_neg hy]
        rw [if_neg (div_ne_zero hy hr0)]
        congr 1
        field_simp

/-- Two channel blocks; antenna 0 has no finite solution, antenna 1 is the reference. -/
def exRef : Sol ℚ := fun c a _ _ =>
  if a = 0 then none else if a = 1 then [some 2, some 4][c]! else [some 6, some 2][c]!

example : chooseReference 2 3 exRef 0 = 1 := by decide +kernel
example : (applyReference 2 3 1 1 exRef 0 1 0 0, applyReference 2 3 1 1 exRef 0 2 0 0,
    applyReference 2 3 1 1 exRef 1 2 0 0, applyReference 2 3 1 1 exRef 0 0 0 0) =
    (some 1, some 3, some (1 / 2), none) := by decide +kernel

end DP3.Constraints
