import Verif.BaselineIndices.Lemmas

/-!
Properties C01 and C02: numbering of antenna pairs.
-/

namespace DP3.BaselineIndices

/-- The unordered pair `{a,b}`, written with the smaller antenna first. -/
def sortedPair (a b : Nat) : Nat × Nat := if a ≤ b then (a, b) else (b, a)

theorem baselineIndex_sorted (a b n : Nat) (o : Order) :
    baselineIndex a b n o = baselineIndex (sortedPair a b).1 (sortedPair a b).2 n o := by
  have h1 : min (sortedPair a b).1 (sortedPair a b).2 = min a b := by
    unfold sortedPair; split <;> simp <;> omega
  have h2 : max (sortedPair a b).1 (sortedPair a b).2 = max a b := by
    unfold sortedPair; split <;> simp <;> omega
  unfold baselineIndex
  simp only [h1, h2]

private theorem sortedPair_le (a b : Nat) : (sortedPair a b).1 ≤ (sortedPair a b).2 := by
  unfold sortedPair; split <;> simp <;> omega

private theorem sortedPair_lt {a b n : Nat} (ha : a < n) (hb : b < n) : (sortedPair a b).2 < n := by
  unfold sortedPair; split <;> simpa

private theorem index_lt_aux {r c n : Nat} (hrc : r ≤ c) (hc : c < n) (o : Order) :
    baselineIndex r c n o < nBaselines n := by
  have hnb := two_nBaselines n
  unfold baselineIndex
  simp only [min_eq_left hrc, max_eq_right hrc]
  cases o with
  | columnMajor =>
    have e := two_mul_tri c
    simp only
    obtain ⟨d, rfl⟩ : ∃ d, n = c + 1 + d := ⟨n - (c + 1), by omega⟩
    nlinarith
  | rowMajor =>
    have e := two_rowMajor hrc hc
    simp only
    obtain ⟨d, rfl⟩ : ∃ d, n = c + 1 + d := ⟨n - (c + 1), by omega⟩
    obtain ⟨k, rfl⟩ : ∃ k, c = r + k := ⟨c - r, by omega⟩
    nlinarith

/-- C01, range: every pair of existing antennas has a number below the number
of baselines, in both orderings. -/
theorem baselineIndex_lt {a b n : Nat} (ha : a < n) (hb : b < n) (o : Order) :
    baselineIndex a b n o < nBaselines n := by
  rw [baselineIndex_sorted]
  exact index_lt_aux (sortedPair_le a b) (sortedPair_lt ha hb) o

/-- C01, symmetry: the order of the two antennas does not matter. -/
theorem baselineIndex_comm (a b n : Nat) (o : Order) :
    baselineIndex a b n o = baselineIndex b a n o := by
  unfold baselineIndex
  simp only [min_comm, max_comm]

private theorem baseline_index_aux {r c n : Nat} (hrc : r ≤ c) (hc : c < n) (o : Order) :
    baseline (baselineIndex r c n o) n o = (r, c) := by
  unfold baselineIndex baseline
  simp only [min_eq_left hrc, max_eq_right hrc]
  cases o with
  | columnMajor =>
    simp only
    have e := two_mul_tri c
    have hroot : triangleRoot (c * (c + 1) / 2 + r) = c + 1 := by
      have : 2 * (c * (c + 1) / 2 + r) = c * (c + 1) + 2 * r := by omega
      apply triangleRoot_eq
      · omega
      · rw [this]; nlinarith
    have a2 : (c + 1) * c / 2 = c * (c + 1) / 2 := by ring_nf
    simp only [hroot, Nat.add_sub_cancel, a2]
    ext <;> simp
  | rowMajor =>
    simp only
    have e := two_rowMajor hrc hc
    have hnb := two_nBaselines n
    generalize hi : r * n + c - r * (r + 1) / 2 = i at e
    obtain ⟨d, hd⟩ : ∃ d, n = c + 1 + d := ⟨n - (c + 1), by omega⟩
    obtain ⟨k, hk⟩ : ∃ k, c = r + k := ⟨c - r, by omega⟩
    have hlt : i < nBaselines n := by
      subst hk; subst hd; nlinarith
    -- t = n - r - 1
    have hroot : triangleRoot (nBaselines n - i - 1) = n - r := by
      have ht : n - r = (k + d) + 1 := by omega
      rw [ht]
      have key : 2 * (nBaselines n - i - 1) = (k + d) * (k + d + 1) + 2 * d := by
        have h2 : 2 * (nBaselines n - i - 1) + 2 * i + 2 = n * (n + 1) := by omega
        subst hk; subst hd
        nlinarith
      apply triangleRoot_eq
      · omega
      · rw [key]; nlinarith
    rw [hroot]
    have ep := two_mul_tri_pred (n - r)
    have hbefore : nBaselines n - n - (n - r) * (n - r - 1) / 2 + c = i := by
      have ht : n - r = (k + d) + 1 := by omega
      rw [ht] at ep ⊢
      simp only [Nat.add_sub_cancel] at ep ⊢
      have hA : nBaselines n = nBaselines n := rfl
      have : 2 * (nBaselines n - n - (k + d + 1) * (k + d) / 2) = 2 * (i - c) ∧ c ≤ i := by
        have hci : c ≤ i := by
          have : r * (r + 1) ≤ r * (2 * n) := Nat.mul_le_mul_left r (by omega)
          nlinarith
        have hsub : 2 * (nBaselines n - n - (k + d + 1) * (k + d) / 2)
            = n * (n + 1) - 2 * n - (k + d + 1) * (k + d) := by omega
        refine ⟨?_, hci⟩
        rw [hsub]
        have : n * (n + 1) = 2 * n + (k + d + 1) * (k + d) + 2 * (i - c) := by
          obtain ⟨j, hj⟩ : ∃ j, i = c + j := ⟨i - c, by omega⟩
          have : i - c = j := by omega
          rw [this]
          subst hk; subst hd; subst hj
          nlinarith
        omega
      omega
    ext
    · simp; omega
    · simp; omega

/-- C01, inversion: the number of a pair is turned back into that pair, smaller
antenna first. -/
theorem baseline_baselineIndex {a b n : Nat} (ha : a < n) (hb : b < n) (o : Order) :
    baseline (baselineIndex a b n o) n o = sortedPair a b := by
  rw [baselineIndex_sorted]
  exact baseline_index_aux (sortedPair_le a b) (sortedPair_lt ha hb) o

/-- C01, distinctness: two pairs share a number only if they are the same
unordered pair. -/
theorem baselineIndex_injective {a b c d n : Nat} (ha : a < n) (hb : b < n) (hc : c < n)
    (hd : d < n) (o : Order) (h : baselineIndex a b n o = baselineIndex c d n o) :
    (a = c ∧ b = d) ∨ (a = d ∧ b = c) := by
  have h1 := baseline_baselineIndex ha hb o
  have h2 := baseline_baselineIndex hc hd o
  rw [h, h2] at h1
  unfold sortedPair at h1
  split at h1 <;> split at h1 <;> simp only [Prod.mk.injEq] at h1 <;> omega

/-- C01, surjectivity: every number below the number of baselines belongs to a
pair of existing antennas, namely the one `ComputeBaseline` returns (smaller
antenna first). -/
theorem baselineIndex_baseline {i n : Nat} (hi : i < nBaselines n) (o : Order) :
    (baseline i n o).1 ≤ (baseline i n o).2 ∧ (baseline i n o).2 < n ∧
      baselineIndex (baseline i n o).1 (baseline i n o).2 n o = i := by
  suffices h : ∃ r c, r ≤ c ∧ c < n ∧ baselineIndex r c n o = i by
    obtain ⟨r, c, hrc, hcn, rfl⟩ := h
    rw [baseline_index_aux hrc hcn]
    exact ⟨hrc, hcn, rfl⟩
  have hnb := two_nBaselines n
  cases o with
  | columnMajor =>
    obtain ⟨t, h1, h2⟩ := exists_tri i
    have e1 := two_mul_tri t
    have e2 := two_mul_tri (t + 1)
    have a1 : (t + 1) * (t + 1 + 1) / 2 = (t + 1) * (t + 2) / 2 := by ring_nf
    have hrt : i - t * (t + 1) / 2 ≤ t := by
      have : (t + 1) * (t + 2) = t * (t + 1) + 2 * (t + 1) := by ring
      have : (t + 1) * (t + 1 + 1) = t * (t + 1) + 2 * (t + 1) := by ring
      omega
    refine ⟨i - t * (t + 1) / 2, t, hrt, ?_, ?_⟩
    · by_contra hn
      have : n * (n + 1) ≤ t * (t + 1) := Nat.mul_le_mul (by omega) (by omega)
      omega
    · unfold baselineIndex
      simp only [min_eq_left hrt, max_eq_right hrt]
      omega
  | rowMajor =>
    obtain ⟨t, h1, h2⟩ := exists_tri (nBaselines n - i - 1)
    have e1 := two_mul_tri t
    have e2 := two_mul_tri (t + 1)
    have a1 : (t + 1) * (t + 1 + 1) / 2 = (t + 1) * (t + 2) / 2 := by ring_nf
    have htn : t < n := by
      by_contra hn
      have : n * (n + 1) ≤ t * (t + 1) := Nat.mul_le_mul (by omega) (by omega)
      omega
    obtain ⟨r, hr⟩ : ∃ r, n = r + t + 1 := ⟨n - t - 1, by omega⟩
    -- q = distance of the column from the end
    obtain ⟨q, hq⟩ : ∃ q, nBaselines n - i - 1 = t * (t + 1) / 2 + q := ⟨_, (Nat.add_sub_cancel' h1).symm⟩
    have hqt : q ≤ t := by
      have : (t + 1) * (t + 1 + 1) = t * (t + 1) + 2 * (t + 1) := by ring
      omega
    have hrc : r ≤ n - 1 - q := by omega
    refine ⟨r, n - 1 - q, hrc, by omega, ?_⟩
    unfold baselineIndex
    simp only [min_eq_left hrc, max_eq_right hrc]
    have e := two_rowMajor hrc (by omega : n - 1 - q < n)
    have hsum : 2 * i + 2 + t * (t + 1) + 2 * q = n * (n + 1) := by omega
    obtain ⟨w, hw⟩ : ∃ w, n - 1 - q = w := ⟨_, rfl⟩
    have hw' : w + q + 1 = n := by omega
    rw [hw] at e ⊢
    have : 2 * (r * n + w - r * (r + 1) / 2) = 2 * i := by
      have hwq : w = r + t - q := by omega
      have : w + q = r + t := by omega
      subst hr
      nlinarith
    omega

example : baselineIndex 3 1 5 .columnMajor = 7 ∧ baseline 7 5 .columnMajor = (1, 3) ∧
    baselineIndex 3 1 5 .rowMajor = 7 ∧ (7 < nBaselines 5) := by
  refine ⟨by decide, ?_, by decide, by decide⟩
  exact baseline_baselineIndex (a := 1) (b := 3) (n := 5) (by decide) (by decide) .columnMajor

/-- C02: the list for antenna `a` has one entry per antenna, without duplicates,
and contains exactly the baselines that `a` is part of. -/
theorem baselineList_spec {a n : Nat} (ha : a < n) (o : Order) :
    (baselineList a n o).length = n ∧ (baselineList a n o).Nodup ∧
      ∀ i, i < nBaselines n →
        (i ∈ baselineList a n o ↔ (baseline i n o).1 = a ∨ (baseline i n o).2 = a) := by
  refine ⟨by simp [baselineList], ?_, ?_⟩
  · unfold baselineList
    rw [List.Nodup, List.pairwise_map]
    have hp := List.Pairwise.and_mem.1 (List.nodup_range (n := n))
    refine hp.imp ?_
    rintro x y ⟨hx, hy, hne⟩ hxy
    rw [List.mem_range] at hx hy
    have := baselineIndex_injective ha hx ha hy o hxy
    omega
  · intro i hi
    have hb := baselineIndex_baseline hi o
    unfold baselineList
    simp only [List.mem_map, List.mem_range]
    constructor
    · rintro ⟨b, hbn, rfl⟩
      rw [baseline_baselineIndex ha hbn]
      unfold sortedPair; split <;> simp
    · rintro (h | h)
      · exact ⟨(baseline i n o).2, hb.2.1, by rw [← h]; exact hb.2.2⟩
      · exact ⟨(baseline i n o).1, by omega, by rw [← h, baselineIndex_comm]; exact hb.2.2⟩

/-- C02: the `k`-th entry is the baseline of antenna `a` with antenna `k`, and all
entries are existing baselines. -/
theorem baselineList_getElem {a n k : Nat} (ha : a < n) (hk : k < n) (o : Order) :
    ∃ h : k < (baselineList a n o).length,
      (baselineList a n o)[k] < nBaselines n ∧
      baseline (baselineList a n o)[k] n o = sortedPair a k := by
  have hl : k < (baselineList a n o).length := by simp [baselineList, hk]
  refine ⟨hl, ?_⟩
  have : (baselineList a n o)[k] = baselineIndex a k n o := by simp [baselineList]
  rw [this]
  exact ⟨baselineIndex_lt ha hk o, baseline_baselineIndex ha hk o⟩

example : baselineList 2 5 .columnMajor = [3, 4, 5, 8, 12] ∧
    baselineList 2 5 .rowMajor = [2, 6, 9, 10, 11] ∧ 2 < 5 := by decide

end DP3.BaselineIndices
