import Verif.PhaseLine.Props

/-!
# Properties of the range of the line fitter (C105)
-/

namespace DP3.PhaseLine

open Real

private theorem foldl_smaller (ds : List ℝ) (m : ℝ) :
    ds.foldl smaller m ≤ m ∧ (∀ d ∈ ds, 0 < d → ds.foldl smaller m ≤ d) ∧
    (ds.foldl smaller m = m ∨ (ds.foldl smaller m ∈ ds ∧ 0 < ds.foldl smaller m)) := by
  induction ds generalizing m with
  | nil => simp
  | cons d ds ih =>
    rw [List.foldl_cons]
    obtain ⟨h1, h2, h3⟩ := ih (smaller m d)
    have hs : smaller m d ≤ m ∧ (0 < d → smaller m d ≤ d) ∧ (smaller m d = m ∨ (smaller m d = d ∧ 0 < d)) := by
      unfold smaller
      by_cases h : d > 0 ∧ d < m
      · rw [if_pos h]; exact ⟨h.2.le, fun _ => le_refl _, .inr ⟨rfl, h.1⟩⟩
      · rw [if_neg h]
        refine ⟨le_refl _, fun hd => ?_, .inl rfl⟩
        by_contra hc
        exact h ⟨hd, not_le.mp hc⟩
    refine ⟨h1.trans hs.1, fun e he hp => ?_, ?_⟩
    · rcases List.mem_cons.mp he with e1 | e1
      · subst e1; exact h1.trans (hs.2.1 hp)
      · exact h2 e e1 hp
    · rcases h3 with h3 | ⟨h3, h4⟩
      · rcases hs.2.2 with h5 | ⟨h5, h6⟩
        · left; rw [h3, h5]
        · right; rw [h3, h5]; exact ⟨List.mem_cons_self .., h6⟩
      · right; exact ⟨List.mem_cons_of_mem _ h3, h4⟩

private theorem mem_differences (xs : List ℝ) (d : ℝ) :
    d ∈ List.zipWith (fun a b => b - a) xs xs.tail ↔ ∃ (i : Nat) (a b : ℝ), xs[i]? = some a ∧ xs[i + 1]? = some b ∧ d = b - a := by
  rw [List.mem_iff_getElem?]
  constructor
  · rintro ⟨i, hi⟩
    rw [List.getElem?_zipWith_eq_some] at hi
    obtain ⟨a, b, h1, h2, h3⟩ := hi
    rw [List.getElem?_tail] at h2
    exact ⟨i, a, b, h1, h2, h3.symm⟩
  · rintro ⟨i, a, b, h1, h2, h3⟩
    refine ⟨i, ?_⟩
    rw [List.getElem?_zipWith_eq_some]
    exact ⟨a, b, h1, by rw [List.getElem?_tail]; exact h2, h3.symm⟩

/-- C105. The distance that is used for the range is the smallest positive one between neighbours. -/
theorem minDelta_spec (xs : List ℝ) (δ : ℝ) (hδ : 0 < δ) (hmax : δ < doubleMax)
    (hle : ∀ (i : Nat) (a b : ℝ), xs[i]? = some a → xs[i + 1]? = some b → a < b → δ ≤ b - a)
    (hex : ∃ (i : Nat) (a : ℝ), xs[i]? = some a ∧ xs[i + 1]? = some (a + δ)) : minDelta xs = δ := by
  obtain ⟨h1, h2, h3⟩ := foldl_smaller (List.zipWith (fun a b => b - a) xs xs.tail) doubleMax
  obtain ⟨i, a, h4, h5⟩ := hex
  have hmem : δ ∈ List.zipWith (fun a b => b - a) xs xs.tail :=
    (mem_differences xs δ).mpr ⟨i, a, a + δ, h4, h5, by ring⟩
  refine le_antisymm (h2 δ hmem hδ) ?_
  unfold minDelta
  rcases h3 with h3 | ⟨h3, h6⟩
  · rw [h3]; exact hmax.le
  · obtain ⟨k, c, d, h7, h8, h9⟩ := (mem_differences xs _).mp h3
    rw [h9] at h6 ⊢
    exact hle k c d h7 h8 (by linarith)

/-- C105. For ascending x values up to a positive one, at least 20 of them, and no limit: the step is half a wrap at the largest
value, so that no value has more than that, and the wraps are those for half a wrap between the closest neighbours, with
at most one more. -/
theorem getRange_spec (xs : List ℝ) (hn : 20 ≤ xs.length) (hs : xs.Pairwise (· ≤ ·)) (last : ℝ)
    (hlast : xs.getLast? = some last) (hl : 0 < last) (δ : ℝ) (hδ : minDelta xs = δ) (hp : 0 < δ) (range : Range)
    (h : getRange xs none = some range) :
    range.wrapStep = π / last ∧ 0 < range.wrapStep ∧ (∀ x ∈ xs, range.wrapStep * x ≤ π) ∧
    π / δ ≤ range.wrapStep * range.maxWraps ∧ range.wrapStep * range.maxWraps < π / δ + π / last := by
  have hpi := Real.pi_pos
  have hne : xs ≠ [] := by intro e; rw [e] at hn; simp at hn
  have hd : xs.getLastD 0 = last := by rw [List.getLastD_eq_getLast?, hlast]; rfl
  have hm : maxAbsX xs = last := by
    unfold maxAbsX
    rw [hd, if_neg (by linarith)]
  unfold getRange at h
  rw [if_neg hne, hm, hδ] at h
  by_cases hi : ⌈last / δ⌉ < 2 ^ 31 ∧ -(2 ^ 31) ≤ ⌈last / δ⌉
  · rw [if_pos hi] at h
    simp only [boundWraps, if_neg (not_lt.mpr hn), Option.some.injEq] at h
    subst h
    have hst : 0 < π / last := by positivity
    refine ⟨rfl, hst, fun x hx => ?_, ?_, ?_⟩
    · have hxl : x ≤ last := by
        rw [List.getLast?_eq_getElem?] at hlast
        obtain ⟨i, hi', hxi⟩ := List.mem_iff_getElem.mp hx
        obtain ⟨hj, hlj⟩ := List.getElem?_eq_some_iff.mp hlast
        rcases Nat.lt_or_ge i (xs.length - 1) with hc | hc
        · have := List.pairwise_iff_getElem.mp hs i (xs.length - 1) hi' hj hc
          rw [hxi, hlj] at this
          exact this
        · have : i = xs.length - 1 := by omega
          subst this
          rw [← hxi, ← hlj]
      show π / last * x ≤ π
      rw [div_mul_eq_mul_div, div_le_iff₀ hl]
      exact mul_le_mul_of_nonneg_left hxl hpi.le
    · have h1 := Int.le_ceil (last / δ)
      have h2 : π / last * (last / δ) ≤ π / last * ⌈last / δ⌉ := mul_le_mul_of_nonneg_left h1 hst.le
      have h3 : π / last * (last / δ) = π / δ := by field_simp
      show π / δ ≤ π / last * ⌈last / δ⌉
      linarith
    · have h1 := Int.ceil_lt_add_one (last / δ)
      have h2 : π / last * ⌈last / δ⌉ < π / last * (last / δ + 1) := mul_lt_mul_of_pos_left h1 hst
      have h3 : π / last * (last / δ + 1) = π / δ + π / last := by field_simp
      show π / last * ⌈last / δ⌉ < π / δ + π / last
      linarith
  · rw [if_neg hi] at h
    exact absurd h (by simp)

/-- C105. `FitSlope` recovers a slope exactly from wrapped phases, up to almost half a wrap between the closest neighbours. -/
theorem fitSlopeAuto_recovers (data : List Sample) (hw : ∀ s ∈ data, 0 ≤ s.weight) (hn : 20 ≤ data.length) (xmin : ℝ)
    (hmin : 0 < xmin) (hx : ∀ s ∈ data, xmin ≤ s.x) (hs : data.Pairwise fun a b => a.x ≤ b.x) (last : Sample)
    (hlast : data.getLast? = some last) (a b : Sample) (ha : a ∈ data) (hb : b ∈ data) (haw : 0 < a.weight)
    (hbw : 0 < b.weight) (hab : a.x < b.x) (hδ : minDelta (data.map Sample.x) = b.x - a.x)
    (slope result : ℝ) (hslope : |slope| < π / (b.x - a.x) - π / last.x - π / xmin)
    (hy : ∀ s ∈ data, 0 < s.weight → SamePhase s.y (slope * s.x))
    (h : fitSlopeAuto data = some result) : result = slope := by
  have hpi := Real.pi_pos
  have hd : 0 < b.x - a.x := by linarith
  have hlm : last ∈ data := List.mem_of_getLast? hlast
  have hlp : 0 < last.x := by have := hx last hlm; linarith
  unfold fitSlopeAuto at h
  cases hr : getRange (data.map Sample.x) none with
  | none => rw [hr] at h; exact absurd h (by simp)
  | some range =>
    rw [hr] at h
    simp only [Option.map_some, Option.some.injEq] at h
    obtain ⟨-, h2, h3, h4, h5⟩ := getRange_spec (data.map Sample.x) (by simpa using hn)
      (List.pairwise_map.mpr hs) last.x (by rw [List.getLast?_map, hlast]; rfl) hlp (b.x - a.x) hδ hd range hr
    have hq1 : 0 < π / last.x := by positivity
    have hq2 : 0 < π / xmin := by positivity
    rw [← h]
    refine fitSlope_recovers data hw xmin hmin (fun s hs' _ => hx s hs') range h2
      (fun s hs' _ => h3 s.x (List.mem_map.mpr ⟨s, hs', rfl⟩)) a b ha hb haw hbw hab slope ?_ ?_ hy
    · rw [mul_add]; linarith
    · have : 2 * π / (b.x - a.x) = π / (b.x - a.x) + π / (b.x - a.x) := by ring
      linarith

/-- C105. The conversion of the number of wraps is undefined behaviour for close x values, even if a limit is given. -/
theorem getRange_undefined (xs : List ℝ) (limit : Option ℤ) (h0 : xs ≠ []) (h : (2 : ℝ) ^ 31 ≤ maxAbsX xs / minDelta xs) :
    getRange xs limit = none := by
  unfold getRange
  rw [if_neg h0, if_neg]
  rintro ⟨h1, -⟩
  have h2 : maxAbsX xs / minDelta xs ≤ (⌈maxAbsX xs / minDelta xs⌉ : ℝ) := Int.le_ceil _
  have h3 : ((⌈maxAbsX xs / minDelta xs⌉ : ℤ) : ℝ) < ((2 ^ 31 : ℤ) : ℝ) := by exact_mod_cast h1
  push_cast at h3
  linarith

/-! ## x values of both signs -/

/-- The data for `fitSlope_signs`: the line with slope π/2 at -3 and 1. -/
noncomputable def signs : List Sample := [⟨-3, -3 * π / 2, 1⟩, ⟨1, π / 2, 1⟩]

private theorem signs_fit (u v w : ℝ) (h1 : SamePhase v (-3 * π / 2)) (h2 : -π ≤ v - u * -3) (h3 : v - u * -3 < π)
    (h4 : SamePhase w (π / 2)) (h5 : -π ≤ w - u * 1) (h6 : w - u * 1 < π) : unwrapAndFit signs u = (-3 * v + w) / 10 := by
  rw [fit_eq]
  simp only [signs, List.map_cons, List.map_nil, List.sum_cons, List.sum_nil]
  rw [unwrapped_eq u ⟨-3, -3 * π / 2, 1⟩ v h1 h2 h3, unwrapped_eq u ⟨1, π / 2, 1⟩ w h4 h5 h6]
  norm_num

private theorem same (a b : ℝ) (k : ℤ) (h : a = b + 2 * π * k) : SamePhase a b := ⟨k, h⟩

/-- C105. With x values of both signs the step is that of the last value, though the first one may be larger: the line
through the phases is then not found, though its slope is in the range. -/
theorem fitSlope_signs :
    getRange (signs.map Sample.x) none = some ⟨1, π⟩ ∧ |π / 2| < π * 1 ∧
    (∀ s ∈ signs, SamePhase s.y (π / 2 * s.x)) ∧
    ∃ s ∈ signs, ¬ SamePhase s.y (fitSlope signs ⟨1, π⟩ * s.x) := by
  have hp := Real.pi_pos
  refine ⟨?_, ?_, ?_, ?_⟩
  · have hmd : minDelta [-3, 1] = 4 := by
      refine minDelta_spec _ 4 (by norm_num) four_lt_doubleMax ?_ ⟨0, -3, by simp, by norm_num⟩
      intro i a b h1 h2 _
      match i with
      | 0 =>
        simp only [List.getElem?_cons_zero, List.getElem?_cons_succ, Option.some.injEq] at h1 h2
        linarith
      | n + 1 => simp at h2
    have hma : maxAbsX [-3, 1] = 1 := by
      unfold maxAbsX
      simp only [List.getLastD_cons, List.getLastD_nil]
      rw [if_neg (by norm_num)]
    have hc : ⌈(1 : ℝ) / 4⌉ = 1 := by rw [Int.ceil_eq_iff]; norm_num
    simp only [signs, List.map_cons, List.map_nil]
    unfold getRange
    rw [if_neg (by simp), hma, hmd, hc, if_pos (by norm_num)]
    simp [boundWraps]
  · rw [abs_of_pos (by linarith)]; linarith
  · intro s hs
    simp only [signs, List.mem_cons, List.not_mem_nil, or_false] at hs
    rcases hs with rfl | rfl
    · exact ⟨0, by push_cast; ring⟩
    · exact ⟨0, by push_cast; ring⟩
  · -- the three estimates, each of which is a fixed point
    have e0 : unwrapAndFit signs (π * (0 : ℤ)) = -π / 10 := by
      rw [signs_fit _ (π / 2) (π / 2) (same _ _ 1 (by push_cast; ring)) (by push_cast; linarith) (by push_cast; linarith)
        (same _ _ 0 (by push_cast; ring)) (by push_cast; linarith) (by push_cast; linarith)]
      ring
    have e1 : unwrapAndFit signs (π * (1 : ℤ)) = 11 * π / 10 := by
      rw [signs_fit _ (-7 * π / 2) (π / 2) (same _ _ (-1) (by push_cast; ring)) (by push_cast; linarith)
        (by push_cast; linarith) (same _ _ 0 (by push_cast; ring)) (by push_cast; linarith) (by push_cast; linarith)]
      ring
    have em : unwrapAndFit signs (π * (-1 : ℤ)) = -9 * π / 10 := by
      rw [signs_fit _ (5 * π / 2) (-3 * π / 2) (same _ _ 2 (by push_cast; ring)) (by push_cast; linarith)
        (by push_cast; linarith) (same _ _ (-1) (by push_cast; ring)) (by push_cast; linarith) (by push_cast; linarith)]
      ring
    have f0 : unwrapAndFit signs (-π / 10) = -π / 10 := by
      rw [signs_fit _ (π / 2) (π / 2) (same _ _ 1 (by push_cast; ring)) (by linarith) (by linarith)
        (same _ _ 0 (by push_cast; ring)) (by linarith) (by linarith)]
      ring
    have f1 : unwrapAndFit signs (11 * π / 10) = 11 * π / 10 := by
      rw [signs_fit _ (-7 * π / 2) (π / 2) (same _ _ (-1) (by push_cast; ring)) (by linarith)
        (by linarith) (same _ _ 0 (by push_cast; ring)) (by linarith) (by linarith)]
      ring
    have fm : unwrapAndFit signs (-9 * π / 10) = -9 * π / 10 := by
      rw [signs_fit _ (5 * π / 2) (-3 * π / 2) (same _ _ 2 (by push_cast; ring)) (by linarith)
        (by linarith) (same _ _ (-1) (by push_cast; ring)) (by linarith) (by linarith)]
      ring
    have hz : unwrapAndFit signs 0 = -π / 10 := by simpa using e0
    have hres : fitSlope signs ⟨1, π⟩ = -π / 10 ∨ fitSlope signs ⟨1, π⟩ = 11 * π / 10 ∨ fitSlope signs ⟨1, π⟩ = -9 * π / 10 := by
      unfold fitSlope
      rcases (foldl_tryWrap signs ⟨1, π⟩ (wraps ⟨1, π⟩) (doubleMax, 0)).1 with h | ⟨i, hi, h⟩
      · rw [h]; left; exact hz
      · rw [h]
        rw [mem_wraps] at hi
        simp only at hi ⊢
        have : i = -1 ∨ i = 0 ∨ i = 1 := by omega
        rcases this with rfl | rfl | rfl
        · right; right; rw [em, fm]
        · left; rw [e0, f0]
        · right; left; rw [e1, f1]
    refine ⟨⟨1, π / 2, 1⟩, by simp [signs], ?_⟩
    rintro ⟨k, hk⟩
    simp only at hk
    have key : ∀ q : ℝ, π / 2 = q * π * 1 + 2 * π * k → 1 / 2 = q + 2 * k := by
      intro q hq
      have : π * (1 / 2) = π * (q + 2 * k) := by linarith
      exact mul_left_cancel₀ hp.ne' this
    rcases hres with h | h | h
    · rw [h] at hk
      have := key (-1 / 10) (by linarith)
      have h2 : (20 * k : ℝ) = 6 := by linarith
      have h3 : 20 * k = 6 := by exact_mod_cast h2
      omega
    · rw [h] at hk
      have := key (11 / 10) (by linarith)
      have h2 : (20 * k : ℝ) = -6 := by linarith
      have h3 : 20 * k = -6 := by exact_mod_cast h2
      omega
    · rw [h] at hk
      have := key (-9 / 10) (by linarith)
      have h2 : (20 * k : ℝ) = 14 := by linarith
      have h3 : 20 * k = 14 := by exact_mod_cast h2
      omega

/-! ## Examples -/

/-- Twenty samples of the line with slope 1, at 100 to 119. -/
private noncomputable def exData : List Sample := (List.range 20).map fun (i : Nat) => ⟨100 + i, 100 + i, 1⟩

private theorem exData_mem (s : Sample) (h : s ∈ exData) : ∃ i : Nat, i < 20 ∧ s = ⟨100 + i, 100 + i, 1⟩ := by
  obtain ⟨i, hi, rfl⟩ := List.mem_map.mp h
  exact ⟨i, List.mem_range.mp hi, rfl⟩

private theorem exData_minDelta : minDelta (exData.map Sample.x) = 1 := by
  have hg : ∀ i : Nat, i < 20 → (exData.map Sample.x)[i]? = some (100 + (i : ℝ)) := by
    intro i hi
    simp [exData, hi]
  refine minDelta_spec _ 1 (by norm_num) (by have := four_lt_doubleMax; linarith) ?_
    ⟨0, 100, by rw [hg 0 (by norm_num)]; norm_num, by rw [hg 1 (by norm_num)]; norm_num⟩
  intro i a b h1 h2 _
  have hi : i + 1 < 20 := by
    obtain ⟨hl, -⟩ := List.getElem?_eq_some_iff.mp h2
    simpa [exData] using hl
  rw [hg i (by omega)] at h1
  rw [hg (i + 1) hi] at h2
  simp only [Option.some.injEq] at h1 h2
  rw [← h1, ← h2]
  push_cast
  linarith

private theorem exData_last : exData.getLast? = some ⟨119, 119, 1⟩ := by
  unfold exData
  rw [List.range_succ, List.map_append, List.map_singleton, List.getLast?_append]
  norm_num

/-- Of `fitSlopeAuto_recovers`, with `minDelta_spec` and `getRange_spec`: the slope is found. -/
example (result : ℝ) (h : fitSlopeAuto exData = some result) : result = 1 := by
  have hp := Real.pi_pos
  have h3 := Real.two_le_pi
  refine fitSlopeAuto_recovers exData ?_ (by simp [exData]) 100 (by norm_num) ?_ ?_ ⟨119, 119, 1⟩ exData_last ⟨100, 100, 1⟩
    ⟨101, 101, 1⟩ ?_ ?_ (by norm_num) (by norm_num) (by norm_num) (by rw [exData_minDelta]; norm_num) 1 result ?_ ?_ h
  · intro s hs
    obtain ⟨i, -, rfl⟩ := exData_mem s hs
    norm_num
  · intro s hs
    obtain ⟨i, -, rfl⟩ := exData_mem s hs
    simp
  · unfold exData
    rw [List.pairwise_map]
    refine List.Pairwise.imp ?_ List.pairwise_lt_range
    intro i k hik
    have : (i : ℝ) < k := by exact_mod_cast hik
    simp only
    linarith
  · exact List.mem_map.mpr ⟨0, by simp, by norm_num⟩
  · exact List.mem_map.mpr ⟨1, by simp, by norm_num⟩
  · rw [abs_one]; norm_num; linarith
  · intro s hs _
    obtain ⟨i, -, rfl⟩ := exData_mem s hs
    exact ⟨0, by simp⟩

/-- The range of these data is defined. -/
example : ∃ result, fitSlopeAuto exData = some result := by
  have hm : maxAbsX (exData.map Sample.x) = 119 := by
    unfold maxAbsX
    have : (exData.map Sample.x).getLastD 0 = 119 := by
      rw [List.getLastD_eq_getLast?, List.getLast?_map, exData_last]; rfl
    rw [this, if_neg (by norm_num)]
  have hc : ⌈(119 : ℝ) / 1⌉ = 119 := by rw [Int.ceil_eq_iff]; norm_num
  unfold fitSlopeAuto getRange
  rw [if_neg (by simp [exData]), hm, exData_minDelta, hc, if_pos (by norm_num)]
  exact ⟨_, rfl⟩

/-- Of `fitSlope_bound` and `fitSlope_exact`. -/
example : (∀ s ∈ signs.tail, 0 ≤ s.weight) ∧ (∀ s ∈ signs.tail, 0 < s.weight → 1 ≤ s.x) ∧
    (∀ s ∈ signs.tail, 0 < s.weight → π * |s.x| ≤ π) ∧ |π / 2| < π * ((1 : ℤ) + 1) ∧
    (∀ s ∈ signs.tail, 0 < s.weight → SamePhase s.y (π / 2 * s.x)) := by
  have hp := Real.pi_pos
  refine ⟨by simp [signs], by simp [signs], by simp [signs], ?_, ?_⟩
  · rw [abs_of_pos (by linarith)]; push_cast; linarith
  · intro s hs _
    simp only [signs, List.tail_cons, List.mem_singleton] at hs
    subst hs
    exact ⟨0, by simp⟩

/-- Of `unwrapAndFit_exact` and `unwrapAndFit_least`: from a slope of 0. -/
example : unwrapAndFit [⟨1, π / 2, 1⟩] 0 = π / 2 := by
  have hp := Real.pi_pos
  refine unwrapAndFit_exact _ (by simp) ⟨⟨1, π / 2, 1⟩, by simp, by norm_num, by norm_num⟩ 0 (π / 2) ?_ ?_
  · intro s hs _
    rw [List.mem_singleton] at hs
    subst hs
    exact ⟨0, by simp⟩
  · intro s hs _
    rw [List.mem_singleton] at hs
    subst hs
    simp only [sub_zero, mul_one]
    rw [abs_of_pos (by linarith)]
    linarith

/-- Of `getRange_undefined`: two values with a distance of 2⁻⁴⁰. -/
example : getRange [1, 1 + (2 : ℝ)⁻¹ ^ 40] none = none := by
  refine getRange_undefined _ _ (by simp) ?_
  have hmd : minDelta [1, 1 + (2 : ℝ)⁻¹ ^ 40] = (2 : ℝ)⁻¹ ^ 40 := by
    refine minDelta_spec _ _ (by positivity) (by have := four_lt_doubleMax; norm_num at this ⊢; linarith) ?_
      ⟨0, 1, by simp, by simp⟩
    intro i a b h1 h2 _
    match i with
    | 0 =>
      simp only [List.getElem?_cons_zero, List.getElem?_cons_succ, Option.some.injEq] at h1 h2
      linarith
    | n + 1 => simp at h2
  have hma : maxAbsX [1, 1 + (2 : ℝ)⁻¹ ^ 40] = 1 + (2 : ℝ)⁻¹ ^ 40 := by
    unfold maxAbsX
    simp only [List.getLastD_cons, List.getLastD_nil]
    rw [if_neg (by norm_num)]
  rw [hmd, hma]
  norm_num

end DP3.PhaseLine
