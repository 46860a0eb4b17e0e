import Verif.Tec.Recover

/-!
# C106: what the TEC fitter finds if alpha is a value of the grid, and with two parameters
-/

namespace DP3.Tec

open Real PhaseLine

set_option linter.unusedSimpArgs false

/-- The model with this alpha is exact for some phase offset. -/
def Fits (data : List Chan) (alpha : ℝ) : Prop :=
  ∃ b, ∀ c ∈ data, c.weight ≠ 0 → SamePhase c.phase (alpha / c.nu + b)

theorem circle_mirror (m x p : ℝ) (h : SamePhase p m) : circle (m + x) p = circle (m - x) p := by
  obtain ⟨n, h⟩ := h
  obtain ⟨⟨k, hk⟩, hm, -, -⟩ := circle_spec (m + x) p
  obtain ⟨⟨l, hl⟩, hm', -, -⟩ := circle_spec (m - x) p
  apply le_antisymm
  · rw [hl, ← abs_neg, show -(m - x - p + 2 * π * l) = m + x - p + 2 * π * (2 * n - l : ℤ) by rw [h]; push_cast; ring]
    exact hm _
  · rw [hk, ← abs_neg, show -(m + x - p + 2 * π * k) = m - x - p + 2 * π * (2 * n - k : ℤ) by rw [h]; push_cast; ring]
    exact hm' _

theorem not_pi : ¬ SamePhase 0 π := by
  have hp := Real.pi_pos
  rintro ⟨k, hk⟩
  have h1 : π * (1 + 2 * k : ℝ) = 0 := by linarith
  rcases mul_eq_zero.mp h1 with h | h
  · linarith
  · have : (1 + 2 * k : ℤ) = 0 := by exact_mod_cast h
    omega

theorem fits_of_cost (data : List Chan) (hw : ∀ c ∈ data, 0 ≤ c.weight) (hW : 0 < (data.map Chan.weight).sum) (a b : ℝ)
    (h : cost2 data a b ≤ 0) : Fits data a := by
  obtain ⟨-, h0, -, h1, -⟩ := cost_spec data a b hw hW
  exact ⟨b, h1.mp (le_antisymm h h0)⟩

/-- The search finds the first value of the grid that fits exactly without offset, if no value before it fits exactly. -/
theorem best1_grid (data : List Chan) (hw : ∀ c ∈ data, 0 ≤ c.weight) (hW : 0 < (data.map Chan.weight).sum) (j : Nat)
    (hj : j < 256) (hfit : cost2 data (gridAlpha (-bound) bound j) (fitBeta data (gridAlpha (-bound) bound j) 0) = 0)
    (huniq : ∀ i, i < j → ¬ Fits data (gridAlpha (-bound) bound i)) : (best1 data (-bound) bound).2 = j := by
  obtain ⟨k, hk, he, hmin, hfst⟩ := best1_spec data hw
  have h0 : freeCost data (-bound) bound j = 0 := hfit
  have hk0 : freeCost data (-bound) bound k ≤ 0 := by rw [← h0]; exact hmin j hj
  rw [he]
  rcases lt_trichotomy k j with h | h | h
  · exact absurd (fits_of_cost data hw hW _ _ hk0) (huniq k h)
  · exact h
  · have := hfst j h
    rw [h0] at this
    obtain ⟨-, h1, -⟩ := cost_spec data (gridAlpha (-bound) bound k) (fitBeta data (gridAlpha (-bound) bound k) 0) hw hW
    exact absurd this (not_lt.mpr h1)

/-- C106: the one parameter fit finds alpha exactly if it is a value of the grid, at all frequencies, if no value of the grid
before it fits with some phase offset. -/
theorem fit1_grid (data : List Chan) (acc : ℝ) (hacc : 0 ≤ acc) (hw : ∀ c ∈ data, 0 ≤ c.weight)
    (hW : 0 < (data.map Chan.weight).sum) (j : Nat) (hj : j < 256)
    (hex : ∀ c ∈ data, c.weight ≠ 0 → SamePhase c.phase ((-40000e6 + (j : ℝ) * 312.5e6) / c.nu))
    (huniq : ∀ i : Nat, i < j → ¬ Fits data (-40000e6 + (i : ℝ) * 312.5e6)) :
    fit1 data acc = -40000e6 + (j : ℝ) * 312.5e6 := by
  have hbest : (best1 data (-bound) bound).2 = j := by
    apply best1_grid data hw hW j hj
    · obtain ⟨-, -, -, h, -⟩ := cost_spec data (gridAlpha (-bound) bound j) (fitBeta data (gridAlpha (-bound) bound j) 0) hw hW
      rw [h]
      intro c hc hwc
      have hb := fitBeta_exact data (gridAlpha (-bound) bound j) 0 0 (ne_of_gt hW) (fun c hc hwc => by
        rw [grid_eq, add_zero]; exact hex c hc hwc) (by rw [sub_zero]; exact not_pi)
      obtain ⟨k, hk⟩ := hb
      obtain ⟨n, hn⟩ := hex c hc hwc
      exact ⟨n - k, by rw [hk, hn, grid_eq]; push_cast; ring⟩
    · intro i hi
      rw [grid_eq]
      exact huniq i hi
  unfold fit1
  simp only
  rw [hbest, window_eq, grid_eq]
  simp only
  set a0 : ℝ := -40000e6 + (j : ℝ) * 312.5e6 with ha0
  have hsym : cost1 data (left (a0 - 312.5e6) (a0 + 312.5e6)) = cost1 data (right (a0 - 312.5e6) (a0 + 312.5e6)) := by
    rw [cost1_eq, cost1_eq]
    congr 1
    apply sum_congr
    intro c hc
    by_cases hwc : c.weight = 0
    · rw [hwc, mul_zero, mul_zero]
    · have hl : left (a0 - 312.5e6) (a0 + 312.5e6) / c.nu = a0 / c.nu - 312.5e6 / 3 / c.nu := by unfold left; ring
      have hr : right (a0 - 312.5e6) (a0 + 312.5e6) / c.nu = a0 / c.nu + 312.5e6 / 3 / c.nu := by unfold right; ring
      rw [hl, hr, circle_mirror _ _ _ (hex c hc hwc)]
  rw [ternary1, hsym, if_neg (by simpa using hacc), mid_eq]
  ring

/-- Two channels with different frequencies exclude other values of the grid: frequencies that can be stored are rational. -/
theorem grid_unique (data : List Chan) (a0 : ℚ) (b0 : ℝ)
    (hex : ∀ c ∈ data, c.weight ≠ 0 → SamePhase c.phase (a0 / c.nu + b0)) (c d : Chan) (hc : c ∈ data) (hd : d ∈ data)
    (hwc : c.weight ≠ 0) (hwd : d.weight ≠ 0) (x y : ℚ) (hx : c.nu = x) (hy : d.nu = y) (hx0 : x ≠ 0) (hy0 : y ≠ 0)
    (hxy : x ≠ y) (a : ℚ) (ha : a ≠ a0) : ¬ Fits data a := by
  rintro ⟨b, h⟩
  obtain ⟨k1, h1⟩ := hex c hc hwc
  obtain ⟨k2, h2⟩ := hex d hd hwd
  obtain ⟨k3, h3⟩ := h c hc hwc
  obtain ⟨k4, h4⟩ := h d hd hwd
  rw [hx] at h1 h3
  rw [hy] at h2 h4
  have hne : ((a - a0) * (1 / x - 1 / y) : ℚ) ≠ 0 := by
    apply mul_ne_zero (sub_ne_zero.mpr ha)
    intro h
    apply hxy
    field_simp at h
    linarith
  have hkey : (((a - a0) * (1 / x - 1 / y) : ℚ) : ℝ) = 2 * π * ((k1 - k3 - k2 + k4 : ℤ) : ℝ) := by
    push_cast
    have e1 : (a : ℝ) / x + b + 2 * π * k3 = a0 / x + b0 + 2 * π * k1 := by rw [← h3, ← h1]
    have e2 : (a : ℝ) / y + b + 2 * π * k4 = a0 / y + b0 + 2 * π * k2 := by rw [← h4, ← h2]
    linear_combination e1 - e2
  set r := (a - a0) * (1 / x - 1 / y) with hr
  set k := k1 - k3 - k2 + k4 with hk
  have hk0 : (k : ℝ) ≠ 0 := by
    intro h0
    rw [h0, mul_zero] at hkey
    exact hne (by exact_mod_cast hkey)
  apply irrational_pi
  refine ⟨r / (2 * k), ?_⟩
  push_cast
  rw [hkey]
  field_simp

private theorem exData_exact : ∀ c ∈ exData, c.weight ≠ 0 → SamePhase c.phase (-40000e6 / c.nu) := by
  intro c hc _
  simp only [exData, List.mem_cons, List.not_mem_nil, or_false] at hc
  rcases hc with rfl | rfl
  · exact fmod_samePhase (-40000e6 / 150e6)
  · exact fmod_samePhase (-40000e6 / 200e6)

/-- The first value of the grid is found. -/
example : fit1 exData 1e-6 = -40000e6 := by
  have := fit1_grid exData 1e-6 (by norm_num) (by simp [exData]) (by simp [exData]) 0 (by norm_num)
    (fun c hc hwc => by simpa using exData_exact c hc hwc) (fun i hi => by omega)
  rw [this]; norm_num

/-- Two channels with phase zero, at 150 and 200 MHz. -/
def exZero : List Chan := [⟨150e6, 0, 1⟩, ⟨200e6, 0, 2⟩]

theorem exZero_unique (i : Nat) (hi : i < 128) : ¬ Fits exZero (-40000e6 + (i : ℝ) * 312.5e6) := by
  have h := grid_unique exZero 0 0 (fun c hc _ => by
      simp only [exZero, List.mem_cons, List.not_mem_nil, or_false] at hc
      rcases hc with rfl | rfl <;> simpa using same_refl 0)
    ⟨150e6, 0, 1⟩ ⟨200e6, 0, 2⟩ (by simp [exZero]) (by simp [exZero]) (by simp) (by simp) 150000000 200000000
    (by norm_num) (by norm_num) (by norm_num) (by norm_num) (by norm_num) (-40000000000 + (i : ℚ) * 312500000) (by
      have : (i : ℚ) < 128 := by exact_mod_cast hi
      intro h
      linarith)
  have e : ((-40000000000 + (i : ℚ) * 312500000 : ℚ) : ℝ) = -40000e6 + (i : ℝ) * 312.5e6 := by push_cast; norm_num
  rwa [e] at h

example : fit1 exZero 1e-6 = 0 := by
  have := fit1_grid exZero 1e-6 (by norm_num) (by simp [exZero]) (by simp [exZero]; norm_num) 128 (by norm_num)
    (fun c hc _ => by
      simp only [exZero, List.mem_cons, List.not_mem_nil, or_false] at hc
      rcases hc with rfl | rfl <;> norm_num <;> exact same_refl 0) (fun i hi => exZero_unique i hi)
  rw [this]; norm_num

/-! ## The worst fit -/

/-- C106, not met: the window around the value of the grid is chosen with a free phase offset. If all phases are opposite to
the ones of this value, the costs left and right of it are equal, so the search stops immediately, with the highest possible
cost: π for each channel. Here this is shown for the first value of the grid. -/
theorem fit1_worst (data : List Chan) (acc : ℝ) (hacc : 0 ≤ acc) (hw : ∀ c ∈ data, 0 ≤ c.weight)
    (hW : 0 < (data.map Chan.weight).sum)
    (hex : ∀ c ∈ data, SamePhase c.phase (-40000e6 / c.nu + π) ∧ -π ≤ c.phase ∧ 55e6 ≤ c.nu ∧ c.nu ≤ 10e9) :
    fit1 data acc = -40000e6 ∧ cost1 data (fit1 data acc) = π ∧ cost1 data (-39900e6) < π := by
  have hp := Real.two_le_pi
  have hp4 := Real.pi_le_four
  have hp0 := Real.pi_pos
  have hnu : ∀ c ∈ data, 0 < c.nu := fun c hc => by
    have := (hex c hc).2.2.1
    norm_num at this
    linarith
  have hTne : total data ≠ 0 := ne_of_gt hW
  -- the first value of the grid fits with offset π
  have hres : ∀ c ∈ data, residual (-40000e6) 0 c = π := by
    intro c hc
    obtain ⟨⟨k, hk⟩, hlo, -, hhi⟩ := hex c hc
    have hn := hnu c hc
    have hq : (4 : ℝ) ≤ 40000e6 / c.nu := by
      rw [le_div_iff₀ hn]
      norm_num at hhi ⊢
      linarith
    have e : c.phase - func2 c.nu (-40000e6) 0 = π + 2 * π * k := by
      unfold func2
      rw [hk]
      ring
    have hpos : 0 ≤ c.phase - func2 c.nu (-40000e6) 0 := by
      have : (-40000e6 : ℝ) / c.nu = -(40000e6 / c.nu) := by ring
      unfold func2
      rw [this]
      linarith
    have hf : fmod (c.phase - func2 c.nu (-40000e6) 0) (2 * π) = π := by
      have h1 := fmod_nonneg _ hpos
      obtain ⟨n, hn⟩ := fmod_same (c.phase - func2 c.nu (-40000e6) 0)
      have : k + n = 0 := by
        apply small_multiple
        have : 2 * π * ((k + n : ℤ) : ℝ) = fmod (c.phase - func2 c.nu (-40000e6) 0) (2 * π) - π := by
          rw [hn, e]; push_cast; ring
        rw [this, abs_lt]
        constructor <;> linarith [h1.1, h1.2]
      have hkn : (k : ℝ) + n = 0 := by exact_mod_cast this
      rw [hn, e]
      linear_combination 2 * π * hkn
    unfold residual
    simp only
    rw [hf, if_neg (by linarith), if_neg (by linarith)]
  have hsum : (data.map fun c => residual (-40000e6) 0 c * c.weight).sum = π * total data := by
    have : (data.map fun c => residual (-40000e6) 0 c * c.weight).sum = (data.map fun c => π * c.weight).sum :=
      sum_congr data _ _ fun c hc => by rw [hres c hc]
    rw [this, sum_scale data π Chan.weight]
    rfl
  have s1 : betaStep data (-40000e6) (0, 0) = (π, total data) := by
    rw [betaStep_eq, hsum, zero_add, zero_add, mul_div_cancel_right₀ _ hTne]
  have s2 : ∀ W, betaStep data (-40000e6) (π, W) = (π, W + total data) := by
    intro W
    rw [betaStep_eq]
    have : (data.map fun c => residual (-40000e6) π c * c.weight).sum = (data.map fun _ => (0 : ℝ)).sum := by
      apply sum_congr
      intro c hc
      obtain ⟨⟨k, hk⟩, -⟩ := hex c hc
      rw [residual_eq _ _ _ 0 ⟨-k, by rw [hk]; push_cast; ring⟩ (by rw [abs_zero]; exact hp0), zero_mul]
    rw [this]
    simp
  have hb : SamePhase (fitBeta data (-40000e6) 0) π := by
    unfold fitBeta
    rw [s1, s2, s2]
    exact fmod_samePhase π
  have hg0 : gridAlpha (-bound) bound 0 = -40000e6 := by rw [grid_eq]; simp
  have hbest : (best1 data (-bound) bound).2 = 0 := by
    apply best1_grid data hw hW 0 (by norm_num)
    · rw [hg0]
      obtain ⟨-, -, -, h, -⟩ := cost_spec data (-40000e6) (fitBeta data (-40000e6) 0) hw hW
      rw [h]
      intro c hc _
      obtain ⟨⟨k, hk⟩, -⟩ := hex c hc
      obtain ⟨n, hn⟩ := hb
      exact ⟨k - n, by rw [hn, hk]; push_cast; ring⟩
    · intro i hi; omega
  -- the cost around the value
  have hcost : ∀ x : ℝ, |x| ≤ 110e6 → ∀ c ∈ data, circle ((-40000e6 + x) / c.nu) c.phase = π - |x| / c.nu := by
    intro x hx c hc
    obtain ⟨⟨k, hk⟩, -, hlo, -⟩ := hex c hc
    have hn := hnu c hc
    have hxn : |x| / c.nu ≤ π := by
      rw [div_le_iff₀ hn]
      norm_num at hx hlo
      nlinarith
    have hx0 : 0 ≤ |x| / c.nu := div_nonneg (abs_nonneg x) (le_of_lt hn)
    rcases le_total 0 x with h | h
    · rw [abs_of_nonneg h] at hxn hx0 ⊢
      rw [circle_small _ _ (x / c.nu - π) ⟨-k, by rw [hk]; push_cast; ring⟩ (by rw [abs_le]; constructor <;> linarith)]
      rw [abs_of_nonpos (by linarith)]
      ring
    · rw [abs_of_nonpos h] at hxn hx0 ⊢
      have hd : -x / c.nu = -(x / c.nu) := by ring
      rw [hd] at hxn hx0 ⊢
      rw [circle_small _ _ (x / c.nu + π) ⟨-k - 1, by rw [hk]; push_cast; ring⟩ (by rw [abs_le]; constructor <;> linarith)]
      rw [abs_of_nonneg (by linarith)]
      ring
  have hcost1 : ∀ x : ℝ, |x| ≤ 110e6 →
      cost1 data (-40000e6 + x) = (data.map fun c => (π - |x| / c.nu) * c.weight).sum / total data := by
    intro x hx
    rw [cost1_eq]
    congr 1
    exact sum_congr data _ _ fun c hc => by rw [hcost x hx c hc]
  have hfit : fit1 data acc = -40000e6 := by
    unfold fit1
    simp only
    rw [hbest, window_eq, hg0]
    simp only
    have hl : left ((-40000e6 : ℝ) - 312.5e6) (-40000e6 + 312.5e6) = -40000e6 + -(312.5e6 / 3) := by unfold left; ring
    have hr : right ((-40000e6 : ℝ) - 312.5e6) (-40000e6 + 312.5e6) = -40000e6 + 312.5e6 / 3 := by unfold right; ring
    have e1 : |(312.5e6 / 3 : ℝ)| ≤ 110e6 := by rw [abs_of_pos (by norm_num)]; norm_num
    rw [ternary1, hl, hr, hcost1 _ (by rw [abs_neg]; exact e1), hcost1 _ e1, abs_neg, if_neg (by simpa using hacc)]
    norm_num
  refine ⟨hfit, ?_, ?_⟩
  · rw [hfit]
    have := hcost1 0 (by norm_num)
    rw [add_zero] at this
    rw [this]
    simp only [abs_zero, zero_div, sub_zero]
    rw [sum_scale data π Chan.weight]
    exact mul_div_cancel_right₀ _ hTne
  · have := hcost1 100e6 (by rw [abs_of_pos (by norm_num)]; norm_num)
    rw [show (-40000e6 + 100e6 : ℝ) = -39900e6 by norm_num] at this
    rw [this, div_lt_iff₀ (show 0 < total data from hW)]
    have hsplit : (data.map fun c => (π - |(100e6 : ℝ)| / c.nu) * c.weight).sum =
        π * total data + -((data.map fun c => 100e6 / c.nu * c.weight).sum) := by
      have e1 : (data.map fun c => (π - |(100e6 : ℝ)| / c.nu) * c.weight).sum =
          (data.map fun c => π * c.weight + -1 * (100e6 / c.nu * c.weight)).sum := by
        apply sum_congr
        intro c _
        rw [abs_of_pos (by norm_num)]
        ring
      rw [e1, sum_plus data (fun c => π * c.weight) (fun c => -1 * (100e6 / c.nu * c.weight)), sum_scale data π Chan.weight,
        sum_scale data (-1) fun c => 100e6 / c.nu * c.weight]
      rw [show (data.map Chan.weight).sum = total data from rfl]
      ring
    have hpos : 0 < (data.map fun c => 100e6 / c.nu * c.weight).sum := by
      have hnn : ∀ c ∈ data, 0 ≤ 100e6 / c.nu * c.weight := fun c hc =>
        mul_nonneg (div_nonneg (by norm_num) (le_of_lt (hnu c hc))) (hw c hc)
      have : ∃ c ∈ data, c.weight ≠ 0 := by
        by_contra hcon
        push Not at hcon
        have : (data.map Chan.weight).sum = (data.map fun _ => (0 : ℝ)).sum := sum_congr data _ _ hcon
        rw [this] at hW
        simp at hW
      obtain ⟨c, hc, hwc⟩ := this
      exact sum_gt data _ hnn c hc (mul_pos (div_pos (by norm_num) (hnu c hc))
        (lt_of_le_of_ne (hw c hc) (Ne.symm hwc)))
    rw [hsplit]
    show _ < π * total data
    linarith

/-- The phase in [-π, π] that is opposite to the one of the first value of the grid. -/
noncomputable def exOpposite (nu : ℝ) : Chan := ⟨nu, residual 0 0 ⟨1, -40000e6 / nu + π, 1⟩, 1⟩

example : fit1 [exOpposite 150e6, exOpposite 200e6] 1e-6 = -40000e6 ∧
    cost1 [exOpposite 150e6, exOpposite 200e6] (fit1 [exOpposite 150e6, exOpposite 200e6] 1e-6) = π := by
  have h : ∀ nu : ℝ, SamePhase (exOpposite nu).phase (-40000e6 / nu + π) ∧ -π ≤ (exOpposite nu).phase := by
    intro nu
    obtain ⟨h1, h2⟩ := residual_spec 0 0 ⟨1, -40000e6 / nu + π, 1⟩
    exact ⟨by simpa [exOpposite] using h1, (abs_le.mp h2).1⟩
  have := fit1_worst [exOpposite 150e6, exOpposite 200e6] 1e-6 (by norm_num) (by simp [exOpposite]) (by simp [exOpposite])
    (fun c hc => by
      simp only [List.mem_cons, List.not_mem_nil, or_false] at hc
      rcases hc with rfl | rfl
      · exact ⟨(h _).1, (h _).2, by norm_num [exOpposite], by norm_num [exOpposite]⟩
      · exact ⟨(h _).1, (h _).2, by norm_num [exOpposite], by norm_num [exOpposite]⟩)
  exact ⟨this.1, this.2.1⟩

/-! ## Exact data, two parameters -/

/-- The weighted mean of 1/ν. -/
noncomputable def meanInv (data : List Chan) : ℝ := (data.map fun c => c.weight / c.nu).sum / total data

/-- The weighted mean distance of 1/ν to its mean. -/
noncomputable def spread (data : List Chan) : ℝ := (data.map fun c => |1 / c.nu - meanInv data| * c.weight).sum / total data

/-- The fitted offset for an alpha that is not the right one, from the offset for another one. -/
theorem fitBeta_line (data : List Chan) (a0 b0 a a' est : ℝ) (hW : total data ≠ 0)
    (hex : ∀ c ∈ data, c.weight ≠ 0 → SamePhase c.phase (a0 / c.nu + b0))
    (hest : SamePhase est (b0 + (a0 - a') * meanInv data))
    (h1 : ∀ c ∈ data, c.weight ≠ 0 → |a0 - a| * |1 / c.nu - meanInv data| + |a' - a| * |meanInv data| < π) :
    SamePhase (fitBeta data a est) (b0 + (a0 - a) * meanInv data) := by
  obtain ⟨n, hn⟩ := hest
  have habs : ∀ c ∈ data, c.weight ≠ 0 → |(a0 - a) * (1 / c.nu - meanInv data)| < π := by
    intro c hc hw
    rw [abs_mul]
    have := h1 c hc hw
    have h2 : 0 ≤ |a' - a| * |meanInv data| := mul_nonneg (abs_nonneg _) (abs_nonneg _)
    linarith
  have := fitBeta_mean data a est (b0 + 2 * π * n + (a0 - a) * meanInv data) (fun c => a0 / c.nu + b0 + 2 * π * n) hW
    (fun c hc hw => by
      obtain ⟨k, hk⟩ := hex c hc hw
      exact ⟨n - k, by rw [hk]; push_cast; ring⟩)
    (fun c hc hw => by
      rw [show a0 / c.nu + b0 + 2 * π * n - a / c.nu - est =
        (a0 - a) * (1 / c.nu - meanInv data) + (a' - a) * meanInv data by rw [hn]; ring]
      refine lt_of_le_of_lt (abs_add_le _ _) ?_
      rw [abs_mul, abs_mul]
      exact h1 c hc hw)
    (by
      have : (data.map fun c => (a0 / c.nu + b0 + 2 * π * n - a / c.nu) * c.weight).sum =
          (data.map fun c => (b0 + 2 * π * n) * c.weight + (a0 - a) * (c.weight / c.nu)).sum := by
        apply sum_congr; intro c _; ring
      rw [this, sum_plus data (fun c => (b0 + 2 * π * n) * c.weight) (fun c => (a0 - a) * (c.weight / c.nu)),
        sum_scale data (b0 + 2 * π * n) Chan.weight, sum_scale data (a0 - a) fun c => c.weight / c.nu]
      rw [show (data.map Chan.weight).sum = total data from rfl]
      unfold meanInv
      field_simp)
    (fun c hc hw => by
      rw [show a0 / c.nu + b0 + 2 * π * n - a / c.nu - (b0 + 2 * π * n + (a0 - a) * meanInv data) =
        (a0 - a) * (1 / c.nu - meanInv data) by ring]
      exact habs c hc hw)
  refine same_trans this.1 ⟨n, by ring⟩

theorem cost2_line (data : List Chan) (a0 b0 a b : ℝ)
    (hex : ∀ c ∈ data, c.weight ≠ 0 → SamePhase c.phase (a0 / c.nu + b0))
    (hb : SamePhase b (b0 + (a0 - a) * meanInv data))
    (h1 : ∀ c ∈ data, c.weight ≠ 0 → |a0 - a| * |1 / c.nu - meanInv data| ≤ π) :
    cost2 data a b = spread data * |a - a0| := by
  rw [cost2_eq]
  obtain ⟨n, hn⟩ := hb
  have : (data.map fun c => circle (a / c.nu + b) c.phase * c.weight).sum =
      (data.map fun c => |a - a0| * (|1 / c.nu - meanInv data| * c.weight)).sum := by
    apply sum_congr
    intro c hc
    by_cases hw : c.weight = 0
    · rw [hw]; simp
    · obtain ⟨k, hk⟩ := hex c hc hw
      have habs : |(a - a0) * (1 / c.nu - meanInv data)| = |a - a0| * |1 / c.nu - meanInv data| := abs_mul _ _
      rw [circle_small (a / c.nu + b) c.phase ((a - a0) * (1 / c.nu - meanInv data))
        ⟨n - k, by rw [hk, hn]; push_cast; ring⟩ (by rw [habs, abs_sub_comm]; exact h1 c hc hw), habs]
      ring
  rw [this, sum_scale data |a - a0| fun c => |1 / c.nu - meanInv data| * c.weight]
  unfold spread
  ring

private theorem step2_line (data : List Chan) (a0 b0 s e beta : ℝ) (hW : total data ≠ 0) (hse : s < e) (h1 : s ≤ a0) (h2 : a0 ≤ e)
    (hex : ∀ c ∈ data, c.weight ≠ 0 → SamePhase c.phase (a0 / c.nu + b0))
    (hb : SamePhase beta (b0 + (a0 - (s + e) / 2) * meanInv data))
    (hnu : ∀ c ∈ data, c.weight ≠ 0 → (e - s) * |1 / c.nu - meanInv data| + (e - s) / 6 * |meanInv data| < π) :
    let lb := fitBeta data (left s e) beta
    let rb := fitBeta data (right s e) beta
    SamePhase lb (b0 + (a0 - left s e) * meanInv data) ∧ SamePhase rb (b0 + (a0 - right s e) * meanInv data) ∧
      cost2 data (left s e) lb = spread data * |left s e - a0| ∧ cost2 data (right s e) rb = spread data * |right s e - a0| ∧
      ∀ x, SamePhase x (b0 + (a0 - left s e) * meanInv data) ∨ SamePhase x (b0 + (a0 - right s e) * meanInv data) →
        SamePhase (fitBeta data ((s + e) / 2) x) (b0 + (a0 - (s + e) / 2) * meanInv data) := by
  intro lb rb
  obtain ⟨l1, l2, l3, l4⟩ := left_lt hse
  have hcond : ∀ a a' : ℝ, s ≤ a → a ≤ e → |a' - a| ≤ (e - s) / 6 → ∀ c ∈ data, c.weight ≠ 0 →
      |a0 - a| * |1 / c.nu - meanInv data| + |a' - a| * |meanInv data| < π := by
    intro a a' ha1 ha2 haa c hc hw
    have k1 : |a0 - a| ≤ e - s := by rw [abs_le]; constructor <;> linarith
    have k2 := mul_le_mul_of_nonneg_right k1 (abs_nonneg (1 / c.nu - meanInv data))
    have k3 := mul_le_mul_of_nonneg_right haa (abs_nonneg (meanInv data))
    linarith [hnu c hc hw]
  have hle : ∀ a : ℝ, s ≤ a → a ≤ e → ∀ c ∈ data, c.weight ≠ 0 → |a0 - a| * |1 / c.nu - meanInv data| ≤ π := by
    intro a ha1 ha2 c hc hw
    have := hcond a a ha1 ha2 (by rw [sub_self, abs_zero]; linarith) c hc hw
    rw [sub_self, abs_zero, zero_mul, add_zero] at this
    exact le_of_lt this
  have dl : (s + e) / 2 - left s e = (e - s) / 6 := by unfold left; ring
  have dr : right s e - (s + e) / 2 = (e - s) / 6 := by unfold right; ring
  have bl : SamePhase lb (b0 + (a0 - left s e) * meanInv data) := by
    apply fitBeta_line data a0 b0 (left s e) ((s + e) / 2) beta hW hex hb
    apply hcond _ _ (by linarith) (by linarith)
    rw [dl, abs_of_pos (by linarith)]
  have br : SamePhase rb (b0 + (a0 - right s e) * meanInv data) := by
    apply fitBeta_line data a0 b0 (right s e) ((s + e) / 2) beta hW hex hb
    apply hcond _ _ (by linarith) (by linarith)
    rw [abs_sub_comm, dr, abs_of_pos (by linarith)]
  refine ⟨bl, br, cost2_line data a0 b0 _ _ hex bl (hle _ (by linarith) (by linarith)),
    cost2_line data a0 b0 _ _ hex br (hle _ (by linarith) (by linarith)), ?_⟩
  rintro x (hx | hx)
  · apply fitBeta_line data a0 b0 ((s + e) / 2) (left s e) x hW hex hx
    apply hcond _ _ (by linarith) (by linarith)
    rw [abs_sub_comm, dl, abs_of_pos (by linarith)]
  · apply fitBeta_line data a0 b0 ((s + e) / 2) (right s e) x hW hex hx
    apply hcond _ _ (by linarith) (by linarith)
    rw [dr, abs_of_pos (by linarith)]

/-- The search on exact data: alpha is found up to the accuracy, and beta belongs to this alpha. -/
theorem ternary2_line (data : List Chan) (acc a0 b0 : ℝ) (hW : total data ≠ 0) (hs : 0 < spread data)
    (hex : ∀ c ∈ data, c.weight ≠ 0 → SamePhase c.phase (a0 / c.nu + b0)) (n : Nat) (s e beta : ℝ) (hse : s < e)
    (h1 : s ≤ a0) (h2 : a0 ≤ e) (hb : SamePhase beta (b0 + (a0 - (s + e) / 2) * meanInv data))
    (hnu : ∀ c ∈ data, c.weight ≠ 0 → (e - s) * |1 / c.nu - meanInv data| + (e - s) / 6 * |meanInv data| < π) :
    let r := ternary2 data acc n s e beta
    (|r.1 - a0| ≤ 3 / 2 * acc / spread data ∨ |r.1 - a0| ≤ (2 / 3) ^ n * (e - s) / 2) ∧
      SamePhase r.2 (b0 + (a0 - r.1) * meanInv data) := by
  have last : ∀ s e beta : ℝ, s < e → s ≤ a0 → a0 ≤ e → SamePhase beta (b0 + (a0 - (s + e) / 2) * meanInv data) →
      (∀ c ∈ data, c.weight ≠ 0 → (e - s) * |1 / c.nu - meanInv data| + (e - s) / 6 * |meanInv data| < π) →
      SamePhase (fitBeta data ((s + e) / 2) (step2 data s e beta).1.2.2) (b0 + (a0 - (s + e) / 2) * meanInv data) := by
    intro s e beta hse h1 h2 hb hnu
    obtain ⟨bl, br, cl, cr, hl⟩ := step2_line data a0 b0 s e beta hW hse h1 h2 hex hb hnu
    apply hl
    unfold step2
    simp only
    by_cases hc : cost2 data (left s e) (fitBeta data (left s e) beta) < cost2 data (right s e) (fitBeta data (right s e) beta)
    · rw [if_pos hc]; exact .inl bl
    · rw [if_neg hc]; exact .inr br
  induction n generalizing s e beta with
  | zero =>
    intro r
    have hr : r = ((s + e) / 2, fitBeta data ((s + e) / 2) (step2 data s e beta).1.2.2) := by
      show ternary2 data acc 0 s e beta = _
      unfold ternary2
      rw [mid_eq]
    rw [hr]
    refine ⟨.inr ?_, last s e beta hse h1 h2 hb hnu⟩
    simpa using abs_dist h1 h2
  | succ n ih =>
    intro r
    obtain ⟨l1, l2, l3, l4⟩ := left_lt hse
    obtain ⟨bl, br, cl, cr, hl⟩ := step2_line data a0 b0 s e beta hW hse h1 h2 hex hb hnu
    have hmid : left s e + right s e = s + e := by unfold left right; ring
    have hr : r = ternary2 data acc (n + 1) s e beta := rfl
    unfold ternary2 at hr
    have hnarrow : ∀ w : ℝ, 0 ≤ w → w ≤ e - s → ∀ c ∈ data, c.weight ≠ 0 →
        w * |1 / c.nu - meanInv data| + w / 6 * |meanInv data| < π := by
      intro w hw0 hw c hc hwc
      have k1 := mul_le_mul_of_nonneg_right hw (abs_nonneg (1 / c.nu - meanInv data))
      have k2 := mul_le_mul_of_nonneg_right (show w / 6 ≤ (e - s) / 6 by linarith) (abs_nonneg (meanInv data))
      linarith [hnu c hc hwc]
    by_cases hc : acc < (step2 data s e beta).2
    · rw [if_pos hc] at hr
      unfold step2 at hr
      simp only at hr
      by_cases hlt : cost2 data (left s e) (fitBeta data (left s e) beta) < cost2 data (right s e) (fitBeta data (right s e) beta)
      · rw [if_pos hlt] at hr
        rw [cl, cr] at hlt
        have hl' : |left s e - a0| < |right s e - a0| := lt_of_mul_lt_mul_left hlt (le_of_lt hs)
        have ha : a0 ≤ right s e := by
          by_contra hcon
          rw [not_le] at hcon
          rw [abs_of_neg (by linarith : left s e - a0 < 0), abs_of_neg (by linarith : right s e - a0 < 0)] at hl'
          linarith
        have hm : (s + right s e) / 2 = left s e := by unfold left right; ring
        have := ih s (right s e) (fitBeta data (left s e) beta) (by linarith) h1 ha (by rw [hm]; exact bl)
          (hnarrow _ (by linarith) (by linarith))
        rw [hr]
        refine ⟨?_, this.2⟩
        rcases this.1 with h | h
        · exact .inl h
        · right
          have hw : (2 / 3 : ℝ) ^ n * (right s e - s) / 2 = (2 / 3) ^ (n + 1) * (e - s) / 2 := by unfold right; ring
          rwa [hw] at h
      · rw [if_neg hlt] at hr
        rw [cl, cr, not_lt] at hlt
        have hl' : |right s e - a0| ≤ |left s e - a0| := le_of_mul_le_mul_left hlt hs
        have ha : left s e ≤ a0 := by
          by_contra hcon
          rw [not_le] at hcon
          rw [abs_of_pos (by linarith : 0 < left s e - a0), abs_of_pos (by linarith : 0 < right s e - a0)] at hl'
          linarith
        have hm : (left s e + e) / 2 = right s e := by unfold left right; ring
        have := ih (left s e) e (fitBeta data (right s e) beta) (by linarith) ha h2 (by rw [hm]; exact br)
          (hnarrow _ (by linarith) (by linarith))
        rw [hr]
        refine ⟨?_, this.2⟩
        rcases this.1 with h | h
        · exact .inl h
        · right
          have hw : (2 / 3 : ℝ) ^ n * (e - left s e) / 2 = (2 / 3) ^ (n + 1) * (e - s) / 2 := by unfold left; ring
          rwa [hw] at h
    · rw [if_neg hc, mid_eq] at hr
      rw [hr]
      refine ⟨.inl ?_, last s e beta hse h1 h2 hb hnu⟩
      have hd : (step2 data s e beta).2 = abs (spread data * |left s e - a0| - spread data * |right s e - a0|) := by
        unfold step2
        simp only
        rw [cl, cr]
      rw [hd] at hc
      exact stop_bound s e a0 acc (spread data) hs hse h1 h2 (not_lt.mp hc)

/-- C106: the two parameter fit finds alpha and beta of exact data, if the search over the grid ends within a step of alpha,
with the offset that belongs to it. The condition on the frequencies is that the window has no wraps: the change over the
window of the phase relative to the mean phase, plus the change of the mean phase over a sixth of it, is less than π. -/
theorem fit2_recovers (data : List Chan) (acc beta a0 b0 : ℝ) (hW : (data.map Chan.weight).sum ≠ 0) (hs : 0 < spread data)
    (hex : ∀ c ∈ data, c.weight ≠ 0 → SamePhase c.phase (a0 / c.nu + b0))
    (hnu : ∀ c ∈ data, c.weight ≠ 0 → 625e6 * |1 / c.nu - meanInv data| + 625e6 / 6 * |meanInv data| < π)
    (hk : |gridAlpha (-bound) bound (best2 data (-bound) bound beta).index - a0| ≤ 312.5e6)
    (hb : SamePhase (best2 data (-bound) bound beta).beta
      (b0 + (a0 - gridAlpha (-bound) bound (best2 data (-bound) bound beta).index) * meanInv data)) :
    (|(fit2 data acc beta).1 - a0| ≤ 3 / 2 * acc / spread data ∨ |(fit2 data acc beta).1 - a0| ≤ (2 / 3) ^ 99 * 312.5e6) ∧
      SamePhase (fit2 data acc beta).2 (b0 + (a0 - (fit2 data acc beta).1) * meanInv data) := by
  obtain ⟨h1, h2⟩ := abs_le.mp hk
  set g := gridAlpha (-bound) bound (best2 data (-bound) bound beta).index with hg
  have hwid : g + 312.5e6 - (g - 312.5e6) = 625e6 := by norm_num
  have hmid : (g - 312.5e6 + (g + 312.5e6)) / 2 = g := by ring
  have := ternary2_line data acc a0 b0 hW hs hex 99 (g - 312.5e6) (g + 312.5e6) (best2 data (-bound) bound beta).beta
    (by norm_num; linarith) (by linarith) (by linarith) (by rw [hmid]; exact hb) (by rw [hwid]; exact hnu)
  have hf : fit2 data acc beta = ternary2 data acc 99 (g - 312.5e6) (g + 312.5e6) (best2 data (-bound) bound beta).beta := by
    unfold fit2
    simp only
    rw [window_eq]
  rw [hf]
  refine ⟨?_, this.2⟩
  rcases this.1 with h | h
  · exact .inl h
  · right
    refine le_trans h (le_of_eq ?_)
    rw [hwid]
    norm_num

/-- C106: if the search over the grid ends with the right alpha and beta, these are the result. -/
theorem fit2_grid (data : List Chan) (acc beta a0 b0 : ℝ) (hacc : 0 ≤ acc) (hW : (data.map Chan.weight).sum ≠ 0)
    (hex : ∀ c ∈ data, c.weight ≠ 0 → SamePhase c.phase (a0 / c.nu + b0))
    (hnu : ∀ c ∈ data, c.weight ≠ 0 → 625e6 * |1 / c.nu - meanInv data| + 625e6 / 6 * |meanInv data| < π)
    (hk : gridAlpha (-bound) bound (best2 data (-bound) bound beta).index = a0)
    (hb : SamePhase (best2 data (-bound) bound beta).beta b0) :
    (fit2 data acc beta).1 = a0 ∧ SamePhase (fit2 data acc beta).2 b0 := by
  have hwid : a0 + 312.5e6 - (a0 - 312.5e6) = 625e6 := by norm_num
  have hmid : (a0 - 312.5e6 + (a0 + 312.5e6)) / 2 = a0 := by ring
  have hse : a0 - 312.5e6 < a0 + 312.5e6 := by norm_num; linarith
  obtain ⟨bl, br, cl, cr, hl⟩ := step2_line data a0 b0 (a0 - 312.5e6) (a0 + 312.5e6) (best2 data (-bound) bound beta).beta hW
    hse (by norm_num) (by norm_num) hex (by rw [hmid]; simpa using hb) (by rw [hwid]; exact hnu)
  have hd : (step2 data (a0 - 312.5e6) (a0 + 312.5e6) (best2 data (-bound) bound beta).beta).2 = 0 := by
    unfold step2
    simp only
    rw [cl, cr]
    have e1 : left (a0 - 312.5e6) (a0 + 312.5e6) - a0 = -(312.5e6 / 3) := by unfold left; ring
    have e2 : right (a0 - 312.5e6) (a0 + 312.5e6) - a0 = 312.5e6 / 3 := by unfold right; ring
    rw [e1, e2, abs_neg, sub_self, abs_zero]
  have hf : fit2 data acc beta = (a0, fitBeta data a0
      (step2 data (a0 - 312.5e6) (a0 + 312.5e6) (best2 data (-bound) bound beta).beta).1.2.2) := by
    unfold fit2
    simp only
    rw [window_eq, hk]
    simp only
    rw [ternary2, if_neg (by rw [hd]; exact not_lt.mpr hacc), mid_eq, hmid]
  rw [hf]
  refine ⟨rfl, ?_⟩
  have := hl (step2 data (a0 - 312.5e6) (a0 + 312.5e6) (best2 data (-bound) bound beta).beta).1.2.2 (by
    unfold step2
    simp only
    split
    · exact .inl bl
    · exact .inr br)
  rw [hmid, sub_self, zero_mul, add_zero] at this
  exact this

/-- The search over the grid ends with the first value if that fits exactly from the start. -/
theorem best2_first (data : List Chan) (hw : ∀ c ∈ data, 0 ≤ c.weight) (hW : 0 < (data.map Chan.weight).sum) (beta b0 : ℝ)
    (hex : ∀ c ∈ data, c.weight ≠ 0 → SamePhase c.phase (-40000e6 / c.nu + b0)) (hb : ¬ SamePhase (b0 - beta) π) :
    (best2 data (-bound) bound beta).index = 0 ∧ SamePhase (best2 data (-bound) bound beta).beta b0 := by
  have hg0 : gridAlpha (-bound) bound 0 = -40000e6 := by rw [grid_eq]; simp
  have hfit := fitBeta_exact data (-40000e6) beta b0 (ne_of_gt hW) hex hb
  have hcost : cost2 data (-40000e6) (fitBeta data (-40000e6) beta) = 0 := by
    obtain ⟨-, -, -, h, -⟩ := cost_spec data (-40000e6) (fitBeta data (-40000e6) beta) hw hW
    rw [h]
    intro c hc hwc
    obtain ⟨k, hk⟩ := hex c hc hwc
    obtain ⟨n, hn⟩ := hfit
    exact ⟨k - n, by rw [hn, hk]; push_cast; ring⟩
  have hstep : ∀ (b : Best) i, b.cost = 0 → try2 data (-bound) bound b i = b := by
    intro b i hb0
    unfold try2
    simp only
    rw [if_neg]
    rw [hb0, not_lt]
    exact (cost_spec data _ _ hw hW).2.1
  have hl : ∀ (l : List Nat) (b : Best), b.cost = 0 → l.foldl (try2 data (-bound) bound) b = b := by
    intro l
    induction l with
    | nil => intro b _; rfl
    | cons i l ih => intro b hb0; rw [List.foldl_cons, hstep b i hb0, ih b hb0]
  have : best2 data (-bound) bound beta = ⟨0, 0, fitBeta data (-40000e6) beta⟩ := by
    unfold best2
    rw [show List.range 256 = 0 :: (List.range 255).map Nat.succ from List.range_succ_eq_map, List.foldl_cons]
    have h0 : try2 data (-bound) bound ⟨doubleMax, 0, beta⟩ 0 = ⟨0, 0, fitBeta data (-40000e6) beta⟩ := by
      unfold try2
      simp only
      rw [hg0, hcost, if_pos (by linarith [four_lt_doubleMax])]
    rw [h0, hl _ _ rfl]
  rw [this]
  exact ⟨rfl, hfit⟩

private theorem exData_mean : meanInv exData = 7 / 1200e6 := by
  simp [meanInv, total, exData]
  norm_num

/-- Both channels of the example have the right phase, so alpha and beta are found. -/
theorem exData_fit2 : (fit2 exData 1e-6 0).1 = -40000e6 ∧ SamePhase (fit2 exData 1e-6 0).2 0 := by
  have hp := Real.two_le_pi
  have hex : ∀ c ∈ exData, c.weight ≠ 0 → SamePhase c.phase (-40000e6 / c.nu + 0) := by
    intro c hc hwc
    rw [add_zero]
    exact exData_exact c hc hwc
  obtain ⟨h1, h2⟩ := best2_first exData (by simp [exData]) (by simp [exData]) 0 0 hex (by rw [sub_zero]; exact not_pi)
  apply fit2_grid exData 1e-6 0 (-40000e6) 0 (by norm_num) (by simp [exData]) hex _ (by rw [h1, grid_eq]; simp) h2
  intro c hc _
  rw [exData_mean]
  simp only [exData, List.mem_cons, List.not_mem_nil, or_false] at hc
  rcases hc with rfl | rfl
  · norm_num
    linarith
  · norm_num
    linarith

example : |(fit2 exData 1e-6 0).1 - -40000e6| ≤ 3 / 2 * 1e-6 / spread exData ∨
    |(fit2 exData 1e-6 0).1 - -40000e6| ≤ (2 / 3) ^ 99 * 312.5e6 := by
  have hp := Real.two_le_pi
  have hex : ∀ c ∈ exData, c.weight ≠ 0 → SamePhase c.phase (-40000e6 / c.nu + 0) := by
    intro c hc hwc
    rw [add_zero]
    exact exData_exact c hc hwc
  obtain ⟨h1, h2⟩ := best2_first exData (by simp [exData]) (by simp [exData]) 0 0 hex (by rw [sub_zero]; exact not_pi)
  have hg : gridAlpha (-bound) bound (best2 exData (-bound) bound 0).index = -40000e6 := by rw [h1, grid_eq]; simp
  refine (fit2_recovers exData 1e-6 0 (-40000e6) 0 (by simp [exData]) ?_ hex ?_ (by rw [hg]; norm_num)
    (by rw [hg]; simpa using h2)).1
  · unfold spread
    rw [exData_mean]
    simp [total, exData]
    norm_num
  · intro c hc _
    rw [exData_mean]
    simp only [exData, List.mem_cons, List.not_mem_nil, or_false] at hc
    rcases hc with rfl | rfl
    · norm_num
      linarith
    · norm_num
      linarith

/-- Two channels with phase zero at 320 and 400 MHz. -/
example : |fit1 [⟨320e6, 0, 1⟩, ⟨400e6, 0, 1⟩] 1e-6 - 0| ≤ 3 / 2 * 1e-6 / (1 / 320e6 * (9 / 10)) ∨
    |fit1 [⟨320e6, 0, 1⟩, ⟨400e6, 0, 1⟩] 1e-6 - 0| ≤ (2 / 3) ^ 99 * 312.5e6 := by
  have hp := Real.two_le_pi
  set data : List Chan := [⟨320e6, 0, 1⟩, ⟨400e6, 0, 1⟩] with hdata
  have hw : ∀ c ∈ data, 0 ≤ c.weight := by simp [hdata]
  have hW : 0 < (data.map Chan.weight).sum := by simp [hdata]
  have hex : ∀ c ∈ data, c.weight ≠ 0 → SamePhase c.phase (0 / c.nu) := by
    intro c hc _
    simp only [hdata, List.mem_cons, List.not_mem_nil, or_false] at hc
    rcases hc with rfl | rfl <;> simpa using same_refl 0
  have h0 : freeCost data (-bound) bound 128 = 0 := by
    have hg : gridAlpha (-bound) bound 128 = 0 := by rw [grid_eq]; norm_num
    unfold freeCost
    rw [hg]
    obtain ⟨-, -, -, h, -⟩ := cost_spec data 0 (fitBeta data 0 0) hw hW
    rw [h]
    obtain ⟨k, hk⟩ := fitBeta_exact data 0 0 0 (ne_of_gt hW) (by simpa using hex) (by rw [sub_zero]; exact not_pi)
    intro c hc hwc
    obtain ⟨n, hn⟩ := hex c hc hwc
    exact ⟨n - k, by rw [hk, hn]; push_cast; ring⟩
  have := fit1_recovers data 1e-6 0 hw hW hex
    (fun c hc _ => by
      simp only [hdata, List.mem_cons, List.not_mem_nil, or_false] at hc
      rcases hc with rfl | rfl <;> norm_num <;> linarith)
    (fun i hi hfar => ⟨128, by norm_num, by
      rw [h0]
      by_contra hcon
      have hfits := fits_of_cost data hw hW _ _ (not_lt.mp hcon)
      rw [grid_eq] at hfits
      have := grid_unique data 0 0 (by simpa using hex) ⟨320e6, 0, 1⟩ ⟨400e6, 0, 1⟩ (by simp [hdata]) (by simp [hdata])
        (by simp) (by simp) 320000000 400000000 (by norm_num) (by norm_num) (by norm_num) (by norm_num) (by norm_num)
        (-40000000000 + (i : ℚ) * 312500000) (by
          intro h
          have hi128 : (i : ℚ) = 128 := by linarith
          have hi128' : (i : ℝ) = 128 := by exact_mod_cast hi128
          rw [hi128'] at hfar
          norm_num at hfar)
      apply this
      have e : ((-40000000000 + (i : ℚ) * 312500000 : ℚ) : ℝ) = -40000e6 + (i : ℝ) * 312.5e6 := by push_cast; norm_num
      rw [e]
      exact hfits⟩)
  have hg : (data.map fun c => c.weight / c.nu).sum / (data.map Chan.weight).sum = 1 / 320e6 * (9 / 10) := by
    simp [hdata]
    norm_num
  rw [hg] at this
  exact this

/-! ## Data without phase -/

private theorem residual_odd (a b : ℝ) (c : Chan) (h : c.phase = 0) : residual (-a) (-b) c = -residual a b c := by
  have hp := Real.pi_pos
  have e : c.phase - func2 c.nu (-a) (-b) = -(c.phase - func2 c.nu a b) := by
    unfold func2
    rw [h]
    ring
  unfold residual
  simp only
  rw [e, fmod_opposite]
  set x := fmod (c.phase - func2 c.nu a b) (2 * π)
  by_cases h1 : x < -π
  · rw [if_pos h1, if_neg (by linarith), if_pos (by linarith)]; ring
  · by_cases h2 : x > π
    · rw [if_neg h1, if_pos h2, if_pos (by linarith)]; ring
    · rw [if_neg h1, if_neg h2, if_neg (by linarith), if_neg (by linarith)]

private theorem fitBeta_odd (data : List Chan) (h : ∀ c ∈ data, c.weight ≠ 0 → c.phase = 0) (a b : ℝ) :
    fitBeta data (-a) (-b) = -fitBeta data a b := by
  have hs : ∀ b W, betaStep data (-a) (-b, W) = (-(betaStep data a (b, W)).1, (betaStep data a (b, W)).2) := by
    intro b W
    rw [betaStep_eq, betaStep_eq]
    simp only
    have : (data.map fun c => residual (-a) (-b) c * c.weight).sum = (data.map fun c => -1 * (residual a b c * c.weight)).sum := by
      apply sum_congr
      intro c hc
      by_cases hw : c.weight = 0
      · rw [hw]; ring
      · rw [residual_odd a b c (h c hc hw)]; ring
    rw [this, sum_scale data (-1) fun c => residual a b c * c.weight]
    congr 1
    ring
  have hs' : ∀ x : ℝ × ℝ, betaStep data (-a) (-x.1, x.2) = (-(betaStep data a x).1, (betaStep data a x).2) := fun x => hs x.1 x.2
  unfold fitBeta
  rw [hs b 0, hs', hs']
  exact fmod_opposite _

private theorem cost2_odd (data : List Chan) (h : ∀ c ∈ data, c.weight ≠ 0 → c.phase = 0) (a b : ℝ) :
    cost2 data (-a) (-b) = cost2 data a b := by
  rw [cost2_eq, cost2_eq]
  congr 1
  apply sum_congr
  intro c hc
  by_cases hw : c.weight = 0
  · rw [hw]; ring
  · have h0 : SamePhase c.phase 0 := by rw [h c hc hw]; exact same_refl 0
    have := circle_mirror 0 (a / c.nu + b) c.phase h0
    rw [zero_add, zero_sub] at this
    rw [this, show -a / c.nu + -b = -(a / c.nu + b) by ring]

private theorem fitBeta_zero (data : List Chan) (hW : total data ≠ 0) (h : ∀ c ∈ data, c.weight ≠ 0 → c.phase = 0) (est : ℝ) :
    fitBeta data 0 est = 0 := by
  have hp := Real.pi_pos
  have hr : ∀ b : ℝ, ∀ c ∈ data, c.weight ≠ 0 → residual 0 b c = residual 0 b ⟨1, 0, 1⟩ := by
    intro b c hc hw
    unfold residual func2
    rw [h c hc hw]
    simp
  have hstep : ∀ b W, betaStep data 0 (b, W) = (b + residual 0 b ⟨1, 0, 1⟩ * total data / (W + total data), W + total data) := by
    intro b W
    rw [betaStep_eq]
    have : (data.map fun c => residual 0 b c * c.weight).sum = (data.map fun c => residual 0 b ⟨1, 0, 1⟩ * c.weight).sum := by
      apply sum_congr
      intro c hc
      by_cases hw : c.weight = 0
      · rw [hw]; ring
      · rw [hr b c hc hw]
    rw [this, sum_scale data _ Chan.weight]
    rfl
  have h1 : SamePhase (est + residual 0 est ⟨1, 0, 1⟩) 0 := by
    obtain ⟨⟨k, hk⟩, -⟩ := residual_spec 0 est ⟨1, 0, 1⟩
    exact ⟨k, by rw [hk]; simp⟩
  have h2 : ∀ b W, SamePhase b 0 → betaStep data 0 (b, W) = (b, W + total data) := by
    intro b W hb
    rw [hstep]
    have : residual 0 b ⟨1, 0, 1⟩ = 0 := by
      apply residual_eq
      · obtain ⟨k, hk⟩ := hb
        exact ⟨k, by rw [hk]; simp⟩
      · rw [abs_zero]; exact hp
    rw [this]
    simp
  unfold fitBeta
  rw [hstep est 0, zero_add, mul_div_cancel_right₀ _ hW, h2 _ _ h1, h2 _ _ h1]
  exact fmod_multiple _ h1

/-- C106: the two parameter fit of phases that are zero gives zero for both, from any beta, if no value of the grid before it
fits with some phase offset. -/
theorem fit2_zero (data : List Chan) (acc beta : ℝ) (hacc : 0 ≤ acc) (hw : ∀ c ∈ data, 0 ≤ c.weight)
    (hW : 0 < (data.map Chan.weight).sum) (hz : ∀ c ∈ data, c.weight ≠ 0 → c.phase = 0)
    (huniq : ∀ i : Nat, i < 128 → ¬ Fits data (-40000e6 + (i : ℝ) * 312.5e6)) :
    fit2 data acc beta = (0, 0) := by
  have hT : total data ≠ 0 := ne_of_gt hW
  have hg : gridAlpha (-bound) bound 128 = 0 := by rw [grid_eq]; norm_num
  have hpos : ∀ n, n ≤ 128 → 0 < ((List.range n).foldl (try2 data (-bound) bound) ⟨doubleMax, 0, beta⟩).cost := by
    intro n
    induction n with
    | zero => intro _; simp only [List.range_zero, List.foldl_nil]; linarith [four_lt_doubleMax]
    | succ n ih =>
      intro hn
      rw [List.range_succ, List.foldl_append, List.foldl_cons, List.foldl_nil]
      set b := (List.range n).foldl (try2 data (-bound) bound) ⟨doubleMax, 0, beta⟩ with hbd
      unfold try2
      simp only
      by_cases hc : cost2 data (gridAlpha (-bound) bound n) (fitBeta data (gridAlpha (-bound) bound n) b.beta) < b.cost
      · rw [if_pos hc]
        simp only
        by_contra hcon
        have := fits_of_cost data hw hW _ _ (not_lt.mp hcon)
        rw [grid_eq] at this
        exact huniq n (by omega) this
      · rw [if_neg hc]
        exact ih (by omega)
  have hstep : ∀ (b : Best) i, b.cost = 0 → try2 data (-bound) bound b i = b := by
    intro b i hb0
    unfold try2
    simp only
    rw [if_neg]
    rw [hb0, not_lt]
    exact (cost_spec data _ _ hw hW).2.1
  have hl : ∀ (l : List Nat) (b : Best), b.cost = 0 → l.foldl (try2 data (-bound) bound) b = b := by
    intro l
    induction l with
    | nil => intro b _; rfl
    | cons i l ih => intro b hb0; rw [List.foldl_cons, hstep b i hb0, ih b hb0]
  have hc0 : cost2 data 0 0 = 0 := by
    obtain ⟨-, -, -, h, -⟩ := cost_spec data 0 0 hw hW
    rw [h]
    intro c hc hwc
    rw [hz c hc hwc, zero_div, add_zero]
    exact same_refl 0
  have hbest : best2 data (-bound) bound beta = ⟨0, 128, 0⟩ := by
    unfold best2
    rw [show (256 : Nat) = 128 + 1 + 127 by norm_num, List.range_add, List.range_succ, List.foldl_append, List.foldl_append,
      List.foldl_cons, List.foldl_nil]
    have h128 := hpos 128 (le_refl _)
    set b := (List.range 128).foldl (try2 data (-bound) bound) ⟨doubleMax, 0, beta⟩ with hbd
    have : try2 data (-bound) bound b 128 = ⟨0, 128, 0⟩ := by
      unfold try2
      simp only
      rw [hg, fitBeta_zero data hT hz, hc0, if_pos h128]
    rw [this, hl _ _ rfl]
  unfold fit2
  simp only
  rw [hbest]
  simp only
  rw [window_eq, hg, zero_sub, zero_add]
  simp only
  have hleft : left (-312.5e6) 312.5e6 = -(312.5e6 / 3 : ℝ) := by unfold left; ring
  have hright : right (-312.5e6) 312.5e6 = (312.5e6 / 3 : ℝ) := by unfold right; ring
  have hd : (step2 data (-312.5e6) 312.5e6 0).2 = 0 := by
    unfold step2
    simp only
    rw [hleft, hright]
    have := fitBeta_odd data hz (312.5e6 / 3) 0
    rw [neg_zero] at this
    rw [this, cost2_odd data hz, sub_self, abs_zero]
  rw [ternary2, if_neg (by rw [hd]; exact not_lt.mpr hacc), mid_eq]
  rw [show ((-312.5e6 : ℝ) + 312.5e6) / 2 = 0 by norm_num, fitBeta_zero data hT hz]

example : fit2 exZero 1e-6 1 = (0, 0) :=
  fit2_zero exZero 1e-6 1 (by norm_num) (by simp [exZero]) (by simp [exZero]; norm_num) (by simp [exZero]) exZero_unique

end DP3.Tec
