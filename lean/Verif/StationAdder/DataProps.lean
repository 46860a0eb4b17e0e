import Verif.StationAdder.Props

/-!
# Properties of the data of superstations (C95)
-/

namespace DP3.StationAdder

open DP3.StringTools

set_option linter.unusedSectionVars false
set_option linter.unusedSimpArgs false

section Data
variable {K : Type} [Field K] [LinearOrder K] [IsStrictOrderedRing K]

/-! ## Specification -/

/-- The points that are not flagged. -/
def good (pts : List (Bool × Pt K)) : List (Bool × Pt K) := pts.filter fun s => !s.2.flag

/-- The sum of the weights; one for each point without useweights. -/
def sumWeights (c : Settings) (pts : List (Bool × Pt K)) : K :=
  (pts.map fun s => if c.useWeights then s.2.weight else 1).sum

/-- The value of a point in the new baseline. -/
def value (s : Bool × Pt K) : Cx K := if s.1 then (s.2.data.getD 0).conj else s.2.data.getD 0

/-- The weighted sum of the values. -/
def sumValues (c : Settings) (pts : List (Bool × Pt K)) : Cx K :=
  (pts.map fun s => value s * Cx.ofReal (if c.useWeights then s.2.weight else 1)).sum

/-- All values are finite. -/
def Finite (pts : List (Bool × Pt K)) : Prop := ∀ s ∈ pts, s.2.data ≠ none

/-- The sum, or the mean if `average` is set. -/
def result (c : Settings) (pts : List (Bool × Pt K)) : Cx K :=
  if c.average then (sumValues c pts).divReal (sumWeights c pts) else sumValues c pts

/-! ## The sums -/

private theorem pointValue_some (c : Settings) (s : Bool × Pt K) (h : s.2.data ≠ none) :
    pointValue c s.1 s.2 = some (value s * Cx.ofReal (if c.useWeights then s.2.weight else 1)) := by
  obtain ⟨b, d, f, w⟩ := s
  cases d with
  | none => exact absurd rfl h
  | some v => rfl

private theorem acc_fold (c : Settings) (pts : List (Bool × Pt K)) (a : Acc K) :
    (pts.foldl (accPoint c) a).weight = a.weight + sumWeights c (good pts) ∧
    (pts.foldl (accPoint c) a).npoints = a.npoints + (good pts).length ∧
    (pts.foldl (accPoint c) a).weight + (pts.foldl (accPoint c) a).weightFlg =
      a.weight + a.weightFlg + sumWeights c pts ∧
    (∀ d, a.data = some d → Finite (good pts) →
      (pts.foldl (accPoint c) a).data = some (d + sumValues c (good pts))) ∧
    (∀ d e, a.data = some d → a.dataFlg = some e → Finite pts →
      oadd (pts.foldl (accPoint c) a).data (pts.foldl (accPoint c) a).dataFlg = some (d + e + sumValues c pts)) := by
  induction pts generalizing a with
  | nil =>
    refine ⟨by simp [good, sumWeights], by simp [good], by simp [sumWeights], ?_, ?_⟩
    · intro d hd _; simp [hd, good, sumValues]
    · intro d e hd he _; simp [hd, he, oadd, sumValues]
  | cons s ss ih =>
    rw [List.foldl_cons]
    obtain ⟨h1, h2, h3, h4, h5⟩ := ih (accPoint c a s)
    cases hf : s.2.flag with
    | true =>
      have hg : good (s :: ss) = good ss := by simp [good, List.filter_cons, hf]
      have ea : accPoint c a s = { a with dataFlg := oadd a.dataFlg (pointValue c s.1 s.2), weightFlg := a.weightFlg + pointWeight c s.2 } := by
        simp [accPoint, hf]
      rw [hg]
      refine ⟨by rw [h1, ea], by rw [h2, ea], ?_, ?_, ?_⟩
      · rw [h3, ea]
        simp only [sumWeights, List.map_cons, List.sum_cons, pointWeight]
        ring
      · intro d hd hfin
        exact h4 d (by rw [ea]; exact hd) hfin
      · intro d e hd he hfin
        rw [h5 d (e + value s * Cx.ofReal (if c.useWeights then s.2.weight else 1)) (by rw [ea]; exact hd)
          (by rw [ea]; simp only [he, pointValue_some c s (hfin s (by simp)), oadd])
          (fun t ht => hfin t (by simp [ht]))]
        simp only [sumValues, List.map_cons, List.sum_cons]
        congr 1; ring
    | false =>
      have hg : good (s :: ss) = s :: good ss := by simp [good, List.filter_cons, hf]
      have ea : accPoint c a s = { a with data := oadd a.data (pointValue c s.1 s.2), weight := a.weight + pointWeight c s.2, npoints := a.npoints + 1 } := by
        simp [accPoint, hf]
      rw [hg]
      refine ⟨?_, ?_, ?_, ?_, ?_⟩
      · rw [h1, ea]; simp only [sumWeights, List.map_cons, List.sum_cons, pointWeight]; ring
      · rw [h2, ea]; simp only [List.length_cons]; omega
      · rw [h3, ea]; simp only [sumWeights, List.map_cons, List.sum_cons, pointWeight]; ring
      · intro d hd hfin
        rw [h4 (d + value s * Cx.ofReal (if c.useWeights then s.2.weight else 1))
          (by rw [ea]; simp only [hd, pointValue_some c s (hfin s (by simp)), oadd])
          (fun t ht => hfin t (by simp [ht]))]
        simp only [sumValues, List.map_cons, List.sum_cons]
        congr 1; ring
      · intro d e hd he hfin
        rw [h5 (d + value s * Cx.ofReal (if c.useWeights then s.2.weight else 1)) e
          (by rw [ea]; simp only [hd, pointValue_some c s (hfin s (by simp)), oadd]) (by rw [ea]; exact he)
          (fun t ht => hfin t (by simp [ht]))]
        simp only [sumValues, List.map_cons, List.sum_cons]
        congr 1; ring

/-- C95. A point of a new baseline is flagged iff fewer than minpoints of its points are not flagged, or the weight
of these is zero. -/
theorem newPoint_flag (c : Settings) (pts : List (Bool × Pt K)) :
    (newPoint c pts).flag = true ↔ sumWeights c (good pts) = 0 ∨ (good pts).length < c.minPoints := by
  obtain ⟨h1, h2, -, -, -⟩ := acc_fold c pts Acc.zero
  unfold newPoint finishPoint
  simp only [Acc.zero, zero_add] at h1 h2
  rw [show (Acc.zero : Acc K) = ⟨some 0, 0, 0, some 0, 0⟩ from rfl, h1, h2]
  split
  · rename_i h; simp [h]
  · rename_i h; simp [h]

/-- C95. Otherwise it is the sum or mean of the points that are not flagged, and its weight is the sum of theirs. -/
theorem newPoint_good (c : Settings) (pts : List (Bool × Pt K)) (hw : sumWeights c (good pts) ≠ 0)
    (hn : c.minPoints ≤ (good pts).length) (hfin : Finite (good pts)) :
    newPoint c pts = ⟨some (result c (good pts)), false, sumWeights c (good pts)⟩ := by
  obtain ⟨h1, h2, -, h4, -⟩ := acc_fold c pts Acc.zero
  have h4' := h4 0 rfl hfin
  unfold newPoint finishPoint
  simp only [Acc.zero, zero_add] at h1 h2 h4'
  rw [show (Acc.zero : Acc K) = ⟨some 0, 0, 0, some 0, 0⟩ from rfl, h1, h2, h4', if_neg (by
    rintro (h | h)
    · exact hw h
    · omega)]
  unfold result odiv
  cases c.average <;> simp [hw]

/-- C95. A flagged point is the sum or mean of all its points, flagged or not. -/
theorem newPoint_flagged (c : Settings) (pts : List (Bool × Pt K))
    (h : sumWeights c (good pts) = 0 ∨ (good pts).length < c.minPoints) (hfin : Finite pts)
    (hw : sumWeights c pts ≠ 0) :
    newPoint c pts = ⟨some (result c pts), true, sumWeights c pts⟩ := by
  obtain ⟨h1, h2, h3, -, h5⟩ := acc_fold c pts Acc.zero
  have h5' := h5 0 0 rfl rfl hfin
  unfold newPoint finishPoint
  simp only [Acc.zero, zero_add] at h1 h2 h3 h5'
  rw [show (Acc.zero : Acc K) = ⟨some 0, 0, 0, some 0, 0⟩ from rfl]
  rw [if_pos (by rw [h1, h2]; exact h)]
  simp only [h3, h5']
  unfold result odiv
  cases c.average <;> simp [hw]

/-- C95 has an exception: with average and only zero weights, the value is not finite (and flagged). -/
theorem newPoint_not_finite (c : Settings) (pts : List (Bool × Pt K)) (hav : c.average = true)
    (h : sumWeights c (good pts) = 0) (hw : sumWeights c pts = 0) :
    newPoint c pts = ⟨none, true, 0⟩ := by
  obtain ⟨h1, h2, h3, -, -⟩ := acc_fold c pts Acc.zero
  unfold newPoint finishPoint
  simp only [Acc.zero, zero_add] at h1 h2 h3
  rw [show (Acc.zero : Acc K) = ⟨some 0, 0, 0, some 0, 0⟩ from rfl]
  rw [if_pos (by rw [h1]; exact .inl h)]
  simp only [h3, hw, hav, odiv, if_true]

/-! ## Superstations with superstations -/

/-- All points of groups of points, each group and each point possibly conjugated. -/
def flatten (groups : List (Bool × List (Bool × Pt K))) : List (Bool × Pt K) :=
  groups.flatMap fun g => g.2.map fun s => (g.1 ^^ s.1, s.2)

private theorem conj_sum (l : List (Cx K)) : (l.sum).conj = (l.map Cx.conj).sum := by
  induction l with
  | nil => ext <;> simp
  | cons x l ih => rw [List.sum_cons, Cx.conj_add, ih, List.map_cons, List.sum_cons]

private theorem conj_ofReal' (x : K) : (Cx.ofReal x).conj = Cx.ofReal x := by ext <;> simp [Cx.ofReal, Cx.conj]

private theorem sumValues_conj (c : Settings) (b : Bool) (pts : List (Bool × Pt K)) :
    sumValues c (pts.map fun s => (b ^^ s.1, s.2)) = if b then (sumValues c pts).conj else sumValues c pts := by
  cases b
  · simp [sumValues]
  · simp only [sumValues, List.map_map, if_true, conj_sum]
    congr 1
    refine List.map_congr_left fun s _ => ?_
    simp only [Function.comp_def, Cx.conj_mul, conj_ofReal', value]
    congr 1
    cases s.1
    · simp
    · simp only [Bool.xor_true, Bool.not_true, Bool.false_eq_true, if_false, if_true]
      ext <;> simp [Cx.conj]

private theorem sumWeights_conj (c : Settings) (b : Bool) (pts : List (Bool × Pt K)) :
    sumWeights c (pts.map fun s => (b ^^ s.1, s.2)) = sumWeights c pts := by
  simp [sumWeights, List.map_map, Function.comp_def]

private theorem good_conj (b : Bool) (pts : List (Bool × Pt K)) :
    good (pts.map fun s => (b ^^ s.1, s.2)) = (good pts).map fun s => (b ^^ s.1, s.2) := by
  simp [good, List.filter_map, Function.comp_def]

private theorem good_append (p q : List (Bool × Pt K)) : good (p ++ q) = good p ++ good q := by simp [good]

private theorem sumW_append (c : Settings) (p q : List (Bool × Pt K)) :
    sumWeights c (p ++ q) = sumWeights c p + sumWeights c q := by simp [sumWeights]

private theorem sumV_append (c : Settings) (p q : List (Bool × Pt K)) :
    sumValues c (p ++ q) = sumValues c p + sumValues c q := by simp [sumValues]

private theorem sumW_nonneg (c : Settings) (pts : List (Bool × Pt K)) (h : ∀ s ∈ pts, 0 ≤ s.2.weight) :
    0 ≤ sumWeights c pts := by
  refine List.sum_nonneg ?_
  intro x hx
  obtain ⟨s, hs, rfl⟩ := List.mem_map.mp hx
  split
  · exact h s hs
  · exact zero_le_one

private theorem zero_weights (c : Settings) (hu : c.useWeights = true) (pts : List (Bool × Pt K))
    (h : ∀ s ∈ pts, 0 ≤ s.2.weight) (h0 : sumWeights c pts = 0) : sumValues c pts = 0 := by
  induction pts with
  | nil => rfl
  | cons s ss ih =>
    have hs := h s (by simp)
    have hss : ∀ t ∈ ss, 0 ≤ t.2.weight := fun t ht => h t (by simp [ht])
    have hn := sumW_nonneg c ss hss
    have e : sumWeights c (s :: ss) = s.2.weight + sumWeights c ss := by simp [sumWeights, hu]
    rw [e] at h0
    have hw : s.2.weight = 0 := by linarith
    have hr : sumWeights c ss = 0 := by linarith
    have ev : sumValues c (s :: ss) = value s * Cx.ofReal s.2.weight + sumValues c ss := by simp [sumValues, hu]
    rw [ev, hw, ih hss hr]
    ext <;> simp [Cx.ofReal]

/-- C95. With useweights, average and the default minpoints, the points of a baseline between superstations are what
one gets from all original points at once: the weighted mean over all points that are not flagged, of all pairs of
stations. (`groups` are the points of the baselines of the stations of the second superstation with the first.) -/
theorem between_superstations (c : Settings) (hu : c.useWeights = true) (hav : c.average = true)
    (hm : c.minPoints ≤ 1) (groups : List (Bool × List (Bool × Pt K)))
    (hpos : ∀ g ∈ groups, ∀ s ∈ g.2, 0 ≤ s.2.weight) (hfin : ∀ g ∈ groups, Finite (good g.2)) :
    (newPoint c (groups.map fun g => (g.1, newPoint c g.2))).flag = (newPoint c (flatten groups)).flag ∧
    ((newPoint c (flatten groups)).flag = false →
      newPoint c (groups.map fun g => (g.1, newPoint c g.2)) = newPoint c (flatten groups)) := by
  have hgood : ∀ pts : List (Bool × Pt K), (∀ s ∈ pts, 0 ≤ s.2.weight) → ∀ s ∈ good pts, 0 ≤ s.2.weight :=
    fun pts h s hs => h s (List.mem_filter.mp hs).1
  -- flags depend only on the weight
  have hflag : ∀ pts : List (Bool × Pt K),
      (newPoint c pts).flag = true ↔ sumWeights c (good pts) = 0 := by
    intro pts
    rw [newPoint_flag]
    constructor
    · rintro (h | h)
      · exact h
      · have : (good pts).length = 0 := by omega
        rw [List.length_eq_zero_iff.mp this]
        simp [sumWeights]
    · exact .inl
  -- a group that is not flagged
  have hnf : ∀ pts : List (Bool × Pt K), sumWeights c (good pts) ≠ 0 → Finite (good pts) →
      newPoint c pts = ⟨some (result c (good pts)), false, sumWeights c (good pts)⟩ := by
    intro pts hw hf
    refine newPoint_good c pts hw ?_ hf
    by_contra hc
    have : (good pts).length = 0 := by omega
    rw [List.length_eq_zero_iff.mp this] at hw
    exact hw (by simp [sumWeights])
  have main : sumWeights c (good (groups.map fun g => (g.1, newPoint c g.2))) = sumWeights c (good (flatten groups)) ∧
      sumValues c (good (groups.map fun g => (g.1, newPoint c g.2))) = sumValues c (good (flatten groups)) ∧
      Finite (good (groups.map fun g => (g.1, newPoint c g.2))) ∧ Finite (good (flatten groups)) := by
    induction groups with
    | nil => simp [good, flatten, Finite]
    | cons g gs ih =>
      obtain ⟨i1, i2, i3, i4⟩ := ih (fun g hg => hpos g (by simp [hg])) (fun g hg => hfin g (by simp [hg]))
      have ef : flatten (g :: gs) = (g.2.map fun s => (g.1 ^^ s.1, s.2)) ++ flatten gs := by simp [flatten]
      have em : ((g :: gs).map fun g => (g.1, newPoint c g.2)) =
          [(g.1, newPoint c g.2)] ++ (gs.map fun g => (g.1, newPoint c g.2)) := by simp
      have hfg := hfin g (by simp)
      have ffl : Finite (good (flatten (g :: gs))) := by
        rw [ef, good_append]
        intro s hs
        rcases List.mem_append.mp hs with hs | hs
        · rw [good_conj] at hs
          obtain ⟨t, ht, rfl⟩ := List.mem_map.mp hs
          exact hfg t ht
        · exact i4 s hs
      by_cases hw : sumWeights c (good g.2) = 0
      · have hfl : (newPoint c g.2).flag = true := (hflag _).mpr hw
        have e1 : good [(g.1, newPoint c g.2)] = [] := by simp [good, hfl]
        have hv := zero_weights c hu (good g.2) (hgood _ (hpos g (by simp))) hw
        refine ⟨?_, ?_, ?_, ffl⟩
        · rw [em, ef, good_append, good_append, e1, List.nil_append, sumW_append, good_conj, sumWeights_conj, hw,
            zero_add, i1]
        · rw [em, ef, good_append, good_append, e1, List.nil_append, sumV_append, good_conj, sumValues_conj, hv, i2]
          cases g.1 <;> simp [show (0 : Cx K).conj = 0 by ext <;> simp [Cx.conj]]
        · rw [em, good_append, e1]; exact i3
      · have hpt := hnf g.2 hw hfg
        have e1 : good [(g.1, newPoint c g.2)] = [(g.1, newPoint c g.2)] := by simp [good, hpt]
        refine ⟨?_, ?_, ?_, ffl⟩
        · rw [em, ef, good_append, good_append, e1, sumW_append, sumW_append, good_conj, sumWeights_conj, i1]
          congr 1
          simp [sumWeights, hu, hpt]
        · rw [em, ef, good_append, good_append, e1, sumV_append, sumV_append, good_conj, sumValues_conj, i2]
          congr 1
          rw [hpt]
          simp only [sumValues, List.map_cons, List.map_nil, List.sum_cons, List.sum_nil, add_zero, value, hu,
            if_true, Option.getD_some, result, hav]
          have key : ∀ (v : Cx K) (w : K), w ≠ 0 → v.divReal w * Cx.ofReal w = v := by
            intro v w hw
            ext <;> simp [Cx.divReal, Cx.ofReal] <;> field_simp
          have key' : ∀ (v : Cx K) (w : K), w ≠ 0 → (v.divReal w).conj * Cx.ofReal w = v.conj := by
            intro v w hw
            ext <;> simp [Cx.divReal, Cx.ofReal, Cx.conj] <;> field_simp
          cases g.1
          · simp only [Bool.false_eq_true, if_false]
            exact key _ _ hw
          · simp only [if_true]
            exact key' _ _ hw
        · rw [em, good_append, e1]
          intro s hs
          rcases List.mem_append.mp hs with hs | hs
          · simp only [List.mem_singleton] at hs
            subst hs
            simp [hpt]
          · exact i3 s hs
  obtain ⟨m1, m2, m3, m4⟩ := main
  have hfe : (newPoint c (groups.map fun g => (g.1, newPoint c g.2))).flag = (newPoint c (flatten groups)).flag := by
    rw [Bool.eq_iff_iff, hflag, hflag, m1]
  refine ⟨hfe, fun h => ?_⟩
  have hw : sumWeights c (good (flatten groups)) ≠ 0 := by
    intro hc
    rw [(hflag _).mpr hc] at h
    cases h
  rw [hnf _ (by rw [m1]; exact hw) m3, hnf _ hw m4]
  simp only [result, hav, if_true, m1, m2]

/-! ## Coordinates -/

/-- The weight of the points of a baseline that are not flagged. -/
def rowWeight (c : Settings) (nrcc : Nat) (r : Row K) : K :=
  sumWeights c (good ((List.range nrcc).map fun k => (false, r.pts k)))

/-- The sign of a baseline in the sum. -/
def sign (b : Bool) : K := if b then -1 else 1

private theorem accUvw_fold (c : Settings) (conj : Bool) (uvw : Uvw K) (pts : List (Pt K)) (a : Uvw K × K) :
    pts.foldl (accUvw c conj uvw) a =
      (⟨a.1.u + sign conj * uvw.u * sumWeights c (good (pts.map fun p => (false, p))),
        a.1.v + sign conj * uvw.v * sumWeights c (good (pts.map fun p => (false, p))),
        a.1.w + sign conj * uvw.w * sumWeights c (good (pts.map fun p => (false, p)))⟩,
        a.2 + sumWeights c (good (pts.map fun p => (false, p)))) := by
  induction pts generalizing a with
  | nil => simp [good, sumWeights]
  | cons p ps ih =>
    rw [List.foldl_cons, ih]
    cases hf : p.flag
    · have : sumWeights c (good ((p :: ps).map fun p => (false, p))) =
          pointWeight c p + sumWeights c (good (ps.map fun p => (false, p))) := by
        simp [good, sumWeights, pointWeight, List.filter_cons, hf]
      rw [this]
      cases conj <;> simp [accUvw, hf, sign] <;> refine ⟨⟨?_, ?_, ?_⟩, ?_⟩ <;> ring
    · have : sumWeights c (good ((p :: ps).map fun p => (false, p))) =
          sumWeights c (good (ps.map fun p => (false, p))) := by
        simp [good, sumWeights, List.filter_cons, hf]
      rw [this]
      simp [accUvw, hf]

/-- C95. With average, the coordinates of a new baseline are the mean of those of its baselines (with the sign of
their order), weighted with the points that are not flagged; without, or if all is flagged, those of the UVW
calculator. -/
theorem newUvw_spec (c : Settings) (nrcc : Nat) (uvwCalc : Uvw K) (rows : List (Bool × Row K)) :
    let total := (rows.map fun s => rowWeight c nrcc s.2).sum
    newUvw c nrcc uvwCalc rows =
      if c.average = true ∧ total ≠ 0 then
        ⟨(rows.map fun s => sign s.1 * s.2.uvw.u * rowWeight c nrcc s.2).sum / total,
          (rows.map fun s => sign s.1 * s.2.uvw.v * rowWeight c nrcc s.2).sum / total,
          (rows.map fun s => sign s.1 * s.2.uvw.w * rowWeight c nrcc s.2).sum / total⟩
      else uvwCalc := by
  have gen : ∀ (rows : List (Bool × Row K)) (a : Uvw K × K), rows.foldl (accRowUvw c nrcc) a =
      (⟨a.1.u + (rows.map fun s => sign s.1 * s.2.uvw.u * rowWeight c nrcc s.2).sum,
        a.1.v + (rows.map fun s => sign s.1 * s.2.uvw.v * rowWeight c nrcc s.2).sum,
        a.1.w + (rows.map fun s => sign s.1 * s.2.uvw.w * rowWeight c nrcc s.2).sum⟩,
        a.2 + (rows.map fun s => rowWeight c nrcc s.2).sum) := by
    intro rows
    induction rows with
    | nil => intro a; simp
    | cons s rows ih =>
      intro a
      rw [List.foldl_cons, ih]
      have e : accRowUvw c nrcc a s = ((List.range nrcc).map fun k => s.2.pts k).foldl (accUvw c s.1 s.2.uvw) a := by
        rw [List.foldl_map]; rfl
      have hw : rowWeight c nrcc s.2 =
          sumWeights c (good (((List.range nrcc).map fun k => s.2.pts k).map fun p => (false, p))) := by
        simp [rowWeight, List.map_map, Function.comp_def]
      rw [e, accUvw_fold, ← hw]
      simp only [List.map_cons, List.sum_cons, add_assoc]
  simp only [newUvw, gen, zero_add]

/-! ## The buffer -/

/-- C95. The entry that updateInfo writes for a baseline is read back as this baseline, with the same order. -/
theorem lookup_rowEntry (rows : List (Row K)) (i : Nat) (conj : Bool) :
    lookup rows (rowEntry i conj) = (rows[i]?).map fun r => (conj, r) := by
  have h1 : (rowEntry i conj).natAbs - 1 = i := by unfold rowEntry; cases conj <;> simp <;> omega
  have h2 : decide (rowEntry i conj < 0) = conj := by unfold rowEntry; cases conj <;> simp <;> omega
  unfold lookup
  rw [h1, h2]

/-- C95. process leaves the old baselines as they are, and each new baseline is made from the baselines of its
entries, as they are in the result; with entries that refer to earlier baselines it does not fail. -/
theorem process_spec (c : Settings) (nrcc : Nat) (uvwCalc : Nat → Uvw K) (bufRows : List (List Int))
    (rows : List (Row K))
    (hearlier : ∀ k entries, bufRows[k]? = some entries → ∀ e ∈ entries, e.natAbs - 1 < rows.length + k) :
    ∃ new, process c nrcc uvwCalc bufRows rows = some (rows ++ new) ∧ new.length = bufRows.length ∧
      ∀ k entries, bufRows[k]? = some entries → ∃ used, entries.mapM (lookup (rows ++ new)) = some used ∧
        ∃ r, new[k]? = some r ∧ (∀ i, r.pts i = newPoint c (used.map fun s => (s.1, s.2.pts i))) ∧
          r.uvw = newUvw c nrcc (uvwCalc (rows.length + k)) used := by
  induction bufRows generalizing rows with
  | nil => exact ⟨[], by simp [process], rfl, by simp⟩
  | cons entries rest ih =>
    have lookup_some : ∀ (l : List (Row K)) (es : List Int), (∀ e ∈ es, e.natAbs - 1 < l.length) →
        ∃ used, es.mapM (lookup l) = some used := by
      intro l es
      induction es with
      | nil => intro _; exact ⟨[], rfl⟩
      | cons e es ih =>
        intro h
        obtain ⟨u, hu⟩ := ih fun e he => h e (by simp [he])
        have := h e (by simp)
        refine ⟨(decide (e < 0), l[e.natAbs - 1]) :: u, ?_⟩
        rw [List.mapM_cons]
        simp [lookup, List.getElem?_eq_getElem this, hu]
    have lookup_append : ∀ (l m : List (Row K)) (es : List Int), (∀ e ∈ es, e.natAbs - 1 < l.length) →
        es.mapM (lookup (l ++ m)) = es.mapM (lookup l) := by
      intro l m es
      induction es with
      | nil => intro _; rfl
      | cons e es ih =>
        intro h
        rw [List.mapM_cons, List.mapM_cons, ih fun e he => h e (by simp [he])]
        have : lookup (l ++ m) e = lookup l e := by
          unfold lookup
          rw [List.getElem?_append_left (h e (by simp))]
        rw [this]
    have h0 : ∀ e ∈ entries, e.natAbs - 1 < rows.length := by
      intro e he
      simpa using hearlier 0 entries (by simp) e he
    obtain ⟨used, hused⟩ := lookup_some rows entries h0
    set r : Row K := ⟨fun k => newPoint c (used.map fun s => (s.1, s.2.pts k)),
      newUvw c nrcc (uvwCalc rows.length) used⟩ with hr
    have hnew : newRow c nrcc (uvwCalc rows.length) rows entries = some r := by
      simp only [newRow, hused, hr]
    obtain ⟨new, h1, h2, h3⟩ := ih (rows ++ [r]) (by
      intro k es hk e he
      have := hearlier (k + 1) es (by simpa using hk) e he
      simp only [List.length_append, List.length_cons, List.length_nil]
      omega)
    refine ⟨r :: new, ?_, by simp [h2], ?_⟩
    · simp only [process, hnew, h1]
      simp
    · intro k es hk
      cases k with
      | zero =>
        simp only [List.getElem?_cons_zero, Option.some.injEq] at hk
        subst hk
        refine ⟨used, ?_, r, by simp, fun i => rfl, rfl⟩
        rw [lookup_append rows _ entries h0]; exact hused
      | succ k =>
        obtain ⟨u, g1, r', g2, g3, g4⟩ := h3 k es (by simpa using hk)
        refine ⟨u, ?_, r', by simpa using g2, g3, ?_⟩
        · simpa using g1
        · rw [g4]
          congr 2
          simp; omega

/-- C94 and C95 together: with the baselines of updateInfo, process does not fail. -/
theorem process_total (c : Settings) (a : AutoSettings) (nrcc : Nat) (uvwCalc : Nat → Uvw K) (nrold : Nat)
    (parts : List (List Nat)) (bls : List (Nat × Nat)) (hold : ∀ bl ∈ bls, bl.1 < nrold ∧ bl.2 < nrold)
    (rows : List (Row K)) (hrows : rows.length = bls.length) :
    ∃ new, process c nrcc uvwCalc (allBaselines a nrold parts bls).bufRows rows = some (rows ++ new) ∧
      new.length = (allBaselines a nrold parts bls).bufRows.length := by
  obtain ⟨new, h1, h2, -⟩ := process_spec c nrcc uvwCalc (allBaselines a nrold parts bls).bufRows rows (by
    intro k entries hk e he
    have hlen := (baselines_old a nrold parts bls hold).2
    have hkl := (List.getElem?_eq_some_iff.mp hk).1
    have hget : (allBaselines a nrold parts bls).bls[bls.length + k]? =
        some ((allBaselines a nrold parts bls).bls[bls.length + k]'(by omega)) := List.getElem?_eq_getElem (by omega)
    obtain ⟨j, p, es, -, -, h3, -, -, h4⟩ := baselines_sound a nrold parts bls hold k _ _ hget
    rw [hk] at h3
    obtain rfl := Option.some.inj h3
    obtain ⟨i, bl, conj, g1, -, -, rfl⟩ := h4 e he
    have : (rowEntry i conj).natAbs = i + 1 := by unfold rowEntry; cases conj <;> simp <;> omega
    rw [this, hrows]
    omega)
  exact ⟨new, h1, h2⟩

end Data

/-! ## Where the claim fails -/

section Failures

private def pt (re im w : ℚ) : Pt ℚ := ⟨some ⟨re, im⟩, false, w⟩

/-- C95 fails for the cross polarisations: the visibility of a baseline in the other order is the Hermitian
transpose, so that XY should become the conjugate of YX. The code takes the conjugate of each correlation. Here the
superstation (antenna 2) is just antenna 0, and the baseline (0, 1) has XX, XY, YX, YY = 1, 2i, 3, 4. -/
theorem conjugate_not_transposed :
    let a : AutoSettings := ⟨false, true⟩
    let row : Row ℚ := ⟨fun k => [pt 1 0 1, pt 0 2 1, pt 3 0 1, pt 4 0 1].getD k (pt 0 0 0), ⟨1, 0, 0⟩⟩
    (allBaselines a 2 [[0]] [(0, 1)]).bls = [(0, 1), (1, 2)] ∧
    (process ⟨1, true, true⟩ 4 (fun _ => ⟨0, 0, 0⟩) (allBaselines a 2 [[0]] [(0, 1)]).bufRows [row]).map
      (fun rows => rows.map fun r => [(r.pts 1).data, (r.pts 2).data]) =
        some [[some ⟨0, 2⟩, some ⟨3, 0⟩], [some ⟨0, -2⟩, some ⟨3, 0⟩]] := by
  decide +kernel

/-- `between_superstations` needs useweights: without, a mean of means has the wrong weights. -/
theorem unweighted_mean_of_means : ∃ groups : List (Bool × List (Bool × Pt ℚ)),
    (newPoint ⟨1, true, false⟩ (groups.map fun g => (g.1, newPoint ⟨1, true, false⟩ g.2))).data = some ⟨3/2, 0⟩ ∧
    (newPoint ⟨1, true, false⟩ (flatten groups)).data = some ⟨4/3, 0⟩ :=
  ⟨[(false, [(false, pt 1 0 1), (false, pt 1 0 1)]), (false, [(false, pt 2 0 1)])], by decide +kernel⟩

/-- It needs average: without, the data of the first step are multiplied by their weights a second time. -/
theorem sum_of_sums : ∃ groups : List (Bool × List (Bool × Pt ℚ)),
    (newPoint ⟨1, false, true⟩ (groups.map fun g => (g.1, newPoint ⟨1, false, true⟩ g.2))).data = some ⟨4, 0⟩ ∧
    (newPoint ⟨1, false, true⟩ (flatten groups)).data = some ⟨2, 0⟩ :=
  ⟨[(false, [(false, pt 1 0 1), (false, pt 1 0 1)])], by decide +kernel⟩

/-- It needs the default minpoints: with another value a group with too few points is left out, and it is groups that
are counted. -/
theorem minpoints_per_step : ∃ groups : List (Bool × List (Bool × Pt ℚ)),
    (newPoint ⟨2, true, true⟩ (groups.map fun g => (g.1, newPoint ⟨2, true, true⟩ g.2))).flag = true ∧
    (newPoint ⟨2, true, true⟩ (flatten groups)).flag = false :=
  ⟨[(false, [(false, pt 1 0 1), (false, pt 1 0 1), (false, pt 2 0 1)])], by decide +kernel⟩

/-- With sumauto=false the autocorrelation of a superstation has the cross-correlations in one order only, so that
its XX is not real. -/
theorem auto_from_cross_not_real :
    let a : AutoSettings := ⟨true, false⟩
    let row : Row ℚ := ⟨fun _ => pt 1 5 1, ⟨1, 0, 0⟩⟩
    (allBaselines a 2 [[0, 1]] [(0, 1)]).bls = [(0, 1), (2, 2)] ∧
    (process ⟨1, true, true⟩ 4 (fun _ => ⟨0, 0, 0⟩) (allBaselines a 2 [[0, 1]] [(0, 1)]).bufRows [row]).map
      (fun rows => rows.map fun r => ((r.pts 0).data, r.uvw)) =
        some [(some ⟨1, 5⟩, ⟨1, 0, 0⟩), (some ⟨1, 5⟩, ⟨1, 0, 0⟩)] := by
  decide +kernel

end Failures

/-! ## Examples -/

section Examples

private def exPts : List (Bool × Pt ℚ) :=
  [(false, pt 1 1 2), (true, pt 3 1 1), (false, { pt 7 7 5 with flag := true })]

/-- Of `newPoint_flag` and `newPoint_good`: two points that count, one conjugated, and a flagged one. -/
example : newPoint ⟨2, true, true⟩ exPts = ⟨some ⟨5/3, 1/3⟩, false, 3⟩ ∧ Finite (good exPts) ∧
    sumWeights ⟨2, true, true⟩ (good exPts) = 3 := by
  refine ⟨by decide +kernel, ?_, by decide +kernel⟩
  simp [Finite, good, exPts, pt]

/-- Of `newPoint_flagged`: too few points, so that the flagged one is used too. -/
example : newPoint ⟨3, true, true⟩ exPts = ⟨some ⟨5, 9/2⟩, true, 8⟩ := by decide +kernel

/-- Of `newPoint_not_finite`. -/
example : newPoint ⟨1, true, true⟩ [(false, pt 1 0 0)] = ⟨none, true, 0⟩ := by decide +kernel

/-- Of `between_superstations`: two groups, one conjugated, and one that has only flagged data. -/
example : let groups := [(true, exPts), (false, [(false, pt 1 2 3)]), (true, [(false, { pt 9 9 9 with flag := true })])]
    newPoint ⟨1, true, true⟩ (groups.map fun g => (g.1, newPoint ⟨1, true, true⟩ g.2)) = ⟨some ⟨4/3, 5/6⟩, false, 6⟩ := by
  decide +kernel

/-- Of `newUvw_spec`: two baselines in opposite order, the second with one flagged point. -/
example : newUvw (⟨1, true, true⟩ : Settings) 2 ⟨9, 9, 9⟩
    [(false, (⟨fun _ => pt 0 0 1, ⟨1, 2, 3⟩⟩ : Row ℚ)),
      (true, ⟨fun k => { pt 0 0 1 with flag := decide (k = 0) }, ⟨-4, -5, -6⟩⟩)] = ⟨2, 3, 4⟩ := by
  decide +kernel

/-- Of `lookup_rowEntry`, `process_spec` and `process_total`: antennas 0 to 3, superstations of 0 and 1 and of 2 and 3, and the six
baselines in one order; the new baselines, their entries, and the data of the baseline of the superstations: the mean
of four. -/
example :
    let a : AutoSettings := ⟨false, true⟩
    let bls := [(0, 1), (0, 2), (0, 3), (1, 2), (1, 3), (2, 3)]
    let rows : List (Row ℚ) := [1, 2, 3, 4, 5, 6].map fun (x : ℚ) => ⟨fun _ => pt x 1 1, ⟨x, 0, 0⟩⟩
    (allBaselines a 4 [[0, 1], [2, 3]] bls).bls = bls ++ [(2, 4), (3, 4), (0, 5), (1, 5), (4, 5)] ∧
    (allBaselines a 4 [[0, 1], [2, 3]] bls).bufRows = [[-2, -4], [-3, -5], [2, 3], [4, 5], [-7, -8]] ∧
    (process ⟨1, true, true⟩ 1 (fun _ => ⟨0, 0, 0⟩) (allBaselines a 4 [[0, 1], [2, 3]] bls).bufRows rows).map
      (fun rows => (rows.drop 10).map fun r => (r.pts 0, r.uvw)) =
        some [(⟨some ⟨7/2, 1⟩, false, 4⟩, ⟨7/2, 0, 0⟩)] := by
  decide +kernel

end Examples

end DP3.StationAdder
