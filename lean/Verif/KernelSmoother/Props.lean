import Verif.KernelSmoother.Model
import Mathlib.Algebra.Order.Field.Basic
import Mathlib.Algebra.Field.Rat
import Mathlib.Algebra.Order.Ring.Rat
import Mathlib.Data.List.Induction
import Mathlib.Tactic.Linarith
import Mathlib.Tactic.Ring
import Mathlib.Tactic.NormNum
import Mathlib.Tactic.FieldSimp
import Mathlib.Tactic.Positivity

/-!
# Properties of the kernel smoother (C71, C72, C73)
-/

namespace DP3.KernelSmoother

set_option linter.unusedSectionVars false
set_option linter.unusedSimpArgs false
set_option linter.unusedVariables false

variable {F : Type} [Field F] [LinearOrder F] [IsStrictOrderedRing F]

/-! ## The specification -/

/-- The weight of channel `j` in the output for channel `i`. -/
def effWeight (c : Config F) (weight : Nat → F) (factor : F) (i j : Nat) : F :=
  kernelValue c ((c.freq i - c.freq j) * correction c factor i) * weight j

/-- The average over the channels `js`, weighted with the kernel; not finite if the weights add up to
zero. -/
def kernelMean (c : Config F) (data weight : Nat → F) (factor : F) (i : Nat) (js : List Nat) :
    Option F :=
  if (js.map (effWeight c weight factor i)).sum = 0 then none
  else some ((js.map fun j => data j * effWeight c weight factor i j).sum /
    (js.map (effWeight c weight factor i)).sum)

/-! ## The structure of the results -/

private theorem foldl_sums (f g : Nat → F) (l : List Nat) (a b : F) :
    l.foldl (fun (acc : F × F) j => (acc.1 + f j, acc.2 + g j)) (a, b) =
      (a + (l.map f).sum, b + (l.map g).sum) := by
  induction l generalizing a b with
  | nil => simp
  | cons x l ih => simp [ih, add_assoc]

private theorem smoothOne_eq (c : Config F) (data weight : Nat → F) (factor : F)
    (i start stop : Nat) :
    smoothOne c data weight factor i start stop =
      kernelMean c data weight factor i (List.range' start (stop - start)) := by
  unfold smoothOne kernelMean
  have := foldl_sums (fun j => data j * effWeight c weight factor i j) (effWeight c weight factor i)
    (List.range' start (stop - start)) 0 0
  simp only [effWeight, zero_add] at this ⊢
  rw [this]

private theorem moveLeft_spec (c : Config F) (limit : F) (i : Nat) (hi : i < c.n)
    (hlim : ¬ c.freq i < limit) (fuel left : Nat) (hl : left ≤ i) (hf : i < left + fuel) :
    ∃ l, moveLeft c limit fuel left = some l ∧ left ≤ l ∧ l ≤ i ∧
      (∀ k, left ≤ k → k < l → c.freq k < limit) := by
  induction fuel generalizing left with
  | zero => omega
  | succ fuel ih =>
    unfold moveLeft
    rw [if_pos (by omega)]
    by_cases h : c.freq left < limit
    · rw [if_pos h]
      have hne : left ≠ i := by
        intro e
        rw [e] at h
        exact hlim h
      obtain ⟨l, h1, h2, h3, h4⟩ := ih (left + 1) (by omega) (by omega)
      refine ⟨l, h1, by omega, h3, ?_⟩
      intro k hk hk'
      by_cases e : k = left
      · rw [e]; exact h
      · exact h4 k (by omega) hk'
    · rw [if_neg h]
      exact ⟨left, rfl, le_refl _, hl, by intro k h1 h2; omega⟩

private theorem moveRight_spec (c : Config F) (limit : F) (fuel right : Nat) (hr : right ≤ c.n)
    (hf : c.n < right + fuel) :
    right ≤ moveRight c limit fuel right ∧ moveRight c limit fuel right ≤ c.n ∧
      (moveRight c limit fuel right < c.n →
        limit ≤ c.freq (moveRight c limit fuel right)) := by
  induction fuel generalizing right with
  | zero => omega
  | succ fuel ih =>
    unfold moveRight
    by_cases h : right ≠ c.n ∧ c.freq right < limit
    · rw [if_pos h]
      obtain ⟨h1, h2, h3⟩ := ih (right + 1) (by omega) (by omega)
      exact ⟨by omega, h2, h3⟩
    · rw [if_neg h]
      refine ⟨le_refl _, hr, ?_⟩
      intro hlt
      have : right ≠ c.n := by omega
      have := fun h' => h ⟨this, h'⟩
      exact not_lt.1 this

/-- What is known of the window of channel `i`. -/
structure Window (c : Config F) (i left right start stop : Nat) : Prop where
  left_le : left ≤ i
  right_le : right ≤ c.n
  start_eq : start = left - 1
  stop_eq : stop = min (right + 1) c.n
  below : ∀ k, k < left → ∃ i', i' ≤ i ∧ c.freq k < c.freq i' - localBandwidth c i' * (1 / 2)
  above : right < c.n → c.freq i + localBandwidth c i * (1 / 2) ≤ c.freq right

private theorem smooth_steps (c : Config F) (data weight : Nat → F) (factor : F)
    (ht : c.truncate = true) (hbw : ∀ i, i < c.n → 0 ≤ localBandwidth c i) (m : Nat) (hm : m ≤ c.n) :
    ∃ s, (List.range m).foldlM (smoothStep c data weight factor)
        { left := 0, right := firstRight c, out := [] } = some s ∧
      s.left ≤ m ∧ (m = 0 → s.left = 0) ∧ (0 < m → s.left < m) ∧ s.right ≤ c.n ∧ s.out.length = m ∧
      (∀ k, k < s.left → ∃ i', i' < m ∧ c.freq k < c.freq i' - localBandwidth c i' * (1 / 2)) ∧
      ∀ i, i < m → ∃ left right start stop, Window c i left right start stop ∧
        s.out[i]? = some (kernelMean c data weight factor i (List.range' start (stop - start))) := by
  induction m with
  | zero =>
    refine ⟨{ left := 0, right := firstRight c, out := [] }, rfl, by simp, by simp, by simp, ?_,
      by simp, by simp, by simp⟩
    unfold firstRight
    simp only
    omega
  | succ m ih =>
    obtain ⟨s, h1, h2, h3, h4, h5, h6, h7, h8⟩ := ih (by omega)
    rw [List.range_succ, List.foldlM_append, h1]
    have hb := hbw m (by omega)
    obtain ⟨l, l1, l2, l3, l4⟩ := moveLeft_spec c (c.freq m - localBandwidth c m * (1 / 2)) m
      (by omega) (by
        rw [not_lt]
        have : 0 ≤ localBandwidth c m * (1 / 2) := by positivity
        linarith) (c.n + 1) s.left h2 (by omega)
    obtain ⟨r1, r2, r3⟩ := moveRight_spec c (c.freq m + localBandwidth c m * (1 / 2)) (c.n + 1)
      s.right h5 (by omega)
    generalize hr : moveRight c (c.freq m + localBandwidth c m * (1 / 2)) (c.n + 1) s.right = r at *
    have hstep : smoothStep c data weight factor s m = some
        (State.mk l r (s.out ++ [smoothOne c data weight factor m (if 0 < l then l - 1 else 0)
          (if r < c.n then r + 1 else c.n)])) := by
      unfold smoothStep
      rw [if_pos ht]
      simp only [l1, hr]
      rfl
    refine ⟨State.mk l r (s.out ++ [smoothOne c data weight factor m (if 0 < l then l - 1 else 0)
      (if r < c.n then r + 1 else c.n)]), ?_, ?_⟩
    · show (some s >>= fun s => [m].foldlM (smoothStep c data weight factor) s) = _
      simp [hstep]
    have hbelow : ∀ k, k < l → ∃ i', i' ≤ m ∧
        c.freq k < c.freq i' - localBandwidth c i' * (1 / 2) := by
      intro k hk
      by_cases hks : k < s.left
      · obtain ⟨i', h, h'⟩ := h7 k hks
        exact ⟨i', by omega, h'⟩
      · exact ⟨m, le_refl _, l4 k (by omega) hk⟩
    refine ⟨by show l ≤ m + 1; omega, by omega, fun _ => by show l < m + 1; omega, r2,
      by simp [h6], ?_, ?_⟩
    · intro k hk
      obtain ⟨i', h, h'⟩ := hbelow k hk
      exact ⟨i', by omega, h'⟩
    · intro i hi
      by_cases him : i < m
      · obtain ⟨left, right, start, stop, w, ho⟩ := h8 i him
        refine ⟨left, right, start, stop, w, ?_⟩
        show (s.out ++ _)[i]? = _
        rw [List.getElem?_append_left (by omega)]
        exact ho
      · have : i = m := by omega
        subst this
        refine ⟨l, r, _, _, ⟨l3, r2, rfl, rfl, hbelow, r3⟩, ?_⟩
        show (s.out ++ _)[i]? = _
        rw [List.getElem?_append_right (by omega), h6]
        simp only [Nat.sub_self, List.getElem?_cons_zero, Option.some.injEq]
        rw [smoothOne_eq]
        have e1 : (if 0 < l then l - 1 else 0) = l - 1 := by split_ifs <;> omega
        have e2 : (if r < c.n then r + 1 else c.n) = min (r + 1) c.n := by split_ifs <;> omega
        rw [e1, e2]

private theorem smooth_all (c : Config F) (data weight : Nat → F) (factor : F)
    (ht : c.truncate = false) (m : Nat) :
    ∃ s, (List.range m).foldlM (smoothStep c data weight factor)
        { left := 0, right := firstRight c, out := [] } = some s ∧
      s.out = (List.range m).map fun i => kernelMean c data weight factor i (List.range c.n) := by
  induction m with
  | zero => exact ⟨_, rfl, rfl⟩
  | succ m ih =>
    obtain ⟨s, h1, h2⟩ := ih
    rw [List.range_succ, List.foldlM_append, h1]
    refine ⟨State.mk s.left s.right (s.out ++ [smoothOne c data weight factor m 0 c.n]), ?_, ?_⟩
    · show (some s >>= fun s => [m].foldlM (smoothStep c data weight factor) s) = _
      simp [smoothStep, ht]
    · simp [h2, smoothOne_eq, List.range_eq_range']

/-- Without truncation, `Smooth` gives for every channel the average over all channels, weighted with
the kernel. -/
theorem smooth_untruncated (c : Config F) (data weight : Nat → F) (factor : F) (hn : 0 < c.n)
    (ht : c.truncate = false) :
    smooth c data weight factor =
      some ((List.range c.n).map fun i => kernelMean c data weight factor i (List.range c.n)) := by
  obtain ⟨s, h1, h2⟩ := smooth_all c data weight factor ht c.n
  unfold smooth
  rw [if_neg (by omega), h1]
  simp [h2]

/-- With truncation as well, and with a bandwidth that is not negative, every output value is an
average over some range of channels, weighted with the kernel, and the code does not leave its
arrays. -/
theorem smooth_ranges (c : Config F) (data weight : Nat → F) (factor : F) (hn : 0 < c.n)
    (hbw : c.truncate = true → ∀ i, i < c.n → 0 ≤ localBandwidth c i) :
    ∃ out, smooth c data weight factor = some out ∧ out.length = c.n ∧
      ∀ i, i < c.n → ∃ js : List Nat, (∀ j ∈ js, j < c.n) ∧
        out[i]? = some (kernelMean c data weight factor i js) := by
  cases ht : c.truncate with
  | false =>
    refine ⟨_, smooth_untruncated c data weight factor hn ht, by simp, ?_⟩
    intro i hi
    exact ⟨List.range c.n, by simp, by simp [hi]⟩
  | true =>
    obtain ⟨s, h1, -, -, -, -, h6, -, h8⟩ :=
      smooth_steps c data weight factor ht (hbw ht) c.n (le_refl _)
    refine ⟨s.out, by unfold smooth; rw [if_neg (by omega), h1]; rfl, h6, ?_⟩
    intro i hi
    obtain ⟨left, right, start, stop, w, ho⟩ := h8 i hi
    refine ⟨_, ?_, ho⟩
    intro j hj
    rw [List.mem_range'_1] at hj
    have := w.stop_eq
    omega

/-! ## C71: what smoothing may do to the data -/

private theorem sum_mul_const (l : List Nat) (v : F) (data w : Nat → F)
    (h : ∀ j ∈ l, data j = v ∨ w j = 0) :
    (l.map fun j => data j * w j).sum = v * (l.map w).sum := by
  induction l with
  | nil => simp
  | cons j l ih =>
    simp only [List.map_cons, List.sum_cons, mul_add]
    rw [ih fun k hk => h k (by simp [hk])]
    rcases h j (by simp) with e | e <;> simp [e]

/-- C71: a constant series stays the same, wherever there is a result. -/
theorem constant_kept (c : Config F) (data weight : Nat → F) (factor : F) (hn : 0 < c.n)
    (hbw : c.truncate = true → ∀ i, i < c.n → 0 ≤ localBandwidth c i) (v : F)
    (hv : ∀ j, j < c.n → data j = v ∨ weight j = 0) :
    ∃ out, smooth c data weight factor = some out ∧ ∀ (i : Nat) (y : F), out[i]? = some (some y) → y = v := by
  obtain ⟨out, h1, h2, h3⟩ := smooth_ranges c data weight factor hn hbw
  refine ⟨out, h1, ?_⟩
  intro i y hy
  have hi : i < c.n := by
    rw [← h2]
    exact (List.getElem?_eq_some_iff.1 hy).1
  obtain ⟨js, hj, ho⟩ := h3 i hi
  rw [ho] at hy
  unfold kernelMean at hy
  split_ifs at hy with h0
  · simp at hy
  · simp only [Option.some.injEq] at hy
    rw [← hy, sum_mul_const js v data _ (by
      intro j hjs
      rcases hv j (hj j hjs) with e | e
      · exact .inl e
      · right; simp [effWeight, e])]
    rw [mul_div_assoc, div_self h0, mul_one]

/-- The kernel is not negative, whatever its type. -/
theorem kernel_nonneg (c : Config F) (hexp : ∀ x, 0 ≤ c.exp x) (d : F) : 0 ≤ kernelValue c d := by
  unfold kernelValue
  cases c.kernel with
  | rectangular => simp only; split_ifs <;> positivity
  | triangular =>
    simp only
    split_ifs with h1 h2
    · exact le_refl _
    · have h1' := not_or.1 h1
      have := not_lt.1 h1'.2
      linarith
    · have h1' := not_or.1 h1
      have := not_lt.1 h1'.1
      linarith
  | gaussian => simp only; split_ifs; exact le_refl _; exact hexp _
  | epanechnikov =>
    simp only
    split_ifs
    · exact le_refl _
    · have := mul_self_nonneg (1 - d / c.bandwidth)
      nlinarith

private theorem sum_bounds (l : List Nat) (lo hi : F) (data w : Nat → F)
    (hw : ∀ j ∈ l, 0 ≤ w j) (h : ∀ j ∈ l, w j = 0 ∨ (lo ≤ data j ∧ data j ≤ hi)) :
    lo * (l.map w).sum ≤ (l.map fun j => data j * w j).sum ∧
      (l.map fun j => data j * w j).sum ≤ hi * (l.map w).sum ∧ 0 ≤ (l.map w).sum := by
  induction l with
  | nil => simp
  | cons j l ih =>
    obtain ⟨h1, h2, h3⟩ := ih (fun k hk => hw k (by simp [hk])) fun k hk => h k (by simp [hk])
    simp only [List.map_cons, List.sum_cons, mul_add]
    have hwj := hw j (by simp)
    rcases h j (by simp) with e | ⟨e1, e2⟩
    · rw [e]
      refine ⟨by linarith, by linarith, by linarith⟩
    · have g1 := mul_le_mul_of_nonneg_right e1 hwj
      have g2 := mul_le_mul_of_nonneg_right e2 hwj
      refine ⟨by linarith, by linarith, by linarith⟩

/-- C71: smoothing does not go outside the range of the data: with weights that are not negative,
every result is between the smallest and largest value of the channels that have a weight. -/
theorem within_range (c : Config F) (hexp : ∀ x, 0 ≤ c.exp x) (data weight : Nat → F) (factor : F)
    (hn : 0 < c.n) (hbw : c.truncate = true → ∀ i, i < c.n → 0 ≤ localBandwidth c i)
    (hw : ∀ j, j < c.n → 0 ≤ weight j) (lo hi : F)
    (hr : ∀ j, j < c.n → weight j ≠ 0 → lo ≤ data j ∧ data j ≤ hi) :
    ∃ out, smooth c data weight factor = some out ∧
      ∀ (i : Nat) (y : F), out[i]? = some (some y) → lo ≤ y ∧ y ≤ hi := by
  obtain ⟨out, h1, h2, h3⟩ := smooth_ranges c data weight factor hn hbw
  refine ⟨out, h1, ?_⟩
  intro i y hy
  have hi' : i < c.n := by
    rw [← h2]
    exact (List.getElem?_eq_some_iff.1 hy).1
  obtain ⟨js, hj, ho⟩ := h3 i hi'
  rw [ho] at hy
  unfold kernelMean at hy
  split_ifs at hy with h0
  · simp at hy
  · simp only [Option.some.injEq] at hy
    obtain ⟨b1, b2, b3⟩ := sum_bounds js lo hi data (effWeight c weight factor i)
      (fun j hjs => mul_nonneg (kernel_nonneg c hexp _) (hw j (hj j hjs))) (by
        intro j hjs
        by_cases e : weight j = 0
        · left; simp [effWeight, e]
        · exact .inr (hr j (hj j hjs) e))
    have hpos : 0 < (js.map (effWeight c weight factor i)).sum :=
      lt_of_le_of_ne b3 (Ne.symm h0)
    rw [← hy]
    exact ⟨(le_div_iff₀ hpos).2 b1, (div_le_iff₀ hpos).2 b2⟩

/-- C71: the values of channels without weight do not matter. -/
theorem zero_weight_ignored (c : Config F) (data data' weight : Nat → F) (factor : F)
    (h : ∀ j, weight j ≠ 0 → data j = data' j) :
    smooth c data weight factor = smooth c data' weight factor := by
  have h1 : ∀ i start stop, smoothOne c data weight factor i start stop =
      smoothOne c data' weight factor i start stop := by
    intro i start stop
    rw [smoothOne_eq, smoothOne_eq]
    unfold kernelMean
    have : (fun j => data j * effWeight c weight factor i j) =
        fun j => data' j * effWeight c weight factor i j := by
      funext j
      by_cases e : weight j = 0
      · simp [effWeight, e]
      · rw [h j e]
    rw [this]
  have h2 : smoothStep c data weight factor = smoothStep c data' weight factor := by
    funext s i
    unfold smoothStep
    simp only [h1]
  unfold smooth
  rw [h2]

/-! ## C72: truncation -/

/-- A kernel that is cut off vanishes outside the bandwidth. -/
private theorem kernel_zero (c : Config F) (ht : c.truncate = true) (d : F)
    (h : d / c.bandwidth < -1 ∨ 1 < d / c.bandwidth) : kernelValue c d = 0 := by
  unfold kernelValue
  cases c.kernel <;> simp [h, ht]

private theorem sum_window (n start stop : Nat) (h1 : start ≤ stop) (h2 : stop ≤ n) (f : Nat → F)
    (h : ∀ j, j < n → j < start ∨ stop ≤ j → f j = 0) :
    ((List.range n).map f).sum = ((List.range' start (stop - start)).map f).sum := by
  have e : List.range n = List.range' 0 start ++ (List.range' start (stop - start) ++
      List.range' stop (n - stop)) := by
    rw [List.range_eq_range']
    have a1 := List.range'_append_1 (s := start) (m := stop - start) (n := n - stop)
    rw [show start + (stop - start) = stop by omega] at a1
    rw [a1]
    have a2 := List.range'_append_1 (s := 0) (m := start) (n := stop - start + (n - stop))
    rw [Nat.zero_add] at a2
    rw [a2]
    congr 1
    omega
  have z : ∀ l : List Nat, (∀ j ∈ l, f j = 0) → (l.map f).sum = 0 := by
    intro l hl
    induction l with
    | nil => rfl
    | cons j l ih =>
      simp only [List.map_cons, List.sum_cons]
      rw [hl j (by simp), ih fun k hk => hl k (by simp [hk]), add_zero]
  rw [e, List.map_append, List.map_append, List.sum_append, List.sum_append, z (List.range' 0 start),
    z (List.range' stop (n - stop)), zero_add, add_zero]
  · intro j hj
    rw [List.mem_range'_1] at hj
    exact h j (by omega) (.inr (by omega))
  · intro j hj
    rw [List.mem_range'_1] at hj
    exact h j (by omega) (.inl (by omega))

/-- C72, where it holds: if the kernel is at most half as wide as the bandwidth (`hwide`), the
optimization of skipping channels does not matter, and the result is the average over all channels
weighted with the cut-off kernel. -/
theorem truncation_partial (c : Config F) (data weight : Nat → F) (factor : F) (hn : 0 < c.n)
    (ht : c.truncate = true) (hbw : 0 < c.bandwidth)
    (hlocal : ∀ i, i < c.n → 0 ≤ localBandwidth c i)
    (hasc : ∀ i j, i < j → j < c.n → c.freq i < c.freq j)
    (hmono : ∀ i j, i ≤ j → j < c.n →
      c.freq i - localBandwidth c i * (1 / 2) ≤ c.freq j - localBandwidth c j * (1 / 2))
    (hpos : ∀ i, i < c.n → 0 < correction c factor i)
    (hwide : ∀ i, i < c.n → 2 * c.bandwidth ≤ correction c factor i * localBandwidth c i) :
    smooth c data weight factor =
      some ((List.range c.n).map fun i => kernelMean c data weight factor i (List.range c.n)) := by
  obtain ⟨s, h1, -, -, -, -, h6, -, h8⟩ :=
    smooth_steps c data weight factor ht hlocal c.n (le_refl _)
  unfold smooth
  rw [if_neg (by omega), h1]
  simp only [Option.map_some, Option.some.injEq]
  apply List.ext_getElem?
  intro i
  by_cases hi : i < c.n
  · obtain ⟨left, right, start, stop, w, ho⟩ := h8 i hi
    rw [ho]
    simp only [List.getElem?_map, List.getElem?_range hi, Option.map_some, Option.some.injEq]
    have w1 := w.left_le
    have w2 := w.right_le
    have w3 := w.start_eq
    have w4 := w.stop_eq
    have hright : i ≤ right := by
      by_contra hlt
      have hlt' : right < i := by omega
      have a := w.above (by omega)
      have b := hasc right i hlt' hi
      have : 0 ≤ localBandwidth c i * (1 / 2) := by
        have := hlocal i hi
        positivity
      linarith
    have hzero : ∀ j, j < c.n → j < start ∨ stop ≤ j → effWeight c weight factor i j = 0 := by
      intro j hj hout
      unfold effWeight
      rw [kernel_zero c ht, zero_mul]
      have hp := hpos i hi
      have hwd := hwide i hi
      rcases hout with hlt | hge
      · right
        obtain ⟨i', hi', hlt'⟩ := w.below (left - 1) (by omega)
        have m1 := hmono i' i hi' hi
        have m2 := hasc j (left - 1) (by omega) (by omega)
        have hd : localBandwidth c i * (1 / 2) < c.freq i - c.freq j := by linarith
        rw [lt_div_iff₀ hbw, one_mul]
        have := mul_lt_mul_of_pos_right hd hp
        nlinarith
      · left
        have hr : right < c.n := by omega
        have a := w.above hr
        have m2 := hasc right j (by omega) hj
        have hd : localBandwidth c i * (1 / 2) < c.freq j - c.freq i := by linarith
        rw [div_lt_iff₀ hbw]
        have := mul_lt_mul_of_pos_right hd hp
        nlinarith
    unfold kernelMean
    rw [sum_window c.n start stop (by omega) (by omega) (effWeight c weight factor i) hzero,
      sum_window c.n start stop (by omega) (by omega)
        (fun j => data j * effWeight c weight factor i j) (by
          intro j hj hout
          rw [hzero j hj hout, mul_zero])]
  · rw [List.getElem?_eq_none (by omega), List.getElem?_eq_none (by simp; omega)]

/-- Ten channels of 1 Hz, bandwidth 8 Hz. -/
def exConfig : Config ℚ :=
  { n := 10, freq := fun i => i, kernel := .rectangular, bandwidth := 8, refFrequency := 0,
    truncate := true, exp := fun _ => 1, pow := fun _ => 1 }

/-- C72 does not hold in general: the loop cuts off at half the bandwidth, while the kernel reaches
the whole bandwidth, so that channels that have a weight are left out.  Here channel 0 gets the mean
of channels 0 to 5 instead of channels 0 to 8. -/
theorem truncation_too_narrow :
    ((smooth exConfig (fun j => j) (fun _ => 1) 1).map fun out => out[0]?) = some (some (some (5 / 2))) ∧
      kernelMean exConfig (fun j => j) (fun _ => 1) 1 0 (List.range 10) = some 4 := by
  decide +kernel

/-- With a factor of two it does. -/
example : ((smooth exConfig (fun j => j) (fun _ => 1) 2).map fun out => out[0]?) =
    some (some (some 2)) ∧
      kernelMean exConfig (fun j => j) (fun _ => 1) 2 0 (List.range 10) = some 2 := by
  decide +kernel
example : ∀ i, i < 10 → 2 * exConfig.bandwidth ≤ correction exConfig 2 i * localBandwidth exConfig i := by
  decide +kernel

/-- A constant series and a channel without weight. -/
example : smooth exConfig (fun j => if j = 3 then 100 else 7) (fun j => if j = 3 then 0 else 1) 1 =
    some (List.replicate 10 (some 7)) := by decide +kernel
example : smooth { exConfig with truncate := false } (fun j => if j = 3 then 100 else 7)
    (fun j => if j = 3 then 0 else 1) 1 = some (List.replicate 10 (some 7)) := by decide +kernel

/-! ## C73: the kernel is symmetric -/

/-- C73, without the Epanechnikov kernel: channels at equal distance on both sides have equal
weight. -/
theorem kernel_symmetric_partial (c : Config F) (hk : c.kernel ≠ .epanechnikov) (d : F) :
    kernelValue c (-d) = kernelValue c d := by
  have e1 : -d / c.bandwidth = -(d / c.bandwidth) := neg_div _ _
  generalize hx : d / c.bandwidth = x at e1
  have hout : (-x < -1 ∨ 1 < -x) ↔ (x < -1 ∨ 1 < x) := by
    constructor
    · rintro (h | h)
      · right; linarith
      · left; linarith
    · rintro (h | h)
      · right; linarith
      · left; linarith
  unfold kernelValue
  rw [e1, hx]
  cases hkk : c.kernel with
  | rectangular => simp only [hout]
  | triangular =>
    simp only [hout]
    split_ifs with h1 h2 h3 h3
    · rfl
    · have : x = 0 := by linarith
      rw [this]; simp
    · ring
    · ring
    · linarith
  | gaussian =>
    simp only [hout]
    have : - -x * -x * 9 = -x * x * 9 := by ring
    rw [this]
  | epanechnikov => exact absurd hkk hk

/-- C73 does not hold for the Epanechnikov kernel: the code has (1 - x)² where the documentation has
1 - x². -/
theorem epanechnikov_asymmetric :
    kernelValue { exConfig with kernel := .epanechnikov } (-4 : ℚ) = 27 / 16 ∧
      kernelValue { exConfig with kernel := .epanechnikov } 4 = 3 / 16 := by decide +kernel

example : kernelValue { exConfig with kernel := .triangular } (-4 : ℚ) = 1 / 2 := by decide +kernel

/-! ## The constraint -/

/-- C71 for `SmoothnessConstraint::Apply`: every smoothed solution is between the smallest and the
largest of the finite solutions with a weight; non-finite solutions have no influence. -/
theorem constraint_within_range (c : Config F) (hexp : ∀ x, 0 ≤ c.exp x) (hn : 0 < c.n)
    (solution : Nat → Option F) (weight : Nat → F) (ddFactor antennaFactor : F)
    (hbw : c.truncate = true → ∀ i, i < c.n → 0 ≤ localBandwidth c i)
    (hw : ∀ j, j < c.n → 0 ≤ weight j) (lo hi : F)
    (hr : ∀ j v, j < c.n → solution j = some v → weight j ≠ 0 → lo ≤ v ∧ v ≤ hi) :
    ∃ out, constraintApply c solution weight ddFactor antennaFactor = some out ∧
      ∀ (i : Nat) (y : F), out[i]? = some (some y) → lo ≤ y ∧ y ≤ hi := by
  unfold constraintApply constraintInput
  apply within_range c hexp _ _ _ hn hbw
  · intro j hj
    simp only
    split_ifs
    · exact hw j hj
    · exact le_refl _
  · intro j hj h0
    simp only at h0 ⊢
    cases hs : solution j with
    | none => rw [hs] at h0; simp at h0
    | some v =>
      rw [hs] at h0
      simp only [Option.isSome_some, if_true] at h0
      exact hr j v hj hs h0

/-- The series with antenna `a`, sub-solution `s` and polarisation `p` gets the weights and factors of
that antenna and sub-solution. -/
theorem series_indices (nSub nPol a s p : Nat) (hs : s < nSub) (hp : p < nPol) :
    seriesIndices nSub nPol ((a * nSub + s) * nPol + p) = (s, a) := by
  have h1 : ((a * nSub + s) * nPol + p) / nPol = a * nSub + s := by
    rw [Nat.add_comm, Nat.add_mul_div_right _ _ (by omega), Nat.div_eq_of_lt hp, Nat.zero_add]
  unfold seriesIndices
  rw [Nat.mul_comm nSub nPol, ← Nat.div_div_eq_div_mul, h1]
  congr 1
  · rw [Nat.add_comm, Nat.add_mul_mod_self_right, Nat.mod_eq_of_lt hs]
  · rw [Nat.add_comm, Nat.add_mul_div_right _ _ (by omega), Nat.div_eq_of_lt hs, Nat.zero_add]

/-- A channel without a finite solution gets the value of its neighbours. -/
example : ((constraintApply { exConfig with n := 3 } (fun j => if j = 1 then none else some 5)
    (fun _ => 1) 1 1)) = some [some 5, some 5, some 5] := by decide +kernel
example : seriesIndices 3 2 ((4 * 3 + 2) * 2 + 1) = (2, 4) := by decide

end DP3.KernelSmoother
