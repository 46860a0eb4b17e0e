import Verif.DPInfo.Channels
import Mathlib.Algebra.Order.Field.Basic
import Mathlib.Algebra.BigOperators.Group.List.Basic
import Mathlib.Data.Rat.Floor
import Mathlib.Algebra.Field.Rat
import Mathlib.Algebra.Order.Ring.Rat
import Mathlib.Tactic.Linarith
import Mathlib.Tactic.Ring
import Mathlib.Tactic.FieldSimp
import Mathlib.Tactic.IntervalCases
import Mathlib.Tactic.SplitIfs
import Mathlib.Tactic.Push

/-!
# Properties of the channel and time bookkeeping of `DPInfo` (C26, C60, C61)
-/

namespace DP3.DPInfo

set_option linter.unusedSectionVars false

variable {F : Type} [Field F] [LinearOrder F] [IsStrictOrderedRing F] [FloorSemiring F]

/-- The four channel lists have one element per channel. -/
structure Sized (s : Axes F) : Prop where
  freqs : s.freqs.length = s.nChannels
  widths : s.widths.length = s.nChannels
  resols : s.resols.length = s.nChannels
  effBW : s.effBW.length = s.nChannels

/-! ## Helpers -/

private theorem foldl_add {α : Type} (f : α → F) : ∀ (l : List α) (a : F),
    l.foldl (fun acc j => acc + f j) a = a + (l.map f).sum
  | [], a => by simp
  | x :: l, a => by rw [List.foldl_cons, foldl_add f l, List.map_cons, List.sum_cons]; ring

private theorem foldl_sum (l : List F) : l.foldl (· + ·) 0 = l.sum := by
  have := foldl_add (fun x : F => x) l 0
  simpa using this

private theorem binSum_eq (l : List F) (c i : Nat) :
    binSum l c i = ((List.range c).map fun j => l.getD (i * c + j) 0).sum := by
  rw [binSum, foldl_add (fun j => l.getD (i * c + j) 0)]; simp

private theorem binSum_bin (l : List F) (c i n : Nat) (hl : l.length = n * c) (hi : i < n) :
    binSum l c i = ((l.drop (i * c)).take c).sum := by
  rw [binSum_eq]
  congr 1
  have h1 : i * c + c ≤ n * c := by
    have := Nat.mul_le_mul_right c (Nat.succ_le_of_lt hi)
    rw [Nat.succ_mul] at this; exact this
  apply List.ext_getElem?
  intro k
  by_cases hk : k < c
  · rw [List.getElem?_map, List.getElem?_range hk, List.getElem?_take_of_lt hk,
      List.getElem?_drop, Option.map_some, List.getD_eq_getElem?_getD,
      List.getElem?_eq_getElem (by omega)]
    rfl
  · rw [List.getElem?_eq_none (by simp; omega), List.getElem?_eq_none (by simp; omega)]

private theorem bins_sum : ∀ (n c : Nat) (l : List F), l.length = n * c →
    ((List.range n).map (fun i => ((l.drop (i * c)).take c).sum)).sum = l.sum
  | 0, c, l, hl => by
    have : l = [] := List.eq_nil_of_length_eq_zero (by simpa using hl)
    simp [this]
  | n + 1, c, l, hl => by
    rw [List.range_succ_eq_map, List.map_cons, List.sum_cons, List.map_map]
    have ih := bins_sum n c (l.drop c) (by rw [List.length_drop, hl, Nat.succ_mul]; omega)
    have : ((fun i => ((l.drop (i * c)).take c).sum) ∘ Nat.succ) =
        fun i => (((l.drop c).drop (i * c)).take c).sum := by
      funext i
      simp only [Function.comp, List.drop_drop, Nat.succ_mul, Nat.add_comm]
    rw [this, ih]
    simp only [Nat.zero_mul, List.drop_zero]
    exact List.sum_take_add_sum_drop l c

/-- What a successful `update` does, with the factors actually used. -/
private theorem update_inv (s t : Axes F) (chanAvg timeAvg : Nat)
    (h : update s chanAvg timeAvg = some t) :
    ∃ c k, c = min chanAvg s.nChannels ∧ k = min timeAvg s.nTimes ∧ 0 < c ∧ 0 < k ∧
      s.nChannels = t.nChannels * c ∧ t.nTimes = (s.nTimes + k - 1) / k ∧
      t.firstTime = s.firstTime + ((k - 1 : Nat) : F) / 2 * s.interval ∧
      t.interval = s.interval * (k : F) ∧
      t.lastTime = t.firstTime + ((t.nTimes - 1 : Nat) : F) * t.interval ∧
      t.freqs = (List.range t.nChannels).map (fun i =>
        (s.freqs.getD (i * c) 0 + s.freqs.getD ((i + 1) * c - 1) 0) / 2) ∧
      t.widths = (List.range t.nChannels).map (binSum s.widths c) ∧
      t.resols = (List.range t.nChannels).map (binSum s.resols c) ∧
      t.effBW = (List.range t.nChannels).map (binSum s.effBW c) ∧
      t.totalBW = t.effBW.sum ∧ t.chanFactor = s.chanFactor * c ∧
      t.timeFactor = s.timeFactor * k ∧ t.startChannel = s.startChannel ∧
      t.refFreq = s.refFreq := by
  have hc : (if chanAvg > s.nChannels then s.nChannels else chanAvg) = min chanAvg s.nChannels := by
    split_ifs <;> omega
  have hk : (if timeAvg > s.nTimes then s.nTimes else timeAvg) = min timeAvg s.nTimes := by
    split_ifs <;> omega
  unfold update at h
  simp only [hc, hk] at h
  generalize min chanAvg s.nChannels = c at h ⊢
  generalize min timeAvg s.nTimes = k at h ⊢
  split_ifs at h with h0 hm
  simp only [Option.some.injEq] at h
  have hm' : s.nChannels % c = 0 := by simpa using hm
  have hn : (s.nChannels + c - 1) / c = s.nChannels / c := by
    obtain ⟨q, hq⟩ := Nat.dvd_of_mod_eq_zero hm'
    have hc0 : 0 < c := by omega
    rw [hq, Nat.mul_div_cancel_left _ hc0, Nat.add_sub_assoc (by omega), Nat.mul_add_div hc0,
      Nat.div_eq_of_lt (by omega), Nat.add_zero]
  refine ⟨c, k, rfl, rfl, by omega, by omega, ?_⟩
  subst h
  refine ⟨?_, rfl, rfl, rfl, rfl, rfl, rfl, rfl, rfl, foldl_sum _, rfl, rfl, rfl, rfl⟩
  simp only [hn]
  exact (Nat.div_mul_cancel (Nat.dvd_of_mod_eq_zero hm')).symm

private theorem sized_step (s t : Axes F) (o : AxisOp F) (hs : Sized s)
    (h : axisStep s o = some t) : Sized t := by
  cases o with
  | setChannels f w r e ref =>
    simp only [axisStep, setChannels] at h
    generalize (if r.isEmpty = true then w else r) = r' at h
    generalize (if e.isEmpty = true then w else e) = e' at h
    split_ifs at h with h1 h2 h3 h4 h5
    all_goals
      simp only [Option.some.injEq] at h
      subst h
      push Not at h1 h2 h3
      exact ⟨rfl, h1.symm, h2, h3⟩
  | setTimes a b i =>
    simp only [axisStep, setTimes] at h
    split_ifs at h
    simp only [Option.some.injEq] at h
    subst h
    exact ⟨hs.freqs, hs.widths, hs.resols, hs.effBW⟩
  | update c k =>
    obtain ⟨c', k', _, _, _, _, _, _, _, _, _, h1, h2, h3, h4, _⟩ := update_inv s t c k h
    exact ⟨by rw [h1]; simp, by rw [h2]; simp, by rw [h3]; simp, by rw [h4]; simp⟩
  | select a n =>
    simp only [axisStep, selectChannels] at h
    split_ifs at h with h0 h1 h2
    · simp only [Option.some.injEq] at h; exact h ▸ hs
    · simp only [Option.some.injEq] at h
      subst h
      have := hs.freqs
      have := hs.widths
      have := hs.resols
      have := hs.effBW
      refine ⟨?_, ?_, ?_, ?_⟩ <;> simp only [List.length_take, List.length_drop] <;> omega

/-- Whatever calls were made on a `DPInfo`, the channel lists have one element per channel. -/
theorem axisRun_sized (ops : List (AxisOp F)) (s : Axes F)
    (h : axisRun ops initial = some s) : Sized s := by
  suffices H : ∀ (ops : List (AxisOp F)) (s0 s : Axes F), Sized s0 → axisRun ops s0 = some s →
      Sized s from H ops initial s ⟨rfl, rfl, rfl, rfl⟩ h
  intro ops
  induction ops with
  | nil => intro s0 s h0 h; simp only [axisRun, Option.some.injEq] at h; exact h ▸ h0
  | cons o os ih =>
    intro s0 s h0 h
    simp only [axisRun, Option.bind_eq_some_iff] at h
    obtain ⟨s1, h1, h⟩ := h
    exact ih s1 s (sized_step s0 s1 o h0 h1) h

/-- Four channels, of which the last three are selected and then averaged into one. -/
example : ∃ s, axisRun (F := ℚ)
    [.setChannels [1, 2, 3, 4] [1, 1, 1, 1] [] [] 0, .select 1 3, .update 8 1] initial = some s ∧
      s.nChannels = 1 ∧ s.freqs = [3] ∧ s.widths = [3] := by
  refine ⟨_, rfl, ?_, ?_, ?_⟩ <;> decide +kernel

/-! ## C26 -/

/-- **C26.**  After averaging by a factor the channels number the input channels divided by the
factor (clipped to the number of channels); every averaged width, resolution and effective
bandwidth is the sum over its bin, so that their totals are kept; and the total bandwidth is the
sum of the effective bandwidths. -/
theorem update_channels (ops : List (AxisOp F)) (s t : Axes F) (chanAvg timeAvg : Nat)
    (hs : axisRun ops initial = some s) (h : update s chanAvg timeAvg = some t) :
    ∃ c, c = min chanAvg s.nChannels ∧ t.nChannels * c = s.nChannels ∧
      (∀ i, i < t.nChannels → t.widths[i]? = some ((s.widths.drop (i * c)).take c).sum) ∧
      (∀ i, i < t.nChannels → t.resols[i]? = some ((s.resols.drop (i * c)).take c).sum) ∧
      (∀ i, i < t.nChannels → t.effBW[i]? = some ((s.effBW.drop (i * c)).take c).sum) ∧
      t.widths.sum = s.widths.sum ∧ t.resols.sum = s.resols.sum ∧ t.effBW.sum = s.effBW.sum ∧
      t.totalBW = s.effBW.sum := by
  have hz := axisRun_sized ops s hs
  obtain ⟨c, k, hc, _, hc0, _, hn, _, _, _, _, _, hw, hr, he, ht, _⟩ :=
    update_inv s t chanAvg timeAvg h
  have hbin : ∀ l : List F, l.length = s.nChannels → ∀ i, i < t.nChannels →
      ((List.range t.nChannels).map (binSum l c))[i]? = some ((l.drop (i * c)).take c).sum := by
    intro l hl i hi
    rw [List.getElem?_map, List.getElem?_range hi, Option.map_some,
      binSum_bin l c i t.nChannels (by rw [hl, hn]) hi]
  have hsum : ∀ l : List F, l.length = s.nChannels →
      ((List.range t.nChannels).map (binSum l c)).sum = l.sum := by
    intro l hl
    rw [← bins_sum t.nChannels c l (by rw [hl, hn])]
    congr 1
    apply List.map_congr_left
    intro i hi
    exact binSum_bin l c i t.nChannels (by rw [hl, hn]) (List.mem_range.1 hi)
  refine ⟨c, hc, hn.symm, ?_, ?_, ?_, ?_, ?_, ?_, ?_⟩
  · rw [hw]; exact hbin _ hz.widths
  · rw [hr]; exact hbin _ hz.resols
  · rw [he]; exact hbin _ hz.effBW
  · rw [hw]; exact hsum _ hz.widths
  · rw [hr]; exact hsum _ hz.resols
  · rw [he]; exact hsum _ hz.effBW
  · rw [ht, he]; exact hsum _ hz.effBW

/-- Averaging six channels by two. -/
example : ∃ s t, axisRun (F := ℚ)
    [.setChannels [1, 2, 3, 4, 5, 6] [1, 1, 1, 1, 1, 1] [] [1, 2, 3, 4, 5, 6] 0] initial = some s ∧
      update s 2 1 = some t ∧ t.widths = [2, 2, 2] ∧ t.effBW = [3, 7, 11] ∧ t.totalBW = 21 := by
  refine ⟨_, _, rfl, rfl, ?_, ?_, ?_⟩ <;> decide +kernel

/-- Averaging is refused if the factor does not divide the number of channels. -/
theorem update_rejects (s : Axes F) (chanAvg timeAvg : Nat) (hc : 0 < chanAvg) (ht : 0 < timeAvg)
    (hn : 0 < s.nChannels) (hnt : 0 < s.nTimes) :
    update s chanAvg timeAvg = none ↔ chanAvg < s.nChannels ∧ ¬ chanAvg ∣ s.nChannels := by
  unfold update
  have h0 : ¬ ((if chanAvg > s.nChannels then s.nChannels else chanAvg) = 0 ∨
      (if timeAvg > s.nTimes then s.nTimes else timeAvg) = 0) := by
    split_ifs <;> omega
  simp only [h0, if_false]
  by_cases hgt : chanAvg > s.nChannels
  · simp only [hgt, if_true, Nat.mod_self]
    simp only [ne_eq, not_true_eq_false, if_false]
    constructor
    · intro h; simp at h
    · intro h; omega
  · simp only [hgt, if_false]
    rw [Nat.dvd_iff_mod_eq_zero]
    by_cases hm : s.nChannels % chanAvg = 0
    · simp [hm]
    · simp only [ne_eq, hm, not_false_eq_true, if_true, true_iff, and_true]
      rcases Nat.lt_or_ge chanAvg s.nChannels with h | h
      · exact h
      · have : chanAvg = s.nChannels := by omega
        rw [this, Nat.mod_self] at hm; exact absurd rfl hm

/-- Five channels by two. -/
example : ∃ s, axisRun (F := ℚ) [.setChannels [1, 2, 3, 4, 5] [1, 1, 1, 1, 1] [] [] 0]
    initial = some s ∧ update s 2 1 = none := by
  refine ⟨_, rfl, ?_⟩; decide +kernel

/-- The lower edge of channel `i`. -/
def lo (s : Axes F) (i : Nat) : F := s.freqs.getD i 0 - s.widths.getD i 0 / 2

/-- The upper edge of channel `i`. -/
def hi (s : Axes F) (i : Nat) : F := s.freqs.getD i 0 + s.widths.getD i 0 / 2

/-- Every channel starts where the one before it ends. -/
def Contiguous (s : Axes F) : Prop := ∀ i, i + 1 < s.nChannels → hi s i = lo s (i + 1)

private theorem span (s : Axes F) (hcont : Contiguous s) (a : Nat) : ∀ m,
    a + m < s.nChannels →
    hi s (a + m) - lo s a = ((List.range (m + 1)).map fun j => s.widths.getD (a + j) 0).sum
  | 0, _ => by simp [hi, lo]
  | m + 1, h => by
    have ih := span s hcont a m (by omega)
    rw [List.range_succ, List.map_append, List.sum_append, ← ih]
    have := hcont (a + m) (by omega)
    simp only [List.map_cons, List.map_nil, List.sum_cons, List.sum_nil, add_zero]
    rw [show a + (m + 1) = a + m + 1 by omega]
    rw [this]
    simp only [hi, lo]; ring

/-- **C26, partial.**  For contiguous channels, the averaged channel has the width of its bin; its
frequency is the centre of the bin exactly if the first and last channel of the bin have the same
width.  Missing: bins whose first and last channel differ in width, where the frequency is off by
a quarter of the difference. -/
theorem centre_partial (ops : List (AxisOp F)) (s t : Axes F) (chanAvg timeAvg : Nat)
    (hs : axisRun ops initial = some s) (h : update s chanAvg timeAvg = some t)
    (hcont : Contiguous s) (i : Nat) (hi' : i < t.nChannels) :
    ∃ c, c = min chanAvg s.nChannels ∧ 0 < c ∧
      t.widths.getD i 0 = hi s ((i + 1) * c - 1) - lo s (i * c) ∧
      t.freqs.getD i 0 = (lo s (i * c) + hi s ((i + 1) * c - 1)) / 2 +
        (s.widths.getD (i * c) 0 - s.widths.getD ((i + 1) * c - 1) 0) / 4 ∧
      (t.freqs.getD i 0 = (lo s (i * c) + hi s ((i + 1) * c - 1)) / 2 ↔
        s.widths.getD (i * c) 0 = s.widths.getD ((i + 1) * c - 1) 0) := by
  have hz := axisRun_sized ops s hs
  obtain ⟨c, k, hc, _, hc0, _, hn, _, _, _, _, hf, hw, _⟩ := update_inv s t chanAvg timeAvg h
  have hle : (i + 1) * c ≤ s.nChannels := by
    rw [hn]; exact Nat.mul_le_mul_right c hi'
  have hix : (i + 1) * c - 1 = i * c + (c - 1) := by
    rw [Nat.succ_mul]; omega
  have hfi : t.freqs.getD i 0 =
      (s.freqs.getD (i * c) 0 + s.freqs.getD ((i + 1) * c - 1) 0) / 2 := by
    rw [hf, List.getD_eq_getElem?_getD, List.getElem?_map, List.getElem?_range hi']; rfl
  have hwi : t.widths.getD i 0 = binSum s.widths c i := by
    rw [hw, List.getD_eq_getElem?_getD, List.getElem?_map, List.getElem?_range hi']; rfl
  have heq : t.freqs.getD i 0 = (lo s (i * c) + hi s ((i + 1) * c - 1)) / 2 +
        (s.widths.getD (i * c) 0 - s.widths.getD ((i + 1) * c - 1) 0) / 4 := by
    rw [hfi]; simp only [lo, hi]; ring
  refine ⟨c, hc, hc0, ?_, heq, ?_⟩
  · rw [hwi, binSum_eq, hix]
    have := span s hcont (i * c) (c - 1) (by rw [Nat.succ_mul] at hle; omega)
    rw [this, Nat.sub_add_cancel hc0]
  · rw [heq]
    constructor
    · intro h; linarith
    · intro h; rw [h]; ring

/-- Channels of widths 1, 2, 1 and 3, 1, 3 beside one another. -/
example : ∃ s t, axisRun (F := ℚ)
    [.setChannels [1/2, 2, 7/2, 11/2, 15/2, 19/2] [1, 2, 1, 3, 1, 3] [] [] 0] initial = some s ∧
      Contiguous s ∧ update s 3 1 = some t ∧ t.freqs = [2, 15/2] ∧ t.widths = [4, 7] := by
  refine ⟨_, _, rfl, ?_, rfl, ?_, ?_⟩
  · intro i hi
    have : i < 5 := by
      have : i + 1 < 6 := hi
      omega
    interval_cases i <;> decide +kernel
  all_goals decide +kernel

/-- **C26 fails for unequal widths.**  Two contiguous channels of widths 1 and 3 are averaged into
a channel that is not centred on them. -/
theorem centre_off : ∃ s t, axisRun (F := ℚ)
    [.setChannels [1/2, 5/2] [1, 3] [] [] 0] initial = some s ∧ Contiguous s ∧
      update s 2 1 = some t ∧ lo s 0 = 0 ∧ hi s 1 = 4 ∧ t.freqs = [3/2] ∧ t.widths = [4] ∧
      lo t 0 = -1/2 := by
  refine ⟨_, _, rfl, ?_, rfl, ?_, ?_, ?_, ?_, ?_⟩
  · intro i hi
    have : i = 0 := by
      have : i + 1 < 2 := hi
      omega
    subst this; decide +kernel
  all_goals decide +kernel

/-- A regular frequency axis: channels of width `w`, the first of which starts at `e`. -/
def Regular (s : Axes F) (e w : F) : Prop :=
  ∀ i, i < s.nChannels → s.freqs.getD i 0 = e + w / 2 + w * (i : F) ∧ s.widths.getD i 0 = w

/-- **C26.**  Averaging a regular frequency axis gives a regular frequency axis that starts at the
same edge, with channels wider by the factor. -/
theorem update_regular (s t : Axes F) (chanAvg timeAvg : Nat) (e w : F)
    (hr : Regular s e w) (h : update s chanAvg timeAvg = some t) :
    Regular t e (w * ((min chanAvg s.nChannels : Nat) : F)) := by
  obtain ⟨c, k, hc, _, hc0, _, hn, _, _, _, _, hf, hw, _⟩ := update_inv s t chanAvg timeAvg h
  rw [← hc]
  intro i hi
  have hle : (i + 1) * c ≤ s.nChannels := by
    rw [hn]; exact Nat.mul_le_mul_right c hi
  have hix : (i + 1) * c - 1 = i * c + (c - 1) := by
    rw [Nat.succ_mul]; omega
  have hlt : i * c + (c - 1) < s.nChannels := by rw [Nat.succ_mul] at hle; omega
  have hcc : (((c - 1 : Nat)) : F) = (c : F) - 1 := by
    rw [Nat.cast_sub (by omega)]; simp
  constructor
  · rw [hf, List.getD_eq_getElem?_getD, List.getElem?_map, List.getElem?_range hi]
    simp only [Option.map_some, Option.getD_some]
    rw [hix, (hr (i * c) (by omega)).1, (hr _ hlt).1]
    push_cast [hcc]
    ring
  · rw [hw, List.getD_eq_getElem?_getD, List.getElem?_map, List.getElem?_range hi]
    simp only [Option.map_some, Option.getD_some]
    rw [binSum_eq]
    have : ((List.range c).map fun j => s.widths.getD (i * c + j) 0) =
        (List.range c).map fun _ => w := by
      apply List.map_congr_left
      intro j hj
      exact (hr _ (by have := List.mem_range.1 hj; omega)).2
    rw [this]
    simp [mul_comm]

/-- Six channels of width 2 from 10 on. -/
example : ∃ s t, axisRun (F := ℚ)
    [.setChannels [11, 13, 15, 17, 19, 21] [2, 2, 2, 2, 2, 2] [] [] 0] initial = some s ∧
      Regular s 10 2 ∧ update s 3 1 = some t ∧ t.freqs = [13, 19] := by
  refine ⟨_, _, rfl, ?_, rfl, ?_⟩
  · intro i hi
    have : i < 6 := hi
    interval_cases i <;> decide +kernel
  · decide +kernel

/-! ## C60: times -/

/-- The start of the first time slot. -/
def start (s : Axes F) : F := s.firstTime - s.interval / 2

/-- **C60.**  The number of time slots of an observation is such that the centre of the last slot
is within half an interval of the given last time. -/
theorem setTimes_spec (s t : Axes F) (first last interval : F)
    (h : setTimes s first last interval = some t) :
    0 < interval ∧ first ≤ last ∧ 0 < t.nTimes ∧ t.firstTime = first ∧ t.interval = interval ∧
      last - interval / 2 < first + ((t.nTimes : F) - 1) * interval ∧
      first + ((t.nTimes : F) - 1) * interval ≤ last + interval / 2 := by
  simp only [setTimes] at h
  split_ifs at h with h1 h2
  simp only [Option.some.injEq] at h
  subst h
  push Not at h1 h2
  have hq : 0 ≤ (last - first) / interval := div_nonneg (by linarith) h2.le
  have hfl := Nat.floor_le (show 0 ≤ (last - first) / interval + 3 / 2 by linarith)
  have hlt := Nat.lt_floor_add_one ((last - first) / interval + 3 / 2)
  have hmul : (last - first) / interval * interval = last - first := by
    field_simp
  refine ⟨h2, h1, ?_, rfl, rfl, ?_, ?_⟩
  · exact Nat.floor_pos.2 (by linarith)
  all_goals simp only
  all_goals generalize ((⌊(last - first) / interval + 3 / 2⌋₊ : Nat) : F) = n at *
  all_goals generalize (last - first) / interval = q at *
  · have : (q + 1 / 2 - n) * interval < 0 := by
      apply mul_neg_of_neg_of_pos _ h2; linarith
    nlinarith
  · have : 0 ≤ (q + 3 / 2 - n) * interval := mul_nonneg (by linarith) h2.le
    nlinarith

/-- Times 5, 15, ..., 35 with a last time that is slightly off. -/
example : ∃ t, setTimes (F := ℚ) initial 5 36 10 = some t ∧ t.nTimes = 4 := by
  refine ⟨_, rfl, ?_⟩
  show ⌊((36 : ℚ) - 5) / 10 + 3 / 2⌋₊ = 4
  rw [Nat.floor_eq_iff (by norm_num)]; norm_num

/-- **C60.**  Averaging in time keeps the start of the observation, multiplies the interval, gives
the last slot's centre, and the averaged slots cover the input slots with less than one averaged
interval to spare. -/
theorem update_times (s t : Axes F) (chanAvg timeAvg : Nat) (hi : 0 < s.interval)
    (h : update s chanAvg timeAvg = some t) :
    start t = start s ∧ t.interval = s.interval * ((min timeAvg s.nTimes : Nat) : F) ∧
      0 < t.nTimes ∧
      t.lastTime = t.firstTime + ((t.nTimes : F) - 1) * t.interval ∧
      start s + (s.nTimes : F) * s.interval ≤ start t + (t.nTimes : F) * t.interval ∧
      start t + ((t.nTimes : F) - 1) * t.interval < start s + (s.nTimes : F) * s.interval := by
  obtain ⟨c, k, _, hk, _, hk0, _, hnt, hft, hin, hlt, _⟩ := update_inv s t chanAvg timeAvg h
  rw [← hk]
  have hkn : k ≤ s.nTimes := by omega
  have hcast : ((k - 1 : Nat) : F) = (k : F) - 1 := by
    rw [Nat.cast_sub (by omega)]; simp
  have hstart : start t = start s := by
    rw [start, start, hft, hin, hcast]; ring
  -- the rounded up quotient
  have hdm := Nat.div_add_mod (s.nTimes + k - 1) k
  have hml := Nat.mod_lt (s.nTimes + k - 1) hk0
  rw [← hnt] at hdm
  have hpos : 0 < t.nTimes := by
    rcases Nat.eq_zero_or_pos t.nTimes with h0 | h0
    · rw [h0] at hdm; omega
    · exact h0
  have hcov : s.nTimes ≤ k * t.nTimes := by omega
  have hcov2 : k * t.nTimes < s.nTimes + k := by omega
  have hcovF : (s.nTimes : F) ≤ (k : F) * (t.nTimes : F) := by exact_mod_cast hcov
  have hcov2F : (k : F) * (t.nTimes : F) < (s.nTimes : F) + (k : F) := by exact_mod_cast hcov2
  refine ⟨hstart, hin, hpos, ?_, ?_, ?_⟩
  · rw [hlt, Nat.cast_sub (by omega)]; simp
  · rw [hstart, hin]
    nlinarith
  · rw [hstart, hin]
    nlinarith

/-- Seven time slots averaged by three. -/
example : ∃ t, update ({ (initial : Axes ℚ) with
    nChannels := 1, freqs := [1], widths := [1], resols := [1], effBW := [1], firstTime := 5
    interval := 10, nTimes := 7 }) 1 3 = some t ∧ t.firstTime = 15 ∧ t.interval = 30 ∧
      t.nTimes = 3 ∧ t.lastTime = 75 := by
  refine ⟨_, rfl, ?_, ?_, ?_, ?_⟩ <;> decide +kernel

/-! ## C61: channel selections -/

/-- The sequence of calls selects channels only. -/
def selectRun : List (Nat × Nat) → Axes F → Option (Axes F)
  | [], s => some s
  | p :: ps, s => (selectChannels s p.1 p.2).bind (selectRun ps)

/-- **C61.**  After any sequence of channel selections, channel `i` of the result is the channel
of the original axis whose number is the shift of `startchan()` plus `i`, for frequencies, widths,
resolutions and effective bandwidths; and the selected channels are inside the original axis. -/
theorem select_spec (ops : List (AxisOp F)) (s t : Axes F) (ps : List (Nat × Nat))
    (hs : axisRun ops initial = some s) (h : selectRun ps s = some t) :
    ∃ d, t.startChannel = s.startChannel + d ∧ d + t.nChannels ≤ s.nChannels ∧
      t.freqs = (s.freqs.drop d).take t.nChannels ∧
      t.widths = (s.widths.drop d).take t.nChannels ∧
      t.resols = (s.resols.drop d).take t.nChannels ∧
      t.effBW = (s.effBW.drop d).take t.nChannels := by
  have hz := axisRun_sized ops s hs
  clear hs
  induction ps generalizing s with
  | nil =>
    simp only [selectRun, Option.some.injEq] at h
    subst h
    refine ⟨0, rfl, by omega, ?_, ?_, ?_, ?_⟩
    · rw [List.drop_zero, List.take_of_length_le (le_of_eq hz.freqs)]
    · rw [List.drop_zero, List.take_of_length_le (le_of_eq hz.widths)]
    · rw [List.drop_zero, List.take_of_length_le (le_of_eq hz.resols)]
    · rw [List.drop_zero, List.take_of_length_le (le_of_eq hz.effBW)]
  | cons p ps ih =>
    simp only [selectRun, Option.bind_eq_some_iff] at h
    obtain ⟨s1, h1, h⟩ := h
    have hz1 := sized_step s s1 (.select p.1 p.2) hz h1
    obtain ⟨d, hd1, hd2, hf, hw, hr, he⟩ := ih s1 h hz1
    simp only [selectChannels] at h1
    split_ifs at h1 with h0 hx hy
    · simp only [Option.some.injEq] at h1
      subst h1
      exact ⟨d, hd1, hd2, hf, hw, hr, he⟩
    · simp only [Option.some.injEq] at h1
      have hlen := hz.freqs
      have hn1 : s1.nChannels = p.2 := by rw [← h1]
      have hcut : ∀ l : List F, (((l.drop p.1).take p.2).drop d).take t.nChannels =
          (l.drop (p.1 + d)).take t.nChannels := by
        intro l
        rw [List.drop_take, List.drop_drop, List.take_take]
        congr 1
        omega
      refine ⟨p.1 + d, ?_, by omega, ?_, ?_, ?_, ?_⟩
      · rw [hd1, ← h1]; simp only; omega
      · rw [hf, ← h1]; exact hcut _
      · rw [hw, ← h1]; exact hcut _
      · rw [hr, ← h1]; exact hcut _
      · rw [he, ← h1]; exact hcut _

/-- Two selections after one another. -/
example : ∃ s t, axisRun (F := ℚ)
    [.setChannels [11, 13, 15, 17, 19, 21] [2, 2, 2, 2, 2, 2] [] [] 0] initial = some s ∧
      selectRun [(1, 4), (2, 2)] s = some t ∧ t.startChannel = 3 ∧ t.freqs = [17, 19] := by
  refine ⟨_, _, rfl, rfl, ?_, ?_⟩ <;> decide +kernel

/-- **C61.**  A selection is refused exactly if it is not inside the axis. -/
theorem select_rejects (ops : List (AxisOp F)) (s : Axes F) (a n : Nat)
    (hs : axisRun ops initial = some s) :
    selectChannels s a n = none ↔ s.nChannels < a + n := by
  have hz := axisRun_sized ops s hs
  have h1 := hz.freqs
  have h2 := hz.widths
  have h3 := hz.resols
  have h4 := hz.effBW
  rw [selectChannels]
  by_cases h0 : a = 0 ∧ n = s.nChannels
  · rw [if_pos h0]
    constructor
    · intro h; simp at h
    · intro h; omega
  · rw [if_neg h0, if_neg (by omega)]
    constructor
    · intro h
      by_contra hc
      rw [if_neg (by omega)] at h
      simp at h
    · intro h
      rw [if_pos (by omega)]

/-- Channels 4 to 6 of six. -/
example : ∃ s, axisRun (F := ℚ)
    [.setChannels [11, 13, 15, 17, 19, 21] [2, 2, 2, 2, 2, 2] [] [] 0] initial = some s ∧
      selectChannels s 4 3 = none := by
  refine ⟨_, rfl, ?_⟩; decide +kernel

/-- The call is not a selection. -/
def AxisOp.keepsChannels : AxisOp F → Bool
  | .select _ _ => false
  | _ => true

/-- **C61, partial.**  After any calls other than a channel selection, and after an averaging that
follows a selection, `totalBW()` is the sum of the effective bandwidths of the channels.  Missing:
a selection at the end, for which it is false (`bandwidth_stale`). -/
theorem bandwidth_partial (ops : List (AxisOp F)) (s : Axes F)
    (hops : (∀ o ∈ ops, o.keepsChannels) ∨ ∃ before c k, ops = before ++ [.update c k])
    (h : axisRun ops initial = some s) : s.totalBW = s.effBW.sum := by
  have happ : ∀ (a b : List (AxisOp F)) (s0 : Axes F),
      axisRun (a ++ b) s0 = (axisRun a s0).bind (axisRun b) := by
    intro a
    induction a with
    | nil => intro b s0; rfl
    | cons o a ih =>
      intro b s0
      simp only [List.cons_append, axisRun]
      cases axisStep s0 o with
      | none => rfl
      | some s1 => simpa using ih b s1
  rcases hops with hops | ⟨before, c, k, rfl⟩
  · suffices H : ∀ (ops : List (AxisOp F)) (s0 s : Axes F), (∀ o ∈ ops, o.keepsChannels) →
        s0.totalBW = s0.effBW.sum → axisRun ops s0 = some s → s.totalBW = s.effBW.sum from
      H ops initial s hops (by simp [initial]) h
    intro ops
    induction ops with
    | nil => intro s0 s _ h0 h; simp only [axisRun, Option.some.injEq] at h; exact h ▸ h0
    | cons o os ih =>
      intro s0 s hops h0 h
      simp only [axisRun, Option.bind_eq_some_iff] at h
      obtain ⟨s1, h1, h⟩ := h
      refine ih s1 s (fun o ho => hops o (List.mem_cons_of_mem _ ho)) ?_ h
      cases o with
      | setChannels f w r e ref =>
        simp only [axisStep, setChannels] at h1
        generalize (if r.isEmpty = true then w else r) = r' at h1
        generalize (if e.isEmpty = true then w else e) = e' at h1
        split_ifs at h1
        all_goals
          simp only [Option.some.injEq] at h1
          subst h1
          exact foldl_sum _
      | setTimes a b i =>
        simp only [axisStep, setTimes] at h1
        split_ifs at h1
        simp only [Option.some.injEq] at h1
        subst h1
        exact h0
      | update c k =>
        obtain ⟨_, _, _, _, _, _, _, _, _, _, _, _, _, _, _, ht, _⟩ := update_inv s0 s1 c k h1
        exact ht
      | select a n =>
        exact absurd (hops (.select a n) (by simp)) (by simp [AxisOp.keepsChannels])
  · rw [happ, Option.bind_eq_some_iff] at h
    obtain ⟨s1, _, h⟩ := h
    simp only [axisRun, Option.bind_eq_some_iff] at h
    obtain ⟨s2, h2, h⟩ := h
    simp only [Option.some.injEq] at h
    subst h
    obtain ⟨_, _, _, _, _, _, _, _, _, _, _, _, _, _, _, ht, _⟩ := update_inv s1 s2 c k h2
    exact ht

/-- A selection followed by averaging. -/
example : ∃ s, axisRun (F := ℚ) [.setChannels [11, 13, 15, 17] [2, 2, 2, 2] [] [] 0,
    .select 1 2, .update 2 1] initial = some s ∧ s.totalBW = 4 := by
  refine ⟨_, rfl, ?_⟩; decide +kernel

/-- **C61 fails for the total bandwidth.**  After a selection of two of four channels the total
bandwidth is still that of the four channels; `MSWriter` writes it to `TOTAL_BANDWIDTH`. -/
theorem bandwidth_stale : ∃ s, axisRun (F := ℚ)
    [.setChannels [11, 13, 15, 17] [2, 2, 2, 2] [] [] 0, .select 1 2] initial = some s ∧
      s.effBW = [2, 2] ∧ s.totalBW = 8 := by
  refine ⟨_, rfl, ?_, ?_⟩ <;> decide +kernel

end DP3.DPInfo
