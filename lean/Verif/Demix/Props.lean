import Verif.Demix.Spec
import Mathlib.Tactic.Ring
import Mathlib.Tactic.FieldSimp
import Mathlib.Tactic.NormNum
import Mathlib.Tactic.Linarith
import Mathlib.Algebra.BigOperators.Group.List.Lemmas
import Mathlib.Algebra.BigOperators.Ring.List
import Mathlib.Data.List.Nodup
import Mathlib.LinearAlgebra.Matrix.Notation
import Mathlib.Tactic.FinCases
import Mathlib.Tactic.SplitIfs

/-!
# C126: the mixing factors describe the averages, and subtraction leaves the other sources
-/

namespace DP3.Demix

set_option linter.unusedSimpArgs false

open Matrix ComplexConjugate

/-! ## Pairs of directions -/

theorem mem_pairs (nDir a b : ℕ) : (a, b) ∈ pairs nDir ↔ a < b ∧ b < nDir := by
  unfold pairs
  simp only [List.mem_flatMap, List.mem_range, List.mem_map, List.mem_range'_1, Prod.mk.injEq]
  constructor
  · rintro ⟨d0, h0, d1, h1, rfl, rfl⟩
    omega
  · intro h
    exact ⟨a, by omega, b, by omega, rfl, rfl⟩

theorem nodup_pairs (nDir : ℕ) : (pairs nDir).Nodup := by
  unfold pairs
  rw [List.nodup_flatMap]
  refine ⟨fun d0 _ => List.Nodup.map (fun x y h => (Prod.mk.injEq .. ▸ h).2) List.nodup_range', ?_⟩
  refine List.Pairwise.imp ?_ List.nodup_range
  intro a b hab
  rw [Function.onFun, List.disjoint_left]
  rintro ⟨x, y⟩ h1 h2
  rw [List.mem_map] at h1 h2
  obtain ⟨_, _, e1⟩ := h1
  obtain ⟨_, _, e2⟩ := h2
  have := congrArg Prod.fst e1
  have h3 := congrArg Prod.fst e2
  exact hab (by simp only at this h3; rw [this, h3])

/-! ## Sums -/

private theorem addPair_fold (nDir : ℕ) (t : ℕ → Sample) (l : List (ℕ × ℕ)) (n : ℕ) (buf : ℕ → ℕ → ℂ) (k ch : ℕ) :
    (l.zipIdx n).foldl (addPair nDir t) buf k ch = buf k ch +
      (match if n ≤ k then l[k - n]? else none with
        | some e => pairFactor nDir (t ch) e.1 e.2 * (weighted (t ch) : ℂ)
        | none => 0) := by
  induction l generalizing n buf with
  | nil => simp
  | cons p l ih =>
    rw [List.zipIdx_cons, List.foldl_cons, ih, addPair]
    by_cases h1 : k = n
    · subst h1
      rw [if_pos rfl, if_neg (by omega), if_pos (Nat.le_refl k), Nat.sub_self, List.getElem?_cons_zero, add_zero]
    · rw [if_neg h1]
      by_cases h2 : n ≤ k
      · rw [if_pos h2, if_pos (by omega), show k - n = (k - (n + 1)) + 1 by omega, List.getElem?_cons_succ]
      · rw [if_neg h2, if_neg (by omega)]

private theorem buffer_value (nDir : ℕ) (times : List (ℕ → Sample)) (buf : ℕ → ℕ → ℂ) (k ch a b : ℕ) (hk : (pairs nDir)[k]? = some (a, b)) :
    times.foldl (addFactors nDir) buf k ch = buf k ch + (times.map fun t => pairFactor nDir (t ch) a b * (weighted (t ch) : ℂ)).sum := by
  induction times generalizing buf with
  | nil => simp
  | cons t times ih =>
    rw [List.foldl_cons, ih, addFactors, addPair_fold]
    simp only [Nat.zero_le, if_true, Nat.sub_zero, hk, List.map_cons, List.sum_cons]
    ring

private theorem sumFrom_eq (f : ℕ → ℂ) (c n : ℕ) : sumFrom f c n = ((List.range' c n).map f).sum := by
  induction n with
  | zero => rfl
  | succ n ih => rw [sumFrom, ih, List.range'_1_concat, List.map_append, List.sum_append]; simp

private theorem channelSums_get (f : ℕ → ℂ) (nChanIn nChanAvg : ℕ) (n c : ℕ) (chIn : ℕ)
    (hc : chIn = c * nChanAvg) (hn : ∀ k, c ≤ k → k + 1 < c + n → (k + 1) * nChanAvg ≤ nChanIn) (i : ℕ) (hi : i < n) :
    (channelSums f nChanIn nChanAvg (List.range' c n) chIn)[i]? =
      some (((List.range' ((c + i) * nChanAvg) (min nChanAvg (nChanIn - (c + i) * nChanAvg))).map f).sum) := by
  induction n generalizing c chIn i with
  | zero => omega
  | succ n ih =>
    rw [List.range'_succ, channelSums]
    cases i with
    | zero => rw [List.getElem?_cons_zero, sumFrom_eq, hc, Nat.add_zero]
    | succ i =>
      rw [List.getElem?_cons_succ, ih (c + 1) _ ?_ (fun k h1 h2 => hn k (by omega) (by omega)) i (by omega)]
      · rw [show c + 1 + i = c + (i + 1) by omega]
      · have := hn c (Nat.le_refl c) (by omega)
        rw [Nat.add_mul, Nat.one_mul] at this ⊢
        rw [hc, Nat.min_eq_left (by omega)]

private theorem channelSums_length (f : ℕ → ℂ) (nChanIn nChanAvg : ℕ) (l : List ℕ) (c : ℕ) : (channelSums f nChanIn nChanAvg l c).length = l.length := by
  induction l generalizing c with
  | nil => rfl
  | cons x l ih => rw [channelSums, List.length_cons, List.length_cons, ih]

private theorem fillPair_fold (nChanIn nChanOut nChanAvg : ℕ) (buf : ℕ → ℕ → ℂ) (w : ℕ → ℝ) (l : List (ℕ × ℕ)) (hl : ∀ e ∈ l, e.1 < e.2) (hn : l.Nodup)
    (n : ℕ) (out : ℕ → ℕ → ℕ → Option ℂ) (chOut : ℕ) (hch : chOut < nChanOut) :
    (∀ k a b, l[k]? = some (a, b) → ∀ z, (channelSums (buf (n + k)) nChanIn nChanAvg (List.range nChanOut) 0)[chOut]? = some z →
      (l.zipIdx n).foldl (fillPair nChanIn nChanOut nChanAvg buf w) out chOut a b = divide z (w chOut) ∧
      (l.zipIdx n).foldl (fillPair nChanIn nChanOut nChanAvg buf w) out chOut b a = (divide z (w chOut)).map conj) ∧
    (∀ a b, (a, b) ∉ l → (b, a) ∉ l → (l.zipIdx n).foldl (fillPair nChanIn nChanOut nChanAvg buf w) out chOut a b = out chOut a b) := by
  induction l generalizing n out with
  | nil => exact ⟨by simp, by simp⟩
  | cons p l ih =>
    obtain ⟨p0, p1⟩ := p
    rw [List.nodup_cons] at hn
    have hp : p0 < p1 := hl (p0, p1) (by simp)
    have hl' : ∀ e ∈ l, e.1 < e.2 := fun e he => hl e (List.mem_cons_of_mem _ he)
    obtain ⟨ih1, ih2⟩ := ih hl' hn.2 (n + 1) (fillPair nChanIn nChanOut nChanAvg buf w out ((p0, p1), n))
    obtain ⟨z0, hz0⟩ : ∃ z0, (channelSums (buf n) nChanIn nChanAvg (List.range nChanOut) 0)[chOut]? = some z0 :=
      ⟨_, List.getElem?_eq_getElem (by rw [channelSums_length, List.length_range]; exact hch)⟩
    have hswap : ∀ a b, (a, b) ∈ l → (b, a) ∉ l := by
      intro a b h1 h2
      have := hl' _ h1
      have h3 := hl' _ h2
      simp only at this h3
      omega
    constructor
    · intro k a b hk z hz
      rw [List.zipIdx_cons, List.foldl_cons]
      cases k with
      | zero =>
        rw [List.getElem?_cons_zero] at hk
        cases hk
        rw [Nat.add_zero] at hz
        have hnot : (p1, p0) ∉ l := fun h => by
          have := hl' _ h
          simp only at this
          omega
        constructor
        · rw [ih2 p0 p1 hn.1 hnot]
          unfold fillPair
          simp only [hz]
          rw [if_neg, if_pos trivial]
          intro h
          have := congrArg Prod.fst h
          simp only at this
          omega
        · rw [ih2 p1 p0 hnot hn.1]
          unfold fillPair
          simp only [hz]
          rw [if_pos trivial]
      | succ k =>
        rw [List.getElem?_cons_succ] at hk
        exact ih1 k a b hk z (by rw [show n + 1 + k = n + (k + 1) by omega]; exact hz)
    · intro a b h1 h2
      rw [List.zipIdx_cons, List.foldl_cons]
      rw [List.mem_cons, not_or] at h1 h2
      rw [ih2 a b h1.2 h2.2]
      unfold fillPair
      simp only [hz0]
      rw [if_neg, if_neg h1.1]
      intro h
      apply h2.1
      rw [Prod.mk.injEq] at h
      rw [Prod.mk.injEq]
      exact ⟨h.2, h.1⟩

private theorem conj_sum_map {X : Type} (l : List X) (f : X → ℂ) : conj ((l.map f).sum) = (l.map fun x => conj (f x)).sum := by
  induction l with
  | nil => simp
  | cons x l ih => simp [ih]

private theorem sum_flatMap {X Y : Type} (l : List X) (g : X → List Y) (f : Y → ℂ) :
    ((l.flatMap g).map f).sum = (l.map fun x => ((g x).map f).sum).sum := by
  induction l with
  | nil => rfl
  | cons x l ih => rw [List.flatMap_cons, List.map_append, List.sum_append, ih, List.map_cons, List.sum_cons]

private theorem sum_swap {X Y : Type} (l : List X) (r : List Y) (f : X → Y → ℂ) :
    (l.map fun x => (r.map fun y => f x y).sum).sum = (r.map fun y => (l.map fun x => f x y).sum).sum := by
  induction l with
  | nil => simp
  | cons x l ih =>
    rw [List.map_cons, List.sum_cons, ih, ← List.sum_map_add]
    rfl

private theorem sum_used (l : List Sample) (f : Sample → ℂ) :
    (l.map fun s => f s * (weighted s : ℂ)).sum = ((used l).map fun s => f s * (s.weight : ℂ)).sum := by
  induction l with
  | nil => rfl
  | cons s l ih =>
    unfold used at ih ⊢
    rw [List.map_cons, List.sum_cons, ih, List.filter_cons]
    cases h : s.flag with
    | true => simp [weighted, h]
    | false => simp [weighted, h]

private theorem factor_phase (nDir : ℕ) (s : Sample) (a b : ℕ) (hab : a < b) (hb : b < nDir) :
    pairFactor nDir s a b = phase nDir b s * conj (phase nDir a s) := by
  unfold pairFactor phase
  rw [if_neg (by omega : ¬ a = nDir - 1)]
  by_cases h : b = nDir - 1
  · rw [if_pos h, if_pos h, one_mul]
  · rw [if_neg h, if_neg h]

/-- The factor from one direction to another is the weighted mean over the visibilities that are averaged of the shift between these. The last
output channel may have fewer channels. -/
theorem factor_value (nDir nChanIn nChanAvg nChanOut : ℕ) (times : List (ℕ → Sample)) (w : ℕ → ℝ) (havg : 0 < nChanAvg)
    (hout : nChanOut = (nChanIn + nChanAvg - 1) / nChanAvg) (chOut from_ to_ : ℕ) (hch : chOut < nChanOut) (h1 : from_ < nDir) (h2 : to_ < nDir) :
    makeFactors nDir nChanIn nChanOut nChanAvg (times.foldl (addFactors nDir) fun _ _ => 0) w chOut from_ to_ =
      if from_ = to_ then some 1
      else divide ((used (cell nChanIn nChanAvg chOut times)).map fun s => phase nDir to_ s * conj (phase nDir from_ s) * (s.weight : ℂ)).sum (w chOut) := by
  have hroom : ∀ k, 0 ≤ k → k + 1 < 0 + nChanOut → (k + 1) * nChanAvg ≤ nChanIn := by
    intro k _ hk
    rw [Nat.zero_add, hout, Nat.lt_iff_add_one_le, Nat.le_div_iff_mul_le havg, Nat.add_mul (k + 1), Nat.one_mul] at hk
    omega
  have key : ∀ a b, a < b → b < nDir →
      makeFactors nDir nChanIn nChanOut nChanAvg (times.foldl (addFactors nDir) fun _ _ => 0) w chOut a b =
          divide ((used (cell nChanIn nChanAvg chOut times)).map fun s => phase nDir b s * conj (phase nDir a s) * (s.weight : ℂ)).sum (w chOut) ∧
        makeFactors nDir nChanIn nChanOut nChanAvg (times.foldl (addFactors nDir) fun _ _ => 0) w chOut b a =
          (divide ((used (cell nChanIn nChanAvg chOut times)).map fun s => phase nDir b s * conj (phase nDir a s) * (s.weight : ℂ)).sum (w chOut)).map conj := by
    intro a b hab hb
    obtain ⟨k, hk⟩ := List.mem_iff_getElem?.mp ((mem_pairs nDir a b).mpr ⟨hab, hb⟩)
    have hz : (channelSums (times.foldl (addFactors nDir) (fun _ _ => 0) (0 + k)) nChanIn nChanAvg (List.range nChanOut) 0)[chOut]? =
        some ((used (cell nChanIn nChanAvg chOut times)).map fun s => phase nDir b s * conj (phase nDir a s) * (s.weight : ℂ)).sum := by
      rw [List.range_eq_range', channelSums_get _ nChanIn nChanAvg nChanOut 0 0 (by omega) hroom chOut hch, Nat.zero_add, Nat.zero_add]
      congr 1
      rw [← sum_used, cell, sum_flatMap]
      have : (fun ch => times.foldl (addFactors nDir) (fun _ _ => 0) k ch) = fun ch =>
          (times.map fun t => phase nDir b (t ch) * conj (phase nDir a (t ch)) * (weighted (t ch) : ℂ)).sum := by
        funext ch
        rw [buffer_value nDir times _ k ch a b hk, zero_add]
        congr 1
        apply List.map_congr_left
        intro t _
        rw [factor_phase nDir (t ch) a b hab hb]
      rw [show times.foldl (addFactors nDir) (fun _ _ => 0) k = fun ch => times.foldl (addFactors nDir) (fun _ _ => 0) k ch from rfl, this, sum_swap]
      congr 1
      apply List.map_congr_left
      intro t _
      rw [List.map_map]
      rfl
    exact (fillPair_fold nChanIn nChanOut nChanAvg _ w (pairs nDir) (fun e he => ((mem_pairs nDir e.1 e.2).mp he).1) (nodup_pairs nDir) 0 _ chOut hch).1
      k a b hk _ hz
  by_cases he : from_ = to_
  · rw [if_pos he]
    exact (fillPair_fold nChanIn nChanOut nChanAvg _ w (pairs nDir) (fun e he => ((mem_pairs nDir e.1 e.2).mp he).1) (nodup_pairs nDir) 0 _ chOut hch).2
      from_ to_ (fun h => by have := ((mem_pairs ..).mp h).1; omega) (fun h => by have := ((mem_pairs ..).mp h).1; omega)
  · rw [if_neg he]
    by_cases hlt : from_ < to_
    · exact (key from_ to_ hlt h2).1
    · rw [(key to_ from_ (by omega) h1).2]
      unfold divide
      by_cases hw : w chOut = 0
      · rw [if_pos hw, if_pos hw]; rfl
      · rw [if_neg hw, if_neg hw, Option.map_some, map_div₀, Complex.conj_ofReal, conj_sum_map]
        congr 3
        apply List.map_congr_left
        intro s _
        rw [map_mul, map_mul, Complex.conj_conj, Complex.conj_ofReal]
        ring

/-! ## An example: two sources and the target -/

/-- A visibility with the phases of two sources. -/
noncomputable def exSample (flag : Bool) (weight : ℝ) (p q : ℂ) (v : ℕ → ℂ) : Sample :=
  { flag, weight, data := conj p * v 0 + conj q * v 1 + v 2, phasor := fun d => if d = 0 then p else q }

theorem exSample_sum (flag : Bool) (weight : ℝ) (p q : ℂ) (v : ℕ → ℂ) : SumOfSources 3 v [exSample flag weight p q v] := by
  intro s hs
  rw [List.mem_singleton] at hs
  subst hs
  simp [exSample, phase, List.range_succ, add_assoc]

/-- Two times, with different phases; one has a flag. -/
noncomputable def exTimes (v : ℕ → ℂ) : List (ℕ → Sample) :=
  [fun ch => exSample false 2 (if ch = 0 then 1 else Complex.I) (-1) v, fun ch => exSample (ch == 1) 1 Complex.I 1 v]

example (v : ℕ → ℂ) : makeFactors 3 2 1 2 ((exTimes v).foldl (addFactors 3) fun _ _ => 0) (fun _ => 5) 0 0 2 = some ((2 + -Complex.I * 2 + -Complex.I) / 5) := by
  rw [factor_value 3 2 2 1 (exTimes v) (fun _ => 5) (by norm_num) rfl 0 0 2 (by norm_num) (by norm_num) (by norm_num)]
  simp [exTimes, cell, used, exSample, phase, List.range'_succ, divide]
  ring

/-! ## Averages -/

private theorem average_used (l : List Sample) (f : Sample → ℂ) (h : total (used l) ≠ 0) :
    average (l.map fun s => (s.flag, s.weight, f s)) = (false, total (used l), ((used l).map fun s => f s * (s.weight : ℂ)).sum / (total (used l) : ℂ)) := by
  unfold average
  have e1 : ((l.map fun s => (s.flag, s.weight, f s)).filter fun s => !s.1) = (used l).map fun s => (s.flag, s.weight, f s) := by
    unfold used
    rw [List.filter_map]
    rfl
  rw [e1]
  simp only [List.map_map]
  unfold total at h ⊢
  rw [if_neg (by exact h)]
  rfl

private theorem sum_mul_right' {X : Type} (l : List X) (f : X → ℂ) (c : ℂ) : (l.map fun x => f x * c).sum = (l.map f).sum * c := by
  induction l with
  | nil => simp
  | cons x l ih => rw [List.map_cons, List.sum_cons, ih, List.map_cons, List.sum_cons, add_mul]

/-- If the visibilities are sums of sources, the average in any direction is the sum of the sources with their factors. -/
theorem average_mixed (nDir : ℕ) (l : List Sample) (v : ℕ → ℂ) (h : SumOfSources nDir v (used l)) (hw : total (used l) ≠ 0) (to_ : ℕ) :
    average (l.map (shifted nDir to_)) = (false, total (used l), ((List.range nDir).map fun d => mix nDir l to_ d * v d).sum) := by
  have e : l.map (shifted nDir to_) = l.map fun s => (s.flag, s.weight, s.data * phase nDir to_ s) := by
    apply List.map_congr_left
    intro s _
    unfold shifted phase
    by_cases hd : to_ = nDir - 1
    · rw [if_pos hd, if_pos hd, mul_one]
    · rw [if_neg hd, if_neg hd]
  rw [e, average_used l _ hw]
  congr 2
  have e2 : ((used l).map fun s => s.data * phase nDir to_ s * (s.weight : ℂ)) = (used l).map fun s =>
      ((List.range nDir).map fun d => phase nDir to_ s * conj (phase nDir d s) * (s.weight : ℂ) * v d).sum := by
    apply List.map_congr_left
    intro s hs
    rw [h s hs, ← sum_mul_right', ← sum_mul_right']
    congr 1
    apply List.map_congr_left
    intro d _
    ring
  rw [e2, sum_swap, div_eq_mul_inv, ← sum_mul_right']
  congr 1
  apply List.map_congr_left
  intro d _
  rw [sum_mul_right']
  unfold mix
  rw [div_eq_mul_inv]
  ring

/-- A direction has factor 1 to itself if the phases have size 1. -/
theorem mix_self (nDir d : ℕ) (l : List Sample) (h : ∀ s ∈ used l, ∀ d, s.phasor d * conj (s.phasor d) = 1) (hw : total (used l) ≠ 0) : mix nDir l d d = 1 := by
  unfold mix
  have e : ((used l).map fun s => phase nDir d s * conj (phase nDir d s) * (s.weight : ℂ)) = (used l).map fun s => (s.weight : ℂ) := by
    apply List.map_congr_left
    intro s hs
    have : phase nDir d s * conj (phase nDir d s) = 1 := by
      unfold phase
      by_cases hd : d = nDir - 1
      · rw [if_pos hd]; simp
      · rw [if_neg hd]; exact h s hs d
    rw [this, one_mul]
  rw [e]
  have e3 : ((used l).map fun s => (s.weight : ℂ)).sum = (total (used l) : ℂ) := by
    unfold total
    generalize used l = u
    induction u with
    | nil => simp
    | cons s u ih => simp [ih]
  rw [e3]
  exact div_self (by exact_mod_cast hw)

/-- The factors of the code are those of the averages of the code. -/
theorem factors_mix (nDir nChanIn nChanAvg nChanOut : ℕ) (times : List (ℕ → Sample)) (w : ℕ → ℝ) (havg : 0 < nChanAvg)
    (hout : nChanOut = (nChanIn + nChanAvg - 1) / nChanAvg) (chOut from_ to_ : ℕ) (hch : chOut < nChanOut) (h1 : from_ < nDir) (h2 : to_ < nDir)
    (hunit : ∀ s ∈ used (cell nChanIn nChanAvg chOut times), ∀ d, s.phasor d * conj (s.phasor d) = 1)
    (hw : total (used (cell nChanIn nChanAvg chOut times)) ≠ 0)
    (hsum : w chOut = (average ((cell nChanIn nChanAvg chOut times).map (shifted nDir 0))).2.1) :
    makeFactors nDir nChanIn nChanOut nChanAvg (times.foldl (addFactors nDir) fun _ _ => 0) w chOut from_ to_ =
      some (mix nDir (cell nChanIn nChanAvg chOut times) to_ from_) := by
  have hw2 : w chOut = total (used (cell nChanIn nChanAvg chOut times)) := by
    rw [hsum]
    have := average_used (cell nChanIn nChanAvg chOut times) (fun s => (shifted nDir 0 s).2.2) hw
    have e : (cell nChanIn nChanAvg chOut times).map (shifted nDir 0) =
        (cell nChanIn nChanAvg chOut times).map fun s => (s.flag, s.weight, (shifted nDir 0 s).2.2) := rfl
    rw [e, this]
  rw [factor_value nDir nChanIn nChanAvg nChanOut times w havg hout chOut from_ to_ hch h1 h2]
  by_cases he : from_ = to_
  · rw [if_pos he, he, mix_self nDir to_ _ hunit hw]
  · rw [if_neg he]
    unfold divide mix
    rw [hw2, if_neg hw]

/-! ## Subtraction -/

private theorem subtract_fold (nDir : ℕ) (factors : ℕ → ℕ → Option ℂ) (m : ℕ → ℂ) (model : ℕ → ℂ) (n : ℕ) (data : ℂ)
    (h : ∀ d, d < n → factors d (nDir - 1) = some (m d)) :
    subtractAll nDir factors model n data = some (data - ((List.range n).map fun d => m d * model d).sum) := by
  unfold subtractAll
  induction n with
  | zero => simp
  | succ n ih =>
    rw [List.range_succ, List.foldl_append, ih (fun d hd => h d (by omega)), List.foldl_cons, List.foldl_nil, h n (by omega), List.map_append,
      List.sum_append]
    simp only [subtract, List.map_cons, List.map_nil, List.sum_cons, List.sum_nil, add_zero]
    congr 1
    ring

/-- Subtraction with the right visibilities leaves the other sources: the target as it would be without the sources, for any averaging. -/
theorem subtract_exact (nDir nChanIn nChanAvg nChanOut : ℕ) (times : List (ℕ → Sample)) (w : ℕ → ℝ) (havg : 0 < nChanAvg)
    (hout : nChanOut = (nChanIn + nChanAvg - 1) / nChanAvg) (chOut : ℕ) (hch : chOut < nChanOut) (nSubtr : ℕ) (hsub : nSubtr < nDir)
    (hunit : ∀ s ∈ used (cell nChanIn nChanAvg chOut times), ∀ d, s.phasor d * conj (s.phasor d) = 1)
    (hw : total (used (cell nChanIn nChanAvg chOut times)) ≠ 0)
    (hsum : w chOut = (average ((cell nChanIn nChanAvg chOut times).map (shifted nDir (nDir - 1)))).2.1)
    (v : ℕ → ℂ) (hv : SumOfSources nDir v (used (cell nChanIn nChanAvg chOut times))) :
    subtractAll nDir (makeFactors nDir nChanIn nChanOut nChanAvg (times.foldl (addFactors nDir) fun _ _ => 0) w chOut) v nSubtr
        (average ((cell nChanIn nChanAvg chOut times).map (shifted nDir (nDir - 1)))).2.2 =
      some (((List.range' nSubtr (nDir - 1 - nSubtr)).map fun d => mix nDir (cell nChanIn nChanAvg chOut times) (nDir - 1) d * v d).sum + v (nDir - 1)) := by
  rw [average_mixed nDir _ v hv hw] at hsum ⊢
  rw [subtract_fold nDir _ (fun d => mix nDir (cell nChanIn nChanAvg chOut times) (nDir - 1) d)]
  · congr 1
    have hs : List.range nDir = List.range nSubtr ++ List.range' nSubtr (nDir - 1 - nSubtr) ++ [nDir - 1] := by
      rw [List.range_eq_range', List.range_eq_range']
      have e1 : List.range' 0 nSubtr ++ List.range' nSubtr (nDir - 1 - nSubtr) = List.range' 0 (nDir - 1) := by
        have := List.range'_append (s := 0) (m := nSubtr) (n := nDir - 1 - nSubtr) (step := 1)
        rw [Nat.zero_add, Nat.one_mul, show nSubtr + (nDir - 1 - nSubtr) = nDir - 1 by omega] at this
        exact this
      rw [e1]
      have := List.range'_1_concat (s := 0) (n := nDir - 1)
      rw [show nDir - 1 + 1 = nDir by omega, Nat.zero_add] at this
      exact this
    rw [hs, List.map_append, List.map_append, List.sum_append, List.sum_append]
    simp only [List.map_cons, List.map_nil, List.sum_cons, List.sum_nil, add_zero]
    rw [mix_self nDir (nDir - 1) _ hunit hw, one_mul]
    ring
  · intro d hd
    apply factors_mix nDir nChanIn nChanAvg nChanOut times w havg hout chOut d (nDir - 1) hch (by omega) (by omega) hunit hw
    rw [hsum]
    have := average_used (cell nChanIn nChanAvg chOut times) (fun s => (shifted nDir 0 s).2.2) hw
    have e : (cell nChanIn nChanAvg chOut times).map (shifted nDir 0) =
        (cell nChanIn nChanAvg chOut times).map fun s => (s.flag, s.weight, (shifted nDir 0 s).2.2) := rfl
    rw [e, this]

/-- Two sources are subtracted, the target remains. -/
example (v : ℕ → ℂ) : subtractAll 3 (makeFactors 3 2 1 2 ((exTimes v).foldl (addFactors 3) fun _ _ => 0)
      (fun _ => (average ((cell 2 2 0 (exTimes v)).map (shifted 3 2))).2.1) 0) v 2 (average ((cell 2 2 0 (exTimes v)).map (shifted 3 2))).2.2 = some (v 2) := by
  have hc : cell 2 2 0 (exTimes v) = [exSample false 2 1 (-1) v, exSample false 2 Complex.I (-1) v, exSample false 1 Complex.I 1 v, exSample true 1 Complex.I 1 v] := by
    simp [cell, exTimes, List.range'_succ]
  have hu : used (cell 2 2 0 (exTimes v)) = [exSample false 2 1 (-1) v, exSample false 2 Complex.I (-1) v, exSample false 1 Complex.I 1 v] := by
    rw [hc]
    simp [used, exSample]
  have := subtract_exact 3 2 2 1 (exTimes v) (fun _ => (average ((cell 2 2 0 (exTimes v)).map (shifted 3 2))).2.1) (by norm_num) rfl 0 (by norm_num) 2 (by norm_num)
    (by
      rw [hu]
      intro s hs d
      simp only [List.mem_cons, List.not_mem_nil, or_false] at hs
      rcases hs with rfl | rfl | rfl <;> simp only [exSample] <;> split_ifs <;> simp)
    (by rw [hu]; simp only [total, exSample, List.map_cons, List.map_nil, List.sum_cons, List.sum_nil]; norm_num)
    rfl v
    (by
      rw [hu]
      intro s hs
      simp only [List.mem_cons, List.not_mem_nil, or_false] at hs
      rcases hs with rfl | rfl | rfl <;> exact exSample_sum _ _ _ _ _ _ (List.mem_singleton.mpr rfl))
  simpa using this

/-- A cell without data keeps its value if there is any weight. -/
theorem flagged_unchanged (nDir nChanIn nChanAvg nChanOut : ℕ) (times : List (ℕ → Sample)) (w : ℕ → ℝ) (havg : 0 < nChanAvg)
    (hout : nChanOut = (nChanIn + nChanAvg - 1) / nChanAvg) (chOut : ℕ) (hch : chOut < nChanOut) (nSubtr : ℕ) (hsub : nSubtr < nDir)
    (hflag : ∀ s ∈ cell nChanIn nChanAvg chOut times, s.flag = true) (v : ℕ → ℂ) (x : ℂ) :
    subtractAll nDir (makeFactors nDir nChanIn nChanOut nChanAvg (times.foldl (addFactors nDir) fun _ _ => 0) w chOut) v nSubtr x =
      if w chOut ≠ 0 ∨ nSubtr = 0 then some x else none := by
  have hu : used (cell nChanIn nChanAvg chOut times) = [] := by
    unfold used
    rw [List.filter_eq_nil_iff]
    intro s hs
    rw [hflag s hs]
    simp
  have hf : ∀ d, d < nSubtr → makeFactors nDir nChanIn nChanOut nChanAvg (times.foldl (addFactors nDir) fun _ _ => 0) w chOut d (nDir - 1) =
      if w chOut = 0 then none else some 0 := by
    intro d hd
    rw [factor_value nDir nChanIn nChanAvg nChanOut times w havg hout chOut d (nDir - 1) hch (by omega) (by omega), if_neg (by omega), hu]
    unfold divide
    simp
  by_cases hw : w chOut = 0
  · by_cases hn : nSubtr = 0
    · rw [if_pos (Or.inr hn), hn]
      rfl
    · rw [if_neg (by simp [hw, hn])]
      obtain ⟨k, rfl⟩ := Nat.exists_eq_succ_of_ne_zero hn
      unfold subtractAll
      rw [List.range_succ, List.foldl_append, List.foldl_cons, List.foldl_nil, hf k (by omega), if_pos hw]
      unfold subtract
      cases (List.range k).foldl _ _ <;> rfl
  · rw [if_pos (Or.inl hw), subtract_fold nDir _ (fun _ => 0) v nSubtr x (fun d hd => by rw [hf d hd, if_neg hw])]
    simp

/-- Without averaging the weight of a visibility is that of the input, so that one with weight 0 becomes not-a-number, although it had no flag. -/
theorem zero_weight_violated : ∃ (s : Sample) (v : ℕ → ℂ), s.flag = false ∧ s.weight = 0 ∧
    subtractAll 2 (makeFactors 2 1 1 1 ([fun _ => s].foldl (addFactors 2) fun _ _ => 0) (fun _ => s.weight) 0) v 1 s.data = none := by
  refine ⟨{ flag := false, weight := 0, data := 1, phasor := fun _ => 1 }, fun _ => 0, rfl, rfl, ?_⟩
  unfold subtractAll
  rw [List.range_succ, List.range_zero, List.nil_append, List.foldl_cons, List.foldl_nil,
    factor_value 2 1 1 1 [fun _ => { flag := false, weight := 0, data := 1, phasor := fun _ => 1 }] (fun _ => 0) (by norm_num) rfl 0 0 (2 - 1)
      (by norm_num) (by norm_num) (by norm_num)]
  simp [divide, subtract]

/-! ## Deprojection -/

/-- The projection removes the directions without a model, if these are independent. -/
theorem projection_annihilates {n m : ℕ} (a : Matrix (Fin n) (Fin m) ℂ) (h : IsUnit (aᴴ * a).det) : projection a * a = 0 := by
  unfold projection
  rw [Matrix.add_mul, Matrix.one_mul, Matrix.neg_mul, Matrix.mul_assoc (a * (aᴴ * a)⁻¹), Matrix.mul_assoc a, Matrix.nonsing_inv_mul _ h, Matrix.mul_one,
    add_neg_cancel]

/-- It is an orthogonal projection. -/
theorem projection_orthogonal {n m : ℕ} (a : Matrix (Fin n) (Fin m) ℂ) (h : IsUnit (aᴴ * a).det) :
    (projection a)ᴴ = projection a ∧ projection a * projection a = projection a := by
  have h1 : (projection a)ᴴ = projection a := by
    unfold projection
    rw [Matrix.conjTranspose_add, Matrix.conjTranspose_one, Matrix.conjTranspose_neg, Matrix.conjTranspose_mul, Matrix.conjTranspose_mul,
      Matrix.conjTranspose_conjTranspose, Matrix.conjTranspose_nonsing_inv, Matrix.conjTranspose_mul, Matrix.conjTranspose_conjTranspose, Matrix.mul_assoc]
  refine ⟨h1, ?_⟩
  have h2 := projection_annihilates a h
  conv_lhs => rhs; unfold projection
  rw [Matrix.mul_add, Matrix.mul_one, Matrix.mul_neg, Matrix.mul_assoc a, ← Matrix.mul_assoc, h2, Matrix.zero_mul, neg_zero, add_zero]

/-- A single direction with factor 1 to itself, such as the target, can always be deprojected. -/
theorem single_invertible {n : ℕ} (a : Matrix (Fin n) (Fin 1) ℂ) (i : Fin n) (h : a i 0 = 1) : IsUnit (aᴴ * a).det := by
  rw [Matrix.det_unique, Matrix.mul_apply, isUnit_iff_ne_zero]
  have e : (∑ j, aᴴ default j * a j default) = ((∑ j, Complex.normSq (a j 0) : ℝ) : ℂ) := by
    rw [Complex.ofReal_sum]
    apply Finset.sum_congr rfl
    intro j _
    rw [Matrix.conjTranspose_apply, Complex.normSq_eq_conj_mul_self]
    rfl
  rw [e]
  have hpos : 0 < ∑ j, Complex.normSq (a j 0) := by
    apply Finset.sum_pos'
    · intro j _
      exact Complex.normSq_nonneg _
    · exact ⟨i, Finset.mem_univ i, by rw [h]; simp⟩
  exact_mod_cast hpos.ne'

/-- After deprojection, the averages are the sums of the sources with a model only, with the new factors. -/
theorem deproject_mixed (nDir nModel : ℕ) (hm : nModel < nDir) (h1 : 1 < nDir) (factors : ℕ → ℂ) (v : ℕ → ℂ) (data : Fin nDir → ℂ)
    (hdata : ∀ to_, data to_ = ∑ from_ : Fin nDir, factors (from_ * nDir + to_) * v from_)
    (hdet : IsUnit ((otherColumns nDir nModel (nDir - nModel) factors)ᴴ * otherColumns nDir nModel (nDir - nModel) factors).det) :
    (deproject nDir nModel false factors data).2 = (deproject nDir nModel false factors data).1.mulVec fun d : Fin nModel => v d := by
  have hd : nDeproject nDir nModel false = nDir - nModel := by simp [nDeproject]
  have hp : deproject nDir nModel false factors data =
      (projection (otherColumns nDir nModel (nDir - nModel) factors) * modelColumns nDir nModel factors,
        (projection (otherColumns nDir nModel (nDir - nModel) factors)).mulVec data) := by
    unfold deproject
    rw [if_neg (by rw [hd]; omega)]
    simp only
    rw [hd]
  rw [hp]
  simp only
  have e : data = (modelColumns nDir nModel factors).mulVec (fun d : Fin nModel => v d) +
      (otherColumns nDir nModel (nDir - nModel) factors).mulVec (fun d : Fin (nDir - nModel) => v (nModel + d)) := by
    funext to_
    rw [hdata, Pi.add_apply]
    unfold Matrix.mulVec dotProduct modelColumns otherColumns
    have hsum : ∀ f : ℕ → ℂ, ∑ i : Fin nDir, f i = ∑ i : Fin nModel, f i + ∑ i : Fin (nDir - nModel), f (nModel + i) := by
      intro f
      rw [Fin.sum_univ_eq_sum_range f nDir, Fin.sum_univ_eq_sum_range f nModel, Fin.sum_univ_eq_sum_range (fun i => f (nModel + i)) (nDir - nModel)]
      have := Finset.sum_range_add f nModel (nDir - nModel)
      rw [show nModel + (nDir - nModel) = nDir by omega] at this
      exact this
    rw [hsum fun i => factors (i * nDir + to_) * v i]
    congr 1
    apply Finset.sum_congr rfl
    intro i _
    congr 2
    rw [Nat.add_mul, Nat.mul_comm nModel]
    omega
  rw [e, Matrix.mulVec_add, Matrix.mulVec_mulVec, Matrix.mulVec_mulVec, projection_annihilates _ hdet, Matrix.zero_mulVec, add_zero]

/-- The usual case, all sources but the target have a model: the data after deprojection do not depend on the target. -/
theorem deproject_target (nDir : ℕ) (h1 : 1 < nDir) (factors : ℕ → ℂ) (v : ℕ → ℂ) (data : Fin nDir → ℂ) (hself : factors ((nDir - 1) * nDir + (nDir - 1)) = 1)
    (hdata : ∀ to_, data to_ = ∑ from_ : Fin nDir, factors (from_ * nDir + to_) * v from_) :
    (deproject nDir (nDir - 1) false factors data).2 = (deproject nDir (nDir - 1) false factors data).1.mulVec fun d : Fin (nDir - 1) => v d := by
  apply deproject_mixed nDir (nDir - 1) (by omega) h1 factors v data hdata
  have e : nDir - (nDir - 1) = 1 := by omega
  rw [e]
  apply single_invertible _ ⟨nDir - 1, by omega⟩
  unfold otherColumns
  simp only [Fin.val_zero, Nat.zero_mul, Nat.zero_add]
  rw [Nat.mul_comm nDir (nDir - 1)]
  exact hself

/-- Two directions: the factors are 1, c, c*, 1. -/
example (c v0 v1 : ℂ) :
    (deproject 2 1 false (fun i => if i = 1 then c else if i = 2 then conj c else 1) ![v0 + conj c * v1, c * v0 + v1]).2 =
      (deproject 2 1 false (fun i => if i = 1 then c else if i = 2 then conj c else 1) ![v0 + conj c * v1, c * v0 + v1]).1.mulVec fun _ => v0 := by
  have := deproject_target 2 (by norm_num) (fun i => if i = 1 then c else if i = 2 then conj c else 1) (fun d => if d = 0 then v0 else v1)
    ![v0 + conj c * v1, c * v0 + v1] rfl (fun to_ => by
      rw [Fin.sum_univ_two]
      fin_cases to_ <;> simp)
  rw [this]
  congr 1
  funext d
  fin_cases d
  rfl

/-- Without deprojection of the target, or with only sources with a model, nothing changes. -/
theorem deproject_nothing (nDir nModel : ℕ) (ignoreTarget : Bool) (h : nDir ≤ nModel + (if ignoreTarget then 1 else 0)) (factors : ℕ → ℂ) (data : Fin nDir → ℂ) :
    deproject nDir nModel ignoreTarget factors data = (modelColumns nDir nModel factors, data) := by
  unfold deproject nDeproject
  rw [if_pos]
  right
  cases ignoreTarget with
  | false => simp only [Bool.false_eq_true, if_false] at h ⊢; omega
  | true => simp only [if_true] at h ⊢; omega

/-- Two directions without a model that coincide are not deprojected at all. -/
theorem singular_violated : ∃ a : Matrix (Fin 2) (Fin 2) ℂ, (∀ i j, a i j = 1) ∧ projection a = 1 ∧ projection a * a ≠ 0 := by
  obtain ⟨a, ha⟩ : ∃ a : Matrix (Fin 2) (Fin 2) ℂ, a = Matrix.of fun _ _ => 1 := ⟨_, rfl⟩
  refine ⟨a, fun _ _ => by rw [ha]; rfl, ?_⟩
  have hdet : ¬ IsUnit (aᴴ * a).det := by
    rw [Matrix.det_fin_two, ha]
    simp [Matrix.mul_apply]
  have hp : projection a = 1 := by
    unfold projection
    rw [Matrix.nonsing_inv_apply_not_isUnit _ hdet, Matrix.mul_zero, Matrix.zero_mul, neg_zero, add_zero]
  refine ⟨hp, ?_⟩
  rw [hp, Matrix.one_mul]
  intro h
  have := congrFun (congrFun h 0) 0
  rw [ha] at this
  simp at this

/-! ## Baselines -/

private theorem merge_fold {X : Type} (subtracted : List X) (indices : List ℕ) (n : ℕ) (full : List X) (hn : indices.Nodup)
    (hi : ∀ i ∈ indices, i < full.length) (hl : n + indices.length ≤ subtracted.length) :
    ∃ r, (indices.zipIdx n).foldl (fun (acc : Option (List X)) (e : ℕ × ℕ) =>
        match acc, subtracted[e.2]? with
        | some l, some x => if e.1 < l.length then some (l.set e.1 x) else none
        | _, _ => none) (some full) = some r ∧ r.length = full.length ∧
      (∀ k b : ℕ, indices[k]? = some b → r[b]? = subtracted[n + k]?) ∧ (∀ b : ℕ, b ∉ indices → r[b]? = full[b]?) := by
  induction indices generalizing n full with
  | nil => exact ⟨full, rfl, rfl, by simp, by simp⟩
  | cons b indices ih =>
    rw [List.nodup_cons] at hn
    rw [List.length_cons] at hl
    have hb := hi b (by simp)
    rw [List.zipIdx_cons, List.foldl_cons]
    have hx : subtracted[n]? = some subtracted[n] := List.getElem?_eq_getElem (by omega)
    simp only [hx]
    rw [if_pos hb]
    obtain ⟨r, r1, r2, r3, r4⟩ := ih (n + 1) (full.set b subtracted[n]) hn.2 (fun i hi2 => by rw [List.length_set]; exact hi i (List.mem_cons_of_mem _ hi2))
      (by omega)
    refine ⟨r, r1, by rw [r2, List.length_set], ?_, ?_⟩
    · intro k c hk
      cases k with
      | zero =>
        rw [List.getElem?_cons_zero] at hk
        cases hk
        rw [r4 b hn.1, List.getElem?_set, if_pos rfl, if_pos hb, Nat.add_zero, hx]
      | succ k =>
        rw [List.getElem?_cons_succ] at hk
        rw [r3 k c hk, show n + 1 + k = n + (k + 1) by omega]
    · intro c hc
      rw [List.mem_cons, not_or] at hc
      rw [r4 c hc.2, List.getElem?_set, if_neg (fun h => hc.1 h.symm)]

/-- The selected baselines get the data after subtraction, the others keep the averaged data. -/
theorem merge_baselines {X : Type} (indices : List ℕ) (subtracted full : List X) (hn : indices.Nodup) (hi : ∀ i ∈ indices, i < full.length)
    (hl : indices.length ≤ subtracted.length) :
    ∃ r, merge indices subtracted full = some r ∧ r.length = full.length ∧ (∀ k b : ℕ, indices[k]? = some b → r[b]? = subtracted[k]?) ∧
      (∀ b : ℕ, b ∉ indices → r[b]? = full[b]?) := by
  obtain ⟨r, r1, r2, r3, r4⟩ := merge_fold subtracted indices 0 full hn hi (by omega)
  exact ⟨r, r1, r2, fun k b h => by rw [r3 k b h, Nat.zero_add], r4⟩

example : merge [0, 2] ["a", "b"] ["x", "y", "z"] = some ["a", "y", "b"] := by decide

end DP3.Demix
