import Verif.Upsample.Model
import Mathlib.Algebra.Order.Ring.Rat
import Mathlib.Algebra.Field.Rat
import Mathlib.Algebra.Order.Ring.Abs
import Mathlib.Tactic.Linarith
import Mathlib.Tactic.Ring
import Mathlib.Tactic.FieldSimp

/-! Property C16: upsampling yields one buffer per fine time slot. -/

namespace DP3.Upsample

set_option linter.unusedSectionVars false

variable {F P : Type} [Field F] [LinearOrder F] [IsStrictOrderedRing F]

/-- Copy number `i` of a slot: its time is the middle of the `i`-th part of the
slot's interval. -/
def copy (c : Config F) (b : Slot F P) (i : Nat) : Slot F P :=
  ⟨b.time - c.interval * (c.step : F) / 2 + c.interval * ((i : F) + 1 / 2), b.exposure / (c.step : F),
    b.flagged, b.payload⟩

/-- The streams considered.  Slot `s` starts at fine grid position `m s`, within a
fifth of a fine interval.  Starts increase, and slots that are not consecutive do not
overlap; consecutive slots may overlap. -/
structure OnGrid (c : Config F) (l : List (Slot F P)) (t0 : F) (m : Nat → Int) : Prop where
  interval_pos : 0 < c.interval
  step_pos : 0 < c.step
  start : ∀ s b, l[s]? = some b →
    |b.time - c.interval * (c.step : F) / 2 - (t0 + c.interval * (m s : F))| ≤ c.interval / 5
  increasing : ∀ s, s + 1 < l.length → m s < m (s + 1)
  apart : ∀ s, s + 2 < l.length → m s + c.step ≤ m (s + 2)

private theorem expand_eq (c : Config F) (b : Slot F P) :
    expand c b = (List.range c.step).map (copy c b) := by
  unfold expand copy
  simp only
  congr 1
  funext i
  congr 1
  ring

private theorem expand_get (c : Config F) (b : Slot F P) (i : Nat) (hi : i < c.step) :
    (expand c b)[i]? = some (copy c b i) := by
  rw [expand_eq]; simp [hi]

private theorem expand_length (c : Config F) (b : Slot F P) : (expand c b).length = c.step := by
  rw [expand_eq]; simp

/-- Times of copies of two slots compare as their grid positions. -/
private theorem copy_diff {c : Config F} {l : List (Slot F P)} {t0 : F} {m : Nat → Int}
    (h : OnGrid c l t0 m) {s s' : Nat} {b b' : Slot F P} (hb : l[s]? = some b)
    (hb' : l[s']? = some b') (i j : Nat) :
    |(copy c b' j).time - (copy c b i).time -
      c.interval * (((m s' + j - (m s + i) : Int)) : F)| ≤ 2 / 5 * c.interval := by
  have h1 := h.start s b hb
  have h2 := h.start s' b' hb'
  rw [abs_le] at h1 h2 ⊢
  simp only [copy]
  push_cast
  constructor <;> nlinarith [h1.1, h1.2, h2.1, h2.2]

private theorem near_iff {c : Config F} {l : List (Slot F P)} {t0 : F} {m : Nat → Int}
    (h : OnGrid c l t0 m) {s s' : Nat} {b b' : Slot F P} (hb : l[s]? = some b)
    (hb' : l[s']? = some b') (i j : Nat) :
    near c (copy c b i).time (copy c b' j).time ↔ m s + i = m s' + j := by
  have hd := copy_diff h hb hb' i j
  have hpos := h.interval_pos
  unfold near
  constructor
  · intro hn
    by_contra hne
    rcases lt_or_gt_of_ne hne with hlt | hgt
    · have h1 : (1 : F) ≤ ((m s' + j - (m s + i) : Int) : F) := by
        have : (1 : Int) ≤ m s' + j - (m s + i) := by omega
        exact_mod_cast this
      rw [abs_le] at hd hn
      nlinarith [hd.1, hd.2, hn.1, hn.2]
    · have h1 : ((m s' + j - (m s + i) : Int) : F) ≤ -1 := by
        have : m s' + j - (m s + i) ≤ (-1 : Int) := by omega
        exact_mod_cast this
      rw [abs_le] at hd hn
      nlinarith [hd.1, hd.2, hn.1, hn.2]
  · intro heq
    have h0 : (m s' + j - (m s + i) : Int) = 0 := by omega
    rw [h0] at hd
    simpa using hd

private theorem later_iff {c : Config F} {l : List (Slot F P)} {t0 : F} {m : Nat → Int}
    (h : OnGrid c l t0 m) {s s' : Nat} {b b' : Slot F P} (hb : l[s]? = some b)
    (hb' : l[s']? = some b') (i j : Nat) :
    ((copy c b i).time > (copy c b' j).time ∧
      ¬ near c (copy c b i).time (copy c b' j).time) ↔ m s' + j < m s + i := by
  rw [near_iff h hb hb']
  have hd := copy_diff h hb hb' i j
  have hpos := h.interval_pos
  rw [abs_le] at hd
  constructor
  · rintro ⟨h1, h2⟩
    by_contra hle
    have h3 : (1 : F) ≤ ((m s' + j - (m s + i) : Int) : F) := by
      have : (1 : Int) ≤ m s' + j - (m s + i) := by omega
      exact_mod_cast this
    nlinarith [hd.1, hd.2]
  · intro hlt
    refine ⟨?_, by omega⟩
    have h3 : ((m s' + j - (m s + i) : Int) : F) ≤ -1 := by
      have : m s' + j - (m s + i) ≤ (-1 : Int) := by omega
      exact_mod_cast this
    nlinarith [hd.1, hd.2]

private theorem drop_expand (c : Config F) (b : Slot F P) (k : Nat) (hk : k < c.step) :
    (expand c b).drop k = copy c b k :: (expand c b).drop (k + 1) := by
  have hl : k < (expand c b).length := by rw [expand_length]; exact hk
  rw [List.drop_eq_getElem_cons hl]
  congr 1
  have := expand_get c b k hk
  rw [List.getElem?_eq_getElem hl] at this
  simpa using this

section
variable {c : Config F} {l : List (Slot F P)} {t0 : F} {m : Nat → Int} (h : OnGrid c l t0 m)
  {s : Nat} {b b' : Slot F P} (hb : l[s]? = some b) (hb' : l[s + 1]? = some b')
include h hb hb'

/-- `d` is the distance between the starts of the two slots. -/
private theorem advance_eq (d i : Nat) (hd : m (s + 1) = m s + d) (hid : i - d < c.step) :
    ∀ n k, (i - d) - k = n → k ≤ i - d →
      advance c (copy c b i).time ((expand c b').drop k) k = some (i - d) := by
  intro n
  induction n with
  | zero =>
    intro k hn hk
    obtain rfl : k = i - d := by omega
    rw [drop_expand c b' _ hid, advance, if_neg]
    rw [later_iff h hb hb']
    omega
  | succ n ih =>
    intro k hn hk
    rw [drop_expand c b' k (by omega), advance, if_pos]
    · exact ih (k + 1) (by omega) (by omega)
    · rw [later_iff h hb hb']
      omega

private theorem flush_flagged (d : Nat) (hd : m (s + 1) = m s + d) (hfl : b'.flagged = true) :
    ∀ n i k first, c.step - i = n → i < c.step → k ≤ i - d →
      flush c (expand c b') ((expand c b).drop i) k first =
        some ((expand c b).drop i, c.step - d) := by
  intro n
  induction n with
  | zero => intro i k first hn hi; omega
  | succ n ih =>
    intro i k first hn hi hk
    rw [drop_expand c b i hi]
    unfold flush
    rw [advance_eq h hb hb' d i hd (by omega) _ k rfl hk]
    simp only
    rw [expand_get c b' (i - d) (by omega)]
    simp only
    by_cases hov : d ≤ i
    · rw [if_pos ((near_iff h hb hb' i (i - d)).2 (by omega)), if_pos (by simp [copy, hfl])]
      by_cases hlast : i + 1 < c.step
      · rw [ih (i + 1) (i - d) _ (by omega) hlast (by omega)]
        rfl
      · have hi1 : i + 1 = c.step := by omega
        rw [List.drop_eq_nil_of_le (by rw [expand_length]; omega)]
        simp only [flush, Option.map_some]
        congr 2
        omega
    · rw [if_neg (by rw [near_iff h hb hb']; omega)]
      by_cases hlast : i + 1 < c.step
      · rw [ih (i + 1) (i - d) _ (by omega) hlast (by omega)]
        rfl
      · have hi1 : i + 1 = c.step := by omega
        rw [List.drop_eq_nil_of_le (by rw [expand_length]; omega)]
        simp only [flush, Option.map_some]
        congr 2
        omega

private theorem flush_unflagged (d : Nat) (hd : m (s + 1) = m s + d) (hfl : b'.flagged = false) :
    ∀ n i k first, c.step - i = n → i < c.step → k ≤ i - d → i ≤ d →
      flush c (expand c b') ((expand c b).drop i) k first =
        some (((expand c b).take d).drop i, 0) := by
  intro n
  induction n with
  | zero => intro i k first hn hi; omega
  | succ n ih =>
    intro i k first hn hi hk hid
    rw [drop_expand c b i hi]
    unfold flush
    rw [advance_eq h hb hb' d i hd (by omega) _ k rfl hk]
    simp only
    rw [expand_get c b' (i - d) (by omega)]
    simp only
    by_cases hov : d ≤ i
    · obtain rfl : d = i := by omega
      rw [if_pos ((near_iff h hb hb' d (d - d)).2 (by omega)), if_neg (by simp [copy, hfl])]
      rw [List.drop_eq_nil_of_le (by rw [List.length_take]; omega)]
    · rw [if_neg (by rw [near_iff h hb hb']; omega)]
      have hcons : ((expand c b).take d).drop i = copy c b i :: ((expand c b).take d).drop (i + 1) := by
        have hl : i < ((expand c b).take d).length := by
          rw [List.length_take, expand_length]; omega
        rw [List.drop_eq_getElem_cons hl]
        congr 1
        rw [List.getElem_take]
        have := expand_get c b i hi
        rw [List.getElem?_eq_getElem (by rw [expand_length]; exact hi)] at this
        simpa using this
      rw [hcons]
      by_cases hlast : i + 1 < c.step
      · rw [ih (i + 1) (i - d) _ (by omega) hlast (by omega) (by omega)]
        rfl
      · have hi1 : i + 1 = c.step := by omega
        rw [List.drop_eq_nil_of_le (as := expand c b) (by rw [expand_length]; omega)]
        rw [List.drop_eq_nil_of_le (by rw [List.length_take, expand_length]; omega)]
        rfl
end

/-- All flags of slot `s` are set. -/
private def fl (l : List (Slot F P)) (s : Nat) : Bool := (l[s]?.map fun b => b.flagged).getD false

/-- First copy of slot `s` that is passed on. -/
private def lo (c : Config F) (l : List (Slot F P)) (m : Nat → Int) (s : Nat) : Nat :=
  if 1 ≤ s ∧ fl l s = true then (m (s - 1) + c.step - m s).toNat else 0

/-- One past the last copy of slot `s` that is passed on. -/
private def hi (c : Config F) (l : List (Slot F P)) (m : Nat → Int) (s : Nat) : Nat :=
  if s + 1 < l.length ∧ fl l (s + 1) = false then min c.step (m (s + 1) - m s).toNat else c.step

/-- The slots and copies passed on from slot `s` to the end. -/
private def tagsFrom (c : Config F) (l : List (Slot F P)) (m : Nat → Int) (s n : Nat) :
    List (Nat × Nat) :=
  (List.range' s n).flatMap fun s => (List.range' (lo c l m s) (hi c l m s - lo c l m s)).map fun i => (s, i)

/-- The buffer for a tag. -/
private def bufferOf (c : Config F) (l : List (Slot F P)) (q : Nat × Nat) : Option (Slot F P) :=
  l[q.1]?.map fun b => copy c b q.2

private theorem slice_eq (c : Config F) (b : Slot F P) (i j : Nat) (hj : j ≤ c.step) :
    ((expand c b).take j).drop i = (List.range' i (j - i)).map (copy c b) := by
  rw [expand_eq, ← List.map_take, ← List.map_drop, List.take_range, List.range_eq_range',
    List.drop_range', Nat.min_eq_left hj]
  simp

private theorem filterMap_tags {c : Config F} {l : List (Slot F P)} {s : Nat} {b : Slot F P}
    (hb : l[s]? = some b) (is : List Nat) :
    (is.map fun i => (s, i)).filterMap (bufferOf c l) = is.map (copy c b) := by
  induction is with
  | nil => rfl
  | cons i is ih => simp [bufferOf, hb] at ih ⊢; exact ih

private theorem bounds {c : Config F} {l : List (Slot F P)} {t0 : F} {m : Nat → Int}
    (h : OnGrid c l t0 m) (s : Nat) (hs : s < l.length) :
    lo c l m s ≤ hi c l m s ∧ hi c l m s ≤ c.step ∧ lo c l m s < c.step := by
  have hstep := h.step_pos
  have h1 : s + 1 < l.length → m s < m (s + 1) := h.increasing s
  have h2 : 1 ≤ s → m (s - 1) < m s := by
    intro hs1
    have := h.increasing (s - 1) (by omega)
    rwa [Nat.sub_add_cancel hs1] at this
  have h3 : 1 ≤ s → s + 1 < l.length → m (s - 1) + c.step ≤ m (s + 1) := by
    intro hs1 hs2
    have := h.apart (s - 1) (by omega)
    rwa [show s - 1 + 2 = s + 1 by omega] at this
  unfold lo hi
  split <;> split <;> omega

private theorem runFrom_eq {c : Config F} {l : List (Slot F P)} {t0 : F} {m : Nat → Int}
    (h : OnGrid c l t0 m) : ∀ (n s : Nat) (b : Slot F P), s + 1 + n = l.length → l[s]? = some b →
    runFrom c ⟨expand c b, lo c l m s⟩ (l.drop (s + 1)) =
      some ((tagsFrom c l m s (n + 1)).filterMap (bufferOf c l)) := by
  intro n
  have hstep := h.step_pos
  induction n with
  | zero =>
    intro s b hs hb
    have hbd := bounds h s (by omega)
    rw [List.drop_eq_nil_of_le (by omega)]
    simp only [runFrom, finish, expand_length]
    rw [if_pos (Or.inl (Nat.le_refl _))]
    have hhi : hi c l m s = c.step := by
      unfold hi; rw [if_neg]; omega
    have := slice_eq c b (lo c l m s) c.step (Nat.le_refl _)
    rw [List.take_of_length_le (by rw [expand_length])] at this
    rw [this]
    simp only [tagsFrom, Nat.zero_add, List.range'_one, List.flatMap_cons, List.flatMap_nil,
      List.append_nil, filterMap_tags hb, hhi]
  | succ n ih =>
    intro s b hs hb
    have hs1 : s + 1 < l.length := by omega
    have hb' : l[s + 1]? = some l[s + 1] := List.getElem?_eq_getElem hs1
    have hbd := bounds h s (by omega)
    have hinc := h.increasing s hs1
    obtain ⟨d, hd⟩ : ∃ d : Nat, m (s + 1) = m s + d := ⟨(m (s + 1) - m s).toNat, by omega⟩
    have hd1 : 1 ≤ d := by omega
    rw [List.drop_eq_getElem_cons hs1]
    unfold runFrom process
    simp only
    rw [if_neg (by
      intro hnil
      have := expand_length c b
      rw [hnil] at this
      simp at this; omega)]
    have hfl : fl l (s + 1) = l[s + 1].flagged := by simp [fl, hb']
    have hflush : flush c (expand c l[s + 1]) ((expand c b).drop (lo c l m s)) 0 (lo c l m s) =
        some ((List.range' (lo c l m s) (hi c l m s - lo c l m s)).map (copy c b), lo c l m (s + 1)) := by
      cases hf : l[s + 1].flagged with
      | true =>
        rw [flush_flagged h hb hb' d hd hf _ _ 0 _ rfl hbd.2.2 (by omega)]
        have hhi : hi c l m s = c.step := by
          unfold hi; rw [if_neg]; rw [hfl, hf]; simp
        have hlo : lo c l m (s + 1) = c.step - d := by
          unfold lo; rw [if_pos ⟨by omega, by rw [hfl, hf]⟩]
          simp only [Nat.add_sub_cancel]
          omega
        have := slice_eq c b (lo c l m s) c.step (Nat.le_refl _)
        rw [List.take_of_length_le (by rw [expand_length])] at this
        rw [this, hhi, hlo]
      | false =>
        have hhi : hi c l m s = min c.step d := by
          unfold hi; rw [if_pos ⟨hs1, by rw [hfl, hf]⟩]
          congr 1
          omega
        have hlo : lo c l m (s + 1) = 0 := by
          unfold lo; rw [if_neg]; rw [hfl, hf]; simp
        rw [flush_unflagged h hb hb' d hd hf _ _ 0 _ rfl hbd.2.2 (by omega) (by omega), hlo]
        have := slice_eq c b (lo c l m s) (min c.step d) (by omega)
        rw [hhi, ← this]
        congr 3
        rw [List.take_eq_take_iff, expand_length]
        omega
    rw [hflush]
    simp only [Option.map_some]
    rw [ih (s + 1) l[s + 1] (by omega) hb']
    simp only [Option.map_some, Option.some.injEq]
    rw [show tagsFrom c l m s (n + 1 + 1) = ((List.range' (lo c l m s) (hi c l m s - lo c l m s)).map
      fun i => (s, i)) ++ tagsFrom c l m (s + 1) (n + 1) by
        simp [tagsFrom, List.range'_succ (n := n + 1)]]
    rw [List.filterMap_append, filterMap_tags hb]

private theorem mem_tags {c : Config F} {l : List (Slot F P)} {m : Nat → Int} {s0 n : Nat}
    {q : Nat × Nat} : q ∈ tagsFrom c l m s0 n ↔
      (s0 ≤ q.1 ∧ q.1 < s0 + n) ∧ lo c l m q.1 ≤ q.2 ∧ q.2 < hi c l m q.1 := by
  obtain ⟨s, i⟩ := q
  unfold tagsFrom
  simp only [List.mem_flatMap, List.mem_range'_1, List.mem_map, Prod.mk.injEq]
  constructor
  · rintro ⟨s', h1, i', h2, rfl, rfl⟩
    exact ⟨h1, by omega, by omega⟩
  · rintro ⟨h1, h2, h3⟩
    exact ⟨s, h1, i, by omega, rfl, rfl⟩

private theorem mono_m {c : Config F} {l : List (Slot F P)} {t0 : F} {m : Nat → Int}
    (h : OnGrid c l t0 m) (s : Nat) : ∀ k, s + k < l.length → m s ≤ m (s + k) := by
  intro k
  induction k with
  | zero => intro _; exact Int.le_refl _
  | succ k ih =>
    intro hk
    have := h.increasing (s + k) (by omega)
    have := ih (by omega)
    rw [← Nat.add_assoc]
    omega

private theorem far {c : Config F} {l : List (Slot F P)} {t0 : F} {m : Nat → Int}
    (h : OnGrid c l t0 m) (s s' : Nat) (h2 : s + 2 ≤ s') (hs' : s' < l.length) :
    m s + c.step ≤ m s' := by
  have h1 := h.apart s (by omega)
  have := mono_m h (s + 2) (s' - (s + 2)) (by omega)
  rw [show s + 2 + (s' - (s + 2)) = s' by omega] at this
  omega

/-- The end of one slot's copies is not after the start of those of a later slot. -/
private theorem ends_before {c : Config F} {l : List (Slot F P)} {t0 : F} {m : Nat → Int}
    (h : OnGrid c l t0 m) (s s' : Nat) (hss : s < s') (hs' : s' < l.length) :
    m s + hi c l m s ≤ m s' + lo c l m s' := by
  have hbd := bounds h s (by omega)
  by_cases h2 : s + 2 ≤ s'
  · have := far h s s' h2 hs'
    omega
  · obtain rfl : s' = s + 1 := by omega
    have hinc := h.increasing s hs'
    unfold hi lo
    cases hf : fl l (s + 1) with
    | true => simp; omega
    | false => simp [hs']; omega

private theorem tags_sorted {c : Config F} {l : List (Slot F P)} {t0 : F} {m : Nat → Int}
    (h : OnGrid c l t0 m) : ∀ n s, s + n ≤ l.length →
    (tagsFrom c l m s n).Pairwise fun q q' => m q.1 + q.2 < m q'.1 + q'.2 := by
  intro n
  induction n with
  | zero => intro s _; simp [tagsFrom]
  | succ n ih =>
    intro s hs
    rw [show tagsFrom c l m s (n + 1) = ((List.range' (lo c l m s) (hi c l m s - lo c l m s)).map
      fun i => (s, i)) ++ tagsFrom c l m (s + 1) n by
        simp [tagsFrom, List.range'_succ (n := n)]]
    rw [List.pairwise_append]
    refine ⟨?_, ih (s + 1) (by omega), ?_⟩
    · rw [List.pairwise_map]
      refine List.Pairwise.imp ?_ (List.pairwise_lt_range' (s := lo c l m s) (n := hi c l m s - lo c l m s))
      intro a b hab
      simp only
      omega
    · intro q hq q' hq'
      obtain ⟨i, hi', rfl⟩ := List.mem_map.1 hq
      obtain ⟨⟨h1, h2⟩, h3, h4⟩ := mem_tags.1 hq'
      rw [List.mem_range'_1] at hi'
      have := ends_before h s q'.1 (by omega) (by omega)
      simp only
      omega

/-- C16.  For a stream of at least one slot on the grid: no access is outside the
vectors, and the output consists of copies `(s, i)` (copy `i` of slot `s`, listed by
`tags`) at strictly increasing grid positions, such that every position covered by
some slot is present once, and where two slots cover a position, the copy passed on
is that of the later slot, unless that one is fully flagged. -/
theorem run_spec (c : Config F) (l : List (Slot F P)) (t0 : F) (m : Nat → Int)
    (h : OnGrid c l t0 m) (hne : l ≠ []) :
    ∃ (out : List (Slot F P)) (tags : List (Nat × Nat)), run c l = some out ∧
      out.map some = tags.map (fun q => l[q.1]?.map fun b => copy c b q.2) ∧
      (tags.Pairwise fun q q' => m q.1 + q.2 < m q'.1 + q'.2) ∧
      (∀ q ∈ tags, q.1 < l.length ∧ q.2 < c.step) ∧
      (∀ s i, s < l.length → i < c.step → ∃ q ∈ tags, m q.1 + q.2 = m s + i) ∧
      (∀ q ∈ tags, ∀ s i, s < l.length → i < c.step → m q.1 + q.2 = m s + i → s ≠ q.1 →
        ∃ b, l[max s q.1]? = some b ∧ (q.1 = max s q.1 ↔ b.flagged = false)) := by
  have hlen : 0 < l.length := List.length_pos_iff.2 hne
  have h0 : l[0]? = some l[0] := List.getElem?_eq_getElem hlen
  refine ⟨(tagsFrom c l m 0 l.length).filterMap (bufferOf c l), tagsFrom c l m 0 l.length, ?_, ?_,
    tags_sorted h _ _ (by omega), ?_, ?_, ?_⟩
  · have := runFrom_eq h (l.length - 1) 0 l[0] (by omega) h0
    have hl : l = l[0] :: l.drop 1 := by
      conv_lhs => rw [← List.drop_zero (l := l), List.drop_eq_getElem_cons hlen]
    unfold run
    conv_lhs => rw [hl]
    unfold runFrom process
    simp only [if_true]
    have hlo : lo c l m 0 = 0 := by simp [lo]
    rw [hlo, Nat.zero_add] at this
    rw [this]
    simp only [Option.map_some, List.nil_append]
    congr 3
    omega
  · have : ∀ ts : List (Nat × Nat), (∀ q ∈ ts, q.1 < l.length) →
        (ts.filterMap (bufferOf c l)).map some = ts.map (bufferOf c l) := by
      intro ts
      induction ts with
      | nil => intro _; rfl
      | cons q ts ih =>
        intro hq
        have hql : q.1 < l.length := hq q (by simp)
        have h1 : bufferOf c l q = some (copy c l[q.1] q.2) := by
          unfold bufferOf
          rw [List.getElem?_eq_getElem hql]
          rfl
        rw [List.filterMap_cons_some h1, List.map_cons, List.map_cons, h1,
          ih (fun q' hq' => hq q' (List.mem_cons_of_mem _ hq'))]
    apply this
    intro q hq
    have := (mem_tags.1 hq).1
    omega
  · intro q hq
    obtain ⟨h1, h2, h3⟩ := mem_tags.1 hq
    have := (bounds h q.1 (by omega)).2.1
    exact ⟨by omega, by omega⟩
  · intro s i hs hi'
    by_cases hlo : i < lo c l m s
    · -- the copy of the slot before is passed on
      have hc : 1 ≤ s ∧ fl l s = true := by
        by_contra hc
        unfold lo at hlo
        rw [if_neg hc] at hlo
        omega
      have hv : lo c l m s = (m (s - 1) + c.step - m s).toNat := by unfold lo; rw [if_pos hc]
      have hinc := h.increasing (s - 1) (by omega)
      rw [Nat.sub_add_cancel hc.1] at hinc
      refine ⟨(s - 1, (m s + i - m (s - 1)).toNat), mem_tags.2 ⟨by simp only; omega, ?_, ?_⟩, by
        simp only; omega⟩
      · simp only
        by_cases hs2 : 2 ≤ s
        · have hap := h.apart (s - 2) (by omega)
          rw [show s - 2 + 2 = s by omega] at hap
          unfold lo
          split
          · rw [show s - 1 - 1 = s - 2 by omega]; omega
          · omega
        · have : s - 1 = 0 := by omega
          rw [this]
          simp [lo]
      · have hhi : hi c l m (s - 1) = c.step := by
          unfold hi
          rw [Nat.sub_add_cancel hc.1, if_neg]
          rw [hc.2]; simp
        simp only
        rw [hhi]
        omega
    · by_cases hhi : i < hi c l m s
      · exact ⟨(s, i), mem_tags.2 ⟨by simp only; omega, by simp only; omega, hhi⟩, rfl⟩
      · have hc : s + 1 < l.length ∧ fl l (s + 1) = false := by
          by_contra hc
          unfold hi at hhi
          rw [if_neg hc] at hhi
          omega
        have hv : hi c l m s = min c.step (m (s + 1) - m s).toNat := by unfold hi; rw [if_pos hc]
        have hinc := h.increasing s hc.1
        refine ⟨(s + 1, (m s + i - m (s + 1)).toNat), mem_tags.2 ⟨by simp only; omega, ?_, ?_⟩, by
          simp only; omega⟩
        · have : lo c l m (s + 1) = 0 := by
            unfold lo; rw [if_neg]; rw [hc.2]; simp
          simp only
          omega
        · simp only
          by_cases hs2 : s + 2 < l.length
          · have hap := h.apart s hs2
            unfold hi
            split
            · rw [show s + 1 + 1 = s + 2 by omega]; omega
            · omega
          · unfold hi
            rw [if_neg (by omega)]
            omega
  · intro q hq s i hs hi' heq hne'
    obtain ⟨h1, h2, h3⟩ := mem_tags.1 hq
    have hbd := (bounds h q.1 (by omega)).2.1
    rcases Nat.lt_or_gt_of_ne hne' with hlt | hgt
    · -- the other copy is of an earlier slot
      rw [Nat.max_eq_right (by omega)]
      have hs1 : q.1 = s + 1 := by
        by_contra hx
        have := far h s q.1 (by omega) (by omega)
        omega
      refine ⟨l[q.1], List.getElem?_eq_getElem (by omega), ?_⟩
      simp only [true_iff]
      cases hf : l[q.1].flagged with
      | false => rfl
      | true =>
        exfalso
        have hfl : fl l q.1 = true := by
          simp [fl, hf, List.getElem?_eq_getElem (show q.1 < l.length by omega)]
        have hv : lo c l m q.1 = (m (q.1 - 1) + c.step - m q.1).toNat := by
          unfold lo; rw [if_pos ⟨by omega, hfl⟩]
        rw [hs1, Nat.add_sub_cancel] at hv
        rw [hs1] at h2 heq
        omega
    · rw [Nat.max_eq_left (by omega)]
      have hs1 : s = q.1 + 1 := by
        by_contra hx
        have := far h q.1 s (by omega) (by omega)
        omega
      refine ⟨l[s], List.getElem?_eq_getElem (by omega), ?_⟩
      have hqs : ¬ q.1 = s := by omega
      simp only [hqs, false_iff]
      intro hf
      have hfl : fl l s = false := by
        simp [fl, hf, List.getElem?_eq_getElem hs]
      have hv : hi c l m q.1 = min c.step (m (q.1 + 1) - m q.1).toNat := by
        unfold hi; rw [if_pos ⟨by omega, by rw [← hs1]; exact hfl⟩]
      rw [hs1] at heq
      omega

/-- C16, times: the buffers passed on have strictly increasing times. -/
theorem run_times (c : Config F) (l : List (Slot F P)) (t0 : F) (m : Nat → Int)
    (h : OnGrid c l t0 m) (out : List (Slot F P)) (hrun : run c l = some out) :
    out.Pairwise fun a b => a.time < b.time := by
  by_cases hne : l = []
  · subst hne
    simp only [run, runFrom, finish] at hrun
    split at hrun
    · simp at hrun; subst hrun; simp
    · cases hrun
  · obtain ⟨out', tags, h1, h2, h3, h4, _, _⟩ := run_spec c l t0 m h hne
    rw [h1, Option.some.injEq] at hrun
    subst hrun
    have h5 : (out'.map some).Pairwise fun a b => ∀ x y, a = some x → b = some y → x.time < y.time := by
      rw [h2, List.pairwise_map]
      refine List.Pairwise.imp ?_ h3
      intro q q' hlt x y hx hy
      obtain ⟨b, hb, rfl⟩ := Option.map_eq_some_iff.1 hx
      obtain ⟨b', hb', rfl⟩ := Option.map_eq_some_iff.1 hy
      have := (later_iff h hb' hb q'.2 q.2).2 (by omega)
      exact this.1
    rw [List.pairwise_map] at h5
    exact List.Pairwise.imp (fun hab => hab _ _ rfl rfl) h5

/-- C16, regular input: a stream without overlaps gives every copy of every slot,
`N * T` buffers in all. -/
theorem run_regular (c : Config F) (l : List (Slot F P)) (t0 : F) (hpos : 0 < c.interval)
    (hstep : 0 < c.step) (hne : l ≠ [])
    (htime : ∀ (s : Nat) (b : Slot F P), l[s]? = some b →
      b.time = t0 + c.interval * (c.step : F) * ((s : F) + 1 / 2)) :
    run c l = some (l.flatMap fun b => (List.range c.step).map (copy c b)) := by
  have h : OnGrid c l t0 (fun s => (s : Int) * c.step) := by
    refine ⟨hpos, hstep, ?_, ?_, ?_⟩
    · intro s b hb
      rw [htime s b hb]
      have : t0 + c.interval * (c.step : F) * ((s : F) + 1 / 2) - c.interval * (c.step : F) / 2 -
          (t0 + c.interval * (((s : Int) * c.step : Int) : F)) = 0 := by
        push_cast; ring
      rw [this, abs_zero]
      linarith
    · intro s _
      push_cast
      have : (0 : Int) < c.step := by exact_mod_cast hstep
      nlinarith
    · intro s _
      push_cast
      have : (0 : Int) < c.step := by exact_mod_cast hstep
      nlinarith
  have hlen : 0 < l.length := List.length_pos_iff.2 hne
  have h0 : l[0]? = some l[0] := List.getElem?_eq_getElem hlen
  have key := runFrom_eq h (l.length - 1) 0 l[0] (by omega) h0
  have hl : l = l[0] :: l.drop 1 := by
    conv_lhs => rw [← List.drop_zero (l := l), List.drop_eq_getElem_cons hlen]
  have hlo : ∀ s, lo c l (fun s => (s : Int) * c.step) s = 0 := by
    intro s
    unfold lo
    split
    · next hc =>
      have : ((s - 1 : Nat) : Int) = s - 1 := by omega
      simp only [this]
      ring_nf
      rfl
    · rfl
  have hhi : ∀ s, hi c l (fun s => (s : Int) * c.step) s = c.step := by
    intro s
    unfold hi
    split
    · have : ((s + 1 : Nat) : Int) * c.step - (s : Int) * c.step = c.step := by push_cast; ring
      simp only [this]
      simp
    · rfl
  rw [hlo] at key
  unfold run
  conv_lhs => rw [hl]
  unfold runFrom process
  simp only [if_true]
  rw [key]
  simp only [Option.map_some, List.nil_append, Option.some.injEq]
  rw [show l.length - 1 + 1 = l.length by omega]
  unfold tagsFrom
  simp only [hlo, hhi, Nat.sub_zero]
  rw [List.filterMap_flatMap]
  have : ∀ k, k ≤ l.length → (List.range' (l.length - k) k).flatMap (fun s =>
      ((List.range' 0 c.step).map fun i => (s, i)).filterMap (bufferOf c l)) =
      (l.drop (l.length - k)).flatMap fun b => (List.range c.step).map (copy c b) := by
    intro k
    induction k with
    | zero => intro _; simp
    | succ k ih =>
      intro hk
      have hlt : l.length - (k + 1) < l.length := by omega
      rw [List.range'_succ, List.flatMap_cons, List.drop_eq_getElem_cons hlt, List.flatMap_cons,
        filterMap_tags (List.getElem?_eq_getElem hlt), ← List.range_eq_range']
      congr 1
      have := ih (by omega)
      rw [show l.length - (k + 1) + 1 = l.length - k by omega]
      rw [List.range_eq_range'] at this ⊢
      exact this
  have := this l.length (Nat.le_refl _)
  simpa using this

/-- The exposures of the copies of a slot add up to that of the slot. -/
theorem exposure_sum (c : Config F) (hstep : 0 < c.step) (b : Slot F P) :
    (((List.range c.step).map (copy c b)).map fun s => s.exposure).sum = b.exposure := by
  rw [List.map_map]
  have : ∀ n : Nat, ((List.range n).map ((fun s => s.exposure) ∘ copy c b)).sum =
      (n : F) * (b.exposure / (c.step : F)) := by
    intro n
    induction n with
    | zero => simp
    | succ n ih =>
      rw [List.range_succ, List.map_append, List.sum_append, ih]
      simp [copy]; ring
  rw [this]
  have : (c.step : F) ≠ 0 := by exact_mod_cast Nat.pos_iff_ne_zero.1 hstep
  field_simp

/-- An empty stream makes `finish` access a buffer that does not exist. -/
theorem empty_stream (c : Config F) (hstep : 0 < c.step) :
    run c ([] : List (Slot F P)) = none := by
  simp [run, runFrom, finish]
  omega

/-- The hypothesis that slots two apart do not overlap is needed: with three slots
that overlap each other, the time 5/2 is passed on twice. -/
theorem triple_overlap : (run (⟨1, 3⟩ : Config Rat)
    [⟨3 / 2, 1, false, 0⟩, ⟨5 / 2, 1, true, 1⟩, ⟨7 / 2, 1, false, 2⟩]).map
      (fun l => l.map fun (s : Slot Rat Nat) => (s.time, s.payload)) =
    some [(1 / 2, 0), (3 / 2, 0), (5 / 2, 0), (5 / 2, 2), (7 / 2, 2), (9 / 2, 2)] := by
  decide +kernel

/-- Starts must increase: after a flagged slot with the same time as the slot before
it, all copies of the next slot are lost. -/
theorem equal_times : (run (⟨1, 2⟩ : Config Rat)
    [⟨1, 1, false, 0⟩, ⟨1, 1, true, 1⟩, ⟨3, 1, false, 2⟩]).map
      (fun l => l.map fun (s : Slot Rat Nat) => (s.time, s.payload)) =
    some [(1 / 2, 0), (3 / 2, 0)] := by
  decide +kernel

/-- Three slots, factor 2, fine interval 1; the second, flagged one overlaps the
first and the third by one: the copies passed on are 0, 1 of slot 0, copy 1 of slot 1
and both copies of slot 2. -/
example : (run (⟨1, 2⟩ : Config Rat)
    [⟨1, 1, false, 0⟩, ⟨2, 1, true, 1⟩, ⟨4, 1, false, 2⟩]).map
      (fun l => l.map fun (s : Slot Rat Nat) => (s.time, s.payload)) =
    some [(1 / 2, 0), (3 / 2, 0), (5 / 2, 1), (7 / 2, 2), (9 / 2, 2)] := by
  decide +kernel

example : OnGrid (⟨1, 2⟩ : Config Rat)
    [⟨1, 1, false, 0⟩, ⟨2, 1, true, 1⟩, (⟨4, 1, false, 2⟩ : Slot Rat Nat)] 0
    (fun s => if s = 0 then 0 else if s = 1 then 1 else 3) := by
  refine ⟨by norm_num, by norm_num, ?_, ?_, ?_⟩
  · intro s b hb
    match s with
    | 0 => simp at hb; subst hb; norm_num
    | 1 => simp at hb; subst hb; norm_num
    | 2 => simp at hb; subst hb; norm_num
    | n + 3 => simp at hb
  · intro s hs
    simp at hs
    match s with
    | 0 => simp
    | 1 => simp
    | n + 2 => omega
  · intro s hs
    simp at hs
    match s with
    | 0 => simp
    | n + 1 => omega

end DP3.Upsample
