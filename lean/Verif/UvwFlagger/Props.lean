import Verif.UvwFlagger.Model
import Mathlib.Algebra.Field.Rat
import Mathlib.Algebra.Order.Ring.Rat
import Mathlib.Data.List.Nodup
import Mathlib.Tactic.Linarith
import Mathlib.Tactic.Ring
import Mathlib.Tactic.ByContra
import Mathlib.Tactic.SplitIfs
import Mathlib.Tactic.Tauto

/-!
# C50: flagging on uvw coordinates
-/

namespace DP3.UvwFlagger

open DP3.StringTools

set_option linter.unusedSectionVars false

variable {K : Type} [Field K] [LinearOrder K] [IsStrictOrderedRing K]

/-! ## What has to be flagged -/

/-- A value strictly inside one of the ranges. -/
def Inside (x : K) (ranges : List (K × K)) : Prop := ∃ p ∈ ranges, p.1 < x ∧ x < p.2

/-- Ranges one after the other. -/
def flat (ranges : List (K × K)) : List K := ranges.flatMap fun p => [p.1, p.2]

/-- The same for all coordinates. -/
def Ranges.flat (r : Ranges (K × K)) : Ranges K :=
  ⟨UvwFlagger.flat r.uvm, UvwFlagger.flat r.um, UvwFlagger.flat r.vm, UvwFlagger.flat r.wm,
    UvwFlagger.flat r.uvl, UvwFlagger.flat r.ul, UvwFlagger.flat r.vl, UvwFlagger.flat r.wl⟩

/-- The baseline is in a range in metres; the ranges of the uv distance are squared. -/
def HitM (r : Ranges (K × K)) (p : Uvw K) : Prop :=
  Inside (p.u * p.u + p.v * p.v) r.uvm ∨ Inside p.u r.um ∨ Inside p.v r.vm ∨ Inside p.w r.wm

/-- A channel, with the reciprocal of its wavelength, is in a range in wavelengths. -/
def HitL (sqrt : K → K) (r : Ranges (K × K)) (p : Uvw K) (k : K) : Prop :=
  Inside (sqrt (p.u * p.u + p.v * p.v) * k) r.uvl ∨ Inside (p.u * k) r.ul ∨ Inside (p.v * k) r.vl ∨
    Inside (p.w * k) r.wl

/-- The outcome has a flag for each one before; it is set when it was set or a condition holds. -/
def Sets (flags out : List Bool) (cond : Nat → Prop) : Prop :=
  out.length = flags.length ∧
    ∀ (k : Nat) (f : Bool), flags[k]? = some f → ∃ f', out[k]? = some f' ∧ (f' = true ↔ f = true ∨ cond k)

private theorem Sets.refl (flags : List Bool) : Sets flags flags fun _ => False :=
  ⟨rfl, fun _ f h => ⟨f, h, by simp⟩⟩

private theorem Sets.trans {a b c : List Bool} {p q : Nat → Prop} (h1 : Sets a b p) (h2 : Sets b c q) :
    Sets a c fun k => p k ∨ q k := by
  refine ⟨h2.1.trans h1.1, fun k f h => ?_⟩
  obtain ⟨f', e1, e2⟩ := h1.2 k f h
  obtain ⟨f'', e3, e4⟩ := h2.2 k f' e1
  exact ⟨f'', e3, by rw [e4, e2, or_assoc]⟩

private theorem Sets.congr {a b : List Bool} {p q : Nat → Prop} (h : Sets a b p)
    (hpq : ∀ k, k < a.length → (p k ↔ q k)) : Sets a b q := by
  refine ⟨h.1, fun k f hf => ?_⟩
  obtain ⟨f', e1, e2⟩ := h.2 k f hf
  exact ⟨f', e1, by rw [e2, hpq k (List.getElem?_eq_some_iff.mp hf).1]⟩

/-! ## The tests -/

private theorem testM_flat (x : K) (ranges : List (K × K)) :
    ∃ b, testM x (flat ranges) = .ok b ∧ (b = true ↔ Inside x ranges) := by
  induction ranges with
  | nil => exact ⟨false, rfl, by simp [Inside]⟩
  | cons p rest ih =>
    have e : flat (p :: rest) = p.1 :: p.2 :: flat rest := rfl
    rw [e, testM]
    by_cases h : p.1 < x ∧ x < p.2
    · exact ⟨true, by rw [if_pos h], by simp [Inside, h]⟩
    · obtain ⟨b, hb, hi⟩ := ih
      refine ⟨b, by rw [if_neg h, hb], ?_⟩
      rw [hi]
      simp only [Inside, List.mem_cons]
      constructor
      · rintro ⟨q, hq, h'⟩
        exact ⟨q, .inr hq, h'⟩
      · rintro ⟨q, rfl | hq, h'⟩
        · exact absurd h' h
        · exact ⟨q, hq, h'⟩

private theorem fillN_spec (flags : List Bool) (off n : Nat) (h : off + n ≤ flags.length) :
    ∃ out, fillN flags off n = .ok out ∧ Sets flags out fun k => off ≤ k ∧ k < off + n := by
  refine ⟨_, by rw [fillN, if_pos h], ?_, ?_⟩
  · simp only [List.length_append, List.length_take, List.length_replicate, List.length_drop]
    omega
  · intro k f hf
    have hk := (List.getElem?_eq_some_iff.mp hf).1
    have hl : (flags.take off).length = off := by rw [List.length_take]; omega
    rcases Nat.lt_or_ge k off with h1 | h1
    · refine ⟨f, ?_, by simp; omega⟩
      rw [List.getElem?_append_left (by omega), List.getElem?_take, if_pos h1, hf]
    · rw [List.getElem?_append_right (by omega), hl]
      rcases Nat.lt_or_ge k (off + n) with h2 | h2
      · refine ⟨true, ?_, by simp [h1, h2]⟩
        rw [List.getElem?_append_left (by rw [List.length_replicate]; omega), List.getElem?_replicate,
          if_pos (by omega)]
      · refine ⟨f, ?_, by simp; omega⟩
        rw [List.getElem?_append_right (by rw [List.length_replicate]; omega), List.getElem?_drop,
          List.length_replicate]
        have : off + n + (k - off - n) = k := by omega
        rw [this, hf]

/-- The condition for flags set by a test on wavelengths. -/
private def Chan (nCorr : Nat) (ks : List K) (off : Nat) (cond : K → Prop) (k : Nat) : Prop :=
  off ≤ k ∧ ∃ κ, ks[(k - off) / nCorr]? = some κ ∧ cond κ

private theorem testL_spec (x : K) (ranges : List (K × K)) (nCorr : Nat) (hc : 0 < nCorr) (ks : List K)
    (off : Nat) (flags : List Bool) (hl : off + nCorr * ks.length ≤ flags.length) :
    ∃ out, testL x (flat ranges) nCorr ks off flags = .ok out ∧
      Sets flags out (Chan nCorr ks off fun κ => Inside (x * κ) ranges) := by
  induction ks generalizing off flags with
  | nil => exact ⟨flags, rfl, (Sets.refl flags).congr fun k _ => by simp [Chan]⟩
  | cons κ ks ih =>
    have hl' : off + nCorr + nCorr * ks.length ≤ flags.length := by
      rw [List.length_cons, Nat.mul_add, Nat.mul_one] at hl; omega
    have hchan : ∀ (cond : K → Prop) (k : Nat), Chan nCorr (κ :: ks) off cond k ↔
        (off ≤ k ∧ k < off + nCorr ∧ cond κ) ∨ Chan nCorr ks (off + nCorr) cond k := by
      intro cond k
      simp only [Chan]
      rcases Nat.lt_or_ge k off with h1 | h1
      · constructor
        · intro h; omega
        · rintro (h | h) <;> omega
      · rcases Nat.lt_or_ge k (off + nCorr) with h2 | h2
        · have : (k - off) / nCorr = 0 := Nat.div_eq_of_lt (by omega)
          rw [this]
          simp [h1, h2, Nat.not_le.mpr h2]
        · have : (k - off) / nCorr = (k - (off + nCorr)) / nCorr + 1 := by
            have : k - off = (k - (off + nCorr)) + nCorr := by omega
            rw [this, Nat.add_div_right _ hc]
          rw [this, List.getElem?_cons_succ]
          simp [h1, h2, Nat.not_lt.mpr h2]
    obtain ⟨b, hb, hi⟩ := testM_flat (x * κ) ranges
    cases b with
    | true =>
      obtain ⟨mid, m1, m2⟩ := fillN_spec flags off nCorr (by omega)
      obtain ⟨out, o1, o2⟩ := ih (off + nCorr) mid (by rw [m2.1]; exact hl')
      refine ⟨out, ?_, (m2.trans o2).congr fun k _ => ?_⟩
      · rw [testL, hb]; simp only; rw [m1]; exact o1
      · rw [hchan]
        have := hi.mp rfl
        tauto
    | false =>
      obtain ⟨out, o1, o2⟩ := ih (off + nCorr) flags hl'
      refine ⟨out, ?_, o2.congr fun k _ => ?_⟩
      · rw [testL, hb]; exact o1
      · rw [hchan]
        have : ¬ Inside (x * κ) ranges := fun h => by simpa using hi.mpr h
        tauto

private theorem flat_isEmpty (ranges : List (K × K)) : (flat ranges).isEmpty = ranges.isEmpty := by
  cases ranges <;> rfl

private theorem stepM_spec (x : K) (ranges : List (K × K)) (f : Bool) :
    ∃ b, stepM x (flat ranges) f = .ok b ∧ (b = true ↔ f = true ∨ Inside x ranges) := by
  rw [stepM, flat_isEmpty]
  cases f with
  | true => exact ⟨true, by simp, by simp⟩
  | false =>
    cases ranges with
    | nil => exact ⟨false, by simp, by simp [Inside]⟩
    | cons p rest =>
      obtain ⟨b, hb, hi⟩ := testM_flat x (p :: rest)
      exact ⟨b, by simpa using hb, by simpa using hi⟩

private theorem stepL_spec (x : K) (ranges : List (K × K)) (nCorr : Nat) (hc : 0 < nCorr) (ks : List K)
    (off : Nat) (flags : List Bool) (hl : off + nCorr * ks.length ≤ flags.length) :
    ∃ out, stepL x (flat ranges) nCorr ks off flags = .ok out ∧
      Sets flags out (Chan nCorr ks off fun κ => Inside (x * κ) ranges) := by
  rw [stepL, flat_isEmpty]
  cases ranges with
  | nil => exact ⟨flags, by simp, (Sets.refl flags).congr fun k _ => by simp [Chan, Inside]⟩
  | cons p rest =>
    obtain ⟨out, h1, h2⟩ := testL_spec x (p :: rest) nCorr hc ks off flags hl
    exact ⟨out, by simpa using h1, h2⟩

private theorem flagBaseline_spec (r : Ranges (K × K)) (p : Uvw K) :
    ∃ b, flagBaseline r.flat p = .ok b ∧ (b = true ↔ HitM r p) := by
  obtain ⟨b1, e1, i1⟩ := stepM_spec (p.u * p.u + p.v * p.v) r.uvm false
  obtain ⟨b2, e2, i2⟩ := stepM_spec p.u r.um b1
  obtain ⟨b3, e3, i3⟩ := stepM_spec p.v r.vm b2
  obtain ⟨b4, e4, i4⟩ := stepM_spec p.w r.wm b3
  refine ⟨b4, ?_, ?_⟩
  · rw [flagBaseline]
    simp only [Ranges.flat, e1, e2, e3, e4, bind, Except.bind]
  · rw [i4, i3, i2, i1, HitM]
    simp only [Bool.false_eq_true, false_or, or_assoc]

private theorem flagChannels_spec (sqrt : K → K) (r : Ranges (K × K)) (p : Uvw K) (nCorr : Nat)
    (hc : 0 < nCorr) (ks : List K) (off : Nat) (flags : List Bool)
    (hl : off + nCorr * ks.length ≤ flags.length) :
    ∃ out, flagChannels sqrt r.flat p nCorr ks off flags = .ok out ∧
      Sets flags out (Chan nCorr ks off fun κ => HitL sqrt r p κ) := by
  obtain ⟨b1, e1, i1⟩ := stepL_spec (sqrt (p.u * p.u + p.v * p.v)) r.uvl nCorr hc ks off flags hl
  obtain ⟨b2, e2, i2⟩ := stepL_spec p.u r.ul nCorr hc ks off b1 (by rw [i1.1]; exact hl)
  obtain ⟨b3, e3, i3⟩ := stepL_spec p.v r.vl nCorr hc ks off b2 (by rw [i2.1, i1.1]; exact hl)
  obtain ⟨b4, e4, i4⟩ := stepL_spec p.w r.wl nCorr hc ks off b3 (by rw [i3.1, i2.1, i1.1]; exact hl)
  refine ⟨b4, ?_, (((i1.trans i2).trans i3).trans i4).congr fun k _ => ?_⟩
  · rw [flagChannels]
    simp only [Ranges.flat, e1, e2, e3, e4, bind, Except.bind]
  · simp only [Chan, HitL]
    constructor
    · rintro (((⟨h, κ, hκ, h'⟩ | ⟨h, κ, hκ, h'⟩) | ⟨h, κ, hκ, h'⟩) | ⟨h, κ, hκ, h'⟩)
      · exact ⟨h, κ, hκ, .inl h'⟩
      · exact ⟨h, κ, hκ, .inr (.inl h')⟩
      · exact ⟨h, κ, hκ, .inr (.inr (.inl h'))⟩
      · exact ⟨h, κ, hκ, .inr (.inr (.inr h'))⟩
    · rintro ⟨h, κ, hκ, h' | h' | h' | h'⟩
      · exact .inl (.inl (.inl ⟨h, κ, hκ, h'⟩))
      · exact .inl (.inl (.inr ⟨h, κ, hκ, h'⟩))
      · exact .inl (.inr ⟨h, κ, hκ, h'⟩)
      · exact .inr ⟨h, κ, hκ, h'⟩

private theorem doFlag_spec (sqrt : K → K) (r : Ranges (K × K)) (p : Uvw K) (nCorr : Nat) (hc : 0 < nCorr)
    (ks : List K) (off : Nat) (flags : List Bool) (hl : off + nCorr * ks.length ≤ flags.length) :
    ∃ out, doFlag sqrt r.flat p nCorr ks.length ks off flags = .ok out ∧
      Sets flags out (Chan nCorr ks off fun κ => HitM r p ∨ HitL sqrt r p κ) := by
  obtain ⟨b, hb, hi⟩ := flagBaseline_spec r p
  cases b with
  | true =>
    obtain ⟨out, h1, h2⟩ := fillN_spec flags off (nCorr * ks.length) hl
    refine ⟨out, by rw [doFlag, hb]; exact h1, h2.congr fun k _ => ?_⟩
    have hit := hi.mp rfl
    simp only [Chan]
    constructor
    · rintro ⟨h3, h4⟩
      have : (k - off) / nCorr < ks.length := by
        rw [Nat.div_lt_iff_lt_mul hc, Nat.mul_comm]; omega
      exact ⟨h3, _, List.getElem?_eq_getElem this, .inl hit⟩
    · rintro ⟨h3, κ, hκ, -⟩
      have := (List.getElem?_eq_some_iff.mp hκ).1
      rw [Nat.div_lt_iff_lt_mul hc, Nat.mul_comm] at this
      omega
  | false =>
    obtain ⟨out, h1, h2⟩ := flagChannels_spec sqrt r p nCorr hc ks off flags hl
    refine ⟨out, by rw [doFlag, hb]; exact h1, h2.congr fun k _ => ?_⟩
    have : ¬ HitM r p := fun h => by simpa using hi.mpr h
    simp [Chan, this]

/-! ## The loop over the baselines -/

private theorem newlyFlagged_spec (orig flags : List Bool) (hlen : flags.length = orig.length) (nCorr : Nat)
    (hc : 0 < nCorr) (n j off : Nat) (h : off + nCorr * n ≤ flags.length) :
    ∃ l, newlyFlagged orig flags nCorr n j off = .ok l ∧ l.Nodup ∧
      ∀ a, a ∈ l ↔ j ≤ a ∧ a < j + n ∧ flags[off + nCorr * (a - j)]? = some true ∧
        orig[off + nCorr * (a - j)]? = some false := by
  induction n generalizing j off with
  | zero => exact ⟨[], rfl, List.nodup_nil, fun a => by simp; omega⟩
  | succ n ih =>
    rw [Nat.mul_add, Nat.mul_one] at h
    obtain ⟨l, e1, e2, e3⟩ := ih (j + 1) (off + nCorr) (by omega)
    have hf : flags[off]? = some (flags[off]'(by omega)) := List.getElem?_eq_getElem _
    have ho : orig[off]? = some (orig[off]'(by omega)) := List.getElem?_eq_getElem _
    generalize flags[off]'(by omega) = f at hf
    generalize orig[off]'(by omega) = o at ho
    have hidx : ∀ a, j + 1 ≤ a → off + nCorr * (a - j) = off + nCorr + nCorr * (a - (j + 1)) := by
      intro a ha
      have : a - j = (a - (j + 1)) + 1 := by omega
      rw [this, Nat.mul_add, Nat.mul_one]; omega
    have hj : j ∉ l := by
      intro h'
      have := (e3 j).mp h'
      omega
    refine ⟨if f && !o then j :: l else l, ?_, ?_, ?_⟩
    · rw [newlyFlagged, hf, ho]
      simp only
      rw [e1]
    · split_ifs
      · exact List.nodup_cons.mpr ⟨hj, e2⟩
      · exact e2
    · intro a
      have hrest : j + 1 ≤ a → (a ∈ l ↔ j ≤ a ∧ a < j + (n + 1) ∧ flags[off + nCorr * (a - j)]? = some true ∧
          orig[off + nCorr * (a - j)]? = some false) := by
        intro ha
        rw [e3, hidx a ha]
        constructor
        · rintro ⟨h1, h2, h3⟩; exact ⟨by omega, by omega, h3⟩
        · rintro ⟨h1, h2, h3⟩; exact ⟨ha, by omega, h3⟩
      rcases Nat.lt_trichotomy a j with ha | ha | ha
      · have : a ∉ l := fun h' => by have := (e3 a).mp h'; omega
        split_ifs
        · simp [this]; omega
        · simp [this]; omega
      · subst ha
        rw [Nat.sub_self, Nat.mul_zero]
        simp only [Nat.add_zero, hf, ho]
        cases f <;> cases o <;> simp [hj]
      · rw [← hrest ha]
        split_ifs
        · rw [List.mem_cons]
          exact ⟨fun h => h.resolve_left (by omega), .inr⟩
        · exact Iff.rfl

/-- The index of the flag of a baseline, channel and correlation. -/
def index (nChan nCorr i j c : Nat) : Nat := (i * nChan + j) * nCorr + c

private theorem chan_index (nCorr : Nat) (ks : List K) (cond : K → Prop) (i i' j c : Nat)
    (hc : c < nCorr) (hj : j < ks.length) :
    Chan nCorr ks (i * (nCorr * ks.length)) cond (index ks.length nCorr i' j c) ↔
      i' = i ∧ ∃ κ, ks[j]? = some κ ∧ cond κ := by
  have hpos : 0 < nCorr := by omega
  have e : index ks.length nCorr i' j c = i' * (nCorr * ks.length) + (j * nCorr + c) := by
    rw [index]; ring
  simp only [Chan]
  rw [e]
  have hlt : j * nCorr + c < nCorr * ks.length := by
    have : (j + 1) * nCorr ≤ ks.length * nCorr := Nat.mul_le_mul_right _ hj
    rw [Nat.add_mul, Nat.one_mul] at this
    rw [Nat.mul_comm nCorr]
    omega
  generalize hS : nCorr * ks.length = S at *
  rcases Nat.lt_trichotomy i' i with h | h | h
  · have : (i' + 1) * S ≤ i * S := Nat.mul_le_mul_right _ h
    rw [Nat.add_mul, Nat.one_mul] at this
    constructor
    · intro h'; omega
    · intro h'; omega
  · subst h
    have e1 : i' * S + (j * nCorr + c) - i' * S = j * nCorr + c := by omega
    have e2 : (j * nCorr + c) / nCorr = j := by
      rw [Nat.mul_comm, Nat.mul_add_div hpos, Nat.div_eq_of_lt hc, Nat.add_zero]
    rw [e1, e2]
    simp
  · have hle : (i + 1) * S ≤ i' * S := Nat.mul_le_mul_right _ h
    rw [Nat.add_mul, Nat.one_mul] at hle
    constructor
    · rintro ⟨-, κ, hκ, -⟩
      have h1 := (List.getElem?_eq_some_iff.mp hκ).1
      rw [Nat.div_lt_iff_lt_mul hpos, Nat.mul_comm ks.length, hS] at h1
      omega
    · intro h'; omega

private theorem index_lt {nChan nCorr i j c n : Nat} (hi : i < n) (hj : j < nChan) (hc : c < nCorr) :
    index nChan nCorr i j c < n * (nCorr * nChan) := by
  have h1 : i * nChan + j + 1 ≤ n * nChan := by
    have : (i + 1) * nChan ≤ n * nChan := Nat.mul_le_mul_right _ hi
    rw [Nat.add_mul, Nat.one_mul] at this
    omega
  have h2 : (i * nChan + j + 1) * nCorr ≤ n * nChan * nCorr := Nat.mul_le_mul_right _ h1
  rw [Nat.add_mul, Nat.one_mul] at h2
  have h3 : n * (nCorr * nChan) = n * nChan * nCorr := by ring
  rw [index, h3]
  omega

/-- What the loop has to do with baselines from a number on. -/
private def Good (sqrt : K → K) (r : Ranges (K × K)) (nCorr : Nat) (ks : List K) (ps : List (Uvw K)) (i : Nat)
    (flags out : List Bool) (counts : List (Nat × Nat)) : Prop :=
  out.length = flags.length ∧
  (∀ (i' j c : Nat) (f : Bool), j < ks.length → c < nCorr → flags[index ks.length nCorr i' j c]? = some f →
    ∃ f', out[index ks.length nCorr i' j c]? = some f' ∧
      (f' = true ↔ f = true ∨ (i ≤ i' ∧ ∃ p κ, ps[i' - i]? = some p ∧ ks[j]? = some κ ∧
        (HitM r p ∨ HitL sqrt r p κ)))) ∧
  counts.Nodup ∧
  ∀ i' j, (i', j) ∈ counts ↔ i ≤ i' ∧ i' < i + ps.length ∧ j < ks.length ∧
    out[index ks.length nCorr i' j 0]? = some true ∧ flags[index ks.length nCorr i' j 0]? = some false

private theorem loop_spec (sqrt : K → K) (r : Ranges (K × K)) (nCorr : Nat) (hc : 0 < nCorr) (ks : List K)
    (ps : List (Uvw K)) (i : Nat) (flags : List Bool)
    (hl : flags.length = (i + ps.length) * (nCorr * ks.length)) :
    ∃ out counts, loop sqrt r.flat nCorr ks.length ks ps i flags = .ok (out, counts) ∧
      Good sqrt r nCorr ks ps i flags out counts := by
  induction ps generalizing i flags with
  | nil =>
    refine ⟨flags, [], rfl, rfl, ?_, List.nodup_nil, ?_⟩
    · intro i' j c f _ _ hf
      exact ⟨f, hf, by simp⟩
    · intro i' j
      simp; omega
  | cons p ps ih =>
    have hroom : i * (nCorr * ks.length) + nCorr * ks.length ≤ flags.length := by
      rw [hl, List.length_cons]
      have : i * (nCorr * ks.length) + nCorr * ks.length = (i + 1) * (nCorr * ks.length) := by ring
      rw [this]
      exact Nat.mul_le_mul_right _ (by omega)
    obtain ⟨mid, m1, m2⟩ := doFlag_spec sqrt r p nCorr hc ks (i * (nCorr * ks.length)) flags hroom
    obtain ⟨l, l1, l2, l3⟩ := newlyFlagged_spec flags mid m2.1 nCorr hc ks.length 0 (i * (nCorr * ks.length))
      (by rw [m2.1]; exact hroom)
    obtain ⟨out, counts, e1, e2, e3, e4, e5⟩ := ih (i + 1) mid (by
      rw [m2.1, hl, List.length_cons]
      congr 1; omega)
    have hmid : ∀ (i' j c : Nat) (f : Bool), j < ks.length → c < nCorr →
        flags[index ks.length nCorr i' j c]? = some f → ∃ f', mid[index ks.length nCorr i' j c]? = some f' ∧
          (f' = true ↔ f = true ∨ (i' = i ∧ ∃ κ, ks[j]? = some κ ∧ (HitM r p ∨ HitL sqrt r p κ))) := by
      intro i' j c f hj hc' hf
      obtain ⟨f', q1, q2⟩ := m2.2 _ f hf
      exact ⟨f', q1, by rw [q2, chan_index nCorr ks _ i i' j c hc' hj]⟩
    have hfirst : ∀ j, i * (nCorr * ks.length) + nCorr * (j - 0) = index ks.length nCorr i j 0 := by
      intro j
      rw [index, Nat.sub_zero]; ring
    -- the flags of this baseline are not touched afterwards, those of later ones not before
    have hlater : ∀ j c, j < ks.length → c < nCorr →
        out[index ks.length nCorr i j c]? = mid[index ks.length nCorr i j c]? := by
      intro j c hj hc'
      have hlt : index ks.length nCorr i j c < mid.length := by
        rw [m2.1, hl]
        exact index_lt (by simp) hj hc'
      obtain ⟨f', q1, q2⟩ := e3 i j c _ hj hc' (List.getElem?_eq_getElem hlt)
      rw [q1, List.getElem?_eq_getElem hlt]
      congr 1
      rw [Bool.eq_iff_iff, q2]
      constructor
      · rintro (h | h)
        · exact h
        · omega
      · exact .inl
    have hbefore : ∀ i' j c, i + 1 ≤ i' → i' < i + (ps.length + 1) → j < ks.length → c < nCorr →
        mid[index ks.length nCorr i' j c]? = flags[index ks.length nCorr i' j c]? := by
      intro i' j c h1 h2 hj hc'
      have hlt : index ks.length nCorr i' j c < flags.length := by
        rw [hl, List.length_cons]
        exact index_lt h2 hj hc'
      obtain ⟨f', q1, q2⟩ := hmid i' j c _ hj hc' (List.getElem?_eq_getElem hlt)
      rw [q1, List.getElem?_eq_getElem hlt]
      congr 1
      rw [Bool.eq_iff_iff, q2]
      constructor
      · rintro (h | h)
        · exact h
        · omega
      · exact .inl
    refine ⟨out, l.map (fun j => (i, j)) ++ counts, ?_, e2.trans m2.1, ?_, ?_, ?_⟩
    · simp only [loop]
      rw [m1]; simp only
      rw [l1]; simp only
      rw [e1]
    · intro i' j c f hj hc' hf
      obtain ⟨f1, q1, q2⟩ := hmid i' j c f hj hc' hf
      obtain ⟨f2, q3, q4⟩ := e3 i' j c f1 hj hc' q1
      refine ⟨f2, q3, ?_⟩
      rw [q4, q2, or_assoc]
      refine or_congr Iff.rfl ?_
      constructor
      · rintro (⟨rfl, κ, hκ, hh⟩ | ⟨hle, q, κ, hq, hκ, hh⟩)
        · exact ⟨le_refl _, p, κ, by simp, hκ, hh⟩
        · refine ⟨by omega, q, κ, ?_, hκ, hh⟩
          have : i' - i = (i' - (i + 1)) + 1 := by omega
          rw [this, List.getElem?_cons_succ, hq]
      · rintro ⟨hle, q, κ, hq, hκ, hh⟩
        rcases Nat.eq_or_lt_of_le hle with h | h
        · subst h
          simp at hq
          subst hq
          exact .inl ⟨rfl, κ, hκ, hh⟩
        · have : i' - i = (i' - (i + 1)) + 1 := by omega
          rw [this, List.getElem?_cons_succ] at hq
          exact .inr ⟨h, q, κ, hq, hκ, hh⟩
    · refine List.nodup_append.mpr ⟨?_, e4, ?_⟩
      · exact l2.map fun a b h => (Prod.mk.inj h).2
      · rintro ⟨a1, a2⟩ ha ⟨b1, b2⟩ hb h
        obtain ⟨j, -, hj⟩ := List.mem_map.mp ha
        have := (e5 b1 b2).mp hb
        have h1 := (Prod.mk.inj hj).1
        have h2 := (Prod.mk.inj h).1
        omega
    · intro i' j
      rw [List.mem_append, List.mem_map, e5, List.length_cons]
      constructor
      · rintro (⟨a, ha, hab⟩ | ⟨h1, h2, h3, h4, h5⟩)
        · obtain ⟨rfl, rfl⟩ := Prod.mk.inj hab
          obtain ⟨-, h2, h3, h4⟩ := (l3 a).mp ha
          rw [hfirst] at h3 h4
          exact ⟨le_refl _, by omega, by omega, by rw [hlater a 0 (by omega) hc]; exact h3, h4⟩
        · refine ⟨by omega, by omega, h3, h4, ?_⟩
          rw [← hbefore i' j 0 h1 (by omega) h3 hc]; exact h5
      · rintro ⟨h1, h2, h3, h4, h5⟩
        rcases Nat.eq_or_lt_of_le h1 with h | h
        · subst h
          refine .inl ⟨j, ?_, rfl⟩
          rw [l3, hfirst]
          exact ⟨by omega, by omega, by rw [← hlater j 0 h3 hc]; exact h4, h5⟩
        · exact .inr ⟨h, by omega, h3, h4, by rw [hbefore i' j 0 h h2 h3 hc]; exact h5⟩

/-! ## C50 -/

/-- C50: in a regular buffer the flag of each visibility is set if it was set or the visibility is strictly
inside a range; all others are as before. Each channel of a baseline that was not flagged before and is now is
counted once. The squared ranges of `uvm` are as read, see `read_ranges`. -/
theorem process_exact (sqrt : K → K) (r : Ranges (K × K)) (nCorr : Nat) (hc : 0 < nCorr) (ks : List K)
    (others : List (List K)) (ps : List (Uvw K)) (flags : List Bool)
    (hl : flags.length = ps.length * (nCorr * ks.length)) :
    ∃ out counts, process sqrt r.flat nCorr ks.length (ks :: others) ps flags = .ok (out, counts) ∧
      out.length = flags.length ∧
      (∀ (i j c : Nat) (p : Uvw K) (κ : K), ps[i]? = some p → ks[j]? = some κ → c < nCorr →
        ∃ f f', flags[index ks.length nCorr i j c]? = some f ∧ out[index ks.length nCorr i j c]? = some f' ∧
          (f' = true ↔ f = true ∨ HitM r p ∨ HitL sqrt r p κ)) ∧
      counts.Nodup ∧
      ∀ i j, (i, j) ∈ counts ↔ i < ps.length ∧ j < ks.length ∧
        out[index ks.length nCorr i j 0]? = some true ∧ flags[index ks.length nCorr i j 0]? = some false := by
  have hflag : ∀ (i j c : Nat) (p : Uvw K) (κ : K), ps[i]? = some p → ks[j]? = some κ → c < nCorr →
      ∃ f, flags[index ks.length nCorr i j c]? = some f := by
    intro i j c p κ hp hk hc'
    refine ⟨_, List.getElem?_eq_getElem ?_⟩
    rw [hl]
    exact index_lt (List.getElem?_eq_some_iff.mp hp).1 (List.getElem?_eq_some_iff.mp hk).1 hc'
  by_cases hd : degenerate r.flat
  · refine ⟨flags, [], by rw [process, if_pos hd], rfl, ?_, List.nodup_nil, ?_⟩
    · intro i j c p κ hp hk hc'
      obtain ⟨f, hf⟩ := hflag i j c p κ hp hk hc'
      refine ⟨f, f, hf, hf, ?_⟩
      have hempty : ∀ l : List (K × K), (flat l).length = 0 → l = [] := by
        intro l h; cases l with
        | nil => rfl
        | cons _ _ => simp [flat] at h
      have hd := of_decide_eq_true hd
      simp only [Ranges.flat] at hd
      have h1 := hempty r.uvm (by omega)
      have h2 := hempty r.um (by omega)
      have h3 := hempty r.vm (by omega)
      have h4 := hempty r.wm (by omega)
      have h5 := hempty r.uvl (by omega)
      have h6 := hempty r.ul (by omega)
      have h7 := hempty r.vl (by omega)
      have h8 := hempty r.wl (by omega)
      simp [HitM, HitL, Inside, h1, h2, h3, h4, h5, h6, h7, h8]
    · intro i j
      constructor
      · simp
      · rintro ⟨-, -, h1, h2⟩
        rw [h1] at h2
        simp at h2
  · obtain ⟨out, counts, e1, e2, e3, e4, e5⟩ := loop_spec sqrt r nCorr hc ks ps 0 flags
      (by rw [Nat.zero_add]; exact hl)
    refine ⟨out, counts, by rw [process, if_neg hd]; exact e1, e2, ?_, e4, ?_⟩
    · intro i j c p κ hp hk hc'
      obtain ⟨f, hf⟩ := hflag i j c p κ hp hk hc'
      obtain ⟨f', q1, q2⟩ := e3 i j c f (List.getElem?_eq_some_iff.mp hk).1 hc' hf
      refine ⟨f, f', hf, q1, ?_⟩
      rw [q2]
      refine or_congr Iff.rfl ?_
      constructor
      · rintro ⟨-, p', κ', hp', hk', h⟩
        rw [Nat.sub_zero, hp] at hp'
        rw [hk] at hk'
        cases hp'; cases hk'
        exact h
      · intro h
        exact ⟨Nat.zero_le _, p, κ, hp, hk, h⟩
    · intro i j
      rw [e5, Nat.zero_add]
      simp

/-- C50: the same for a row of a BDA buffer, with the wavelengths of its baseline. -/
theorem process_row_exact (sqrt : K → K) (r : Ranges (K × K)) (recWavel : List (List K)) (row : Row K)
    (ks : List K) (hk : recWavel[row.baseline]? = some ks) (hc : 0 < row.nCorr)
    (hchan : row.nChan = ks.length) (hl : row.flags.length = row.nCorr * row.nChan) :
    ∃ out counts, processRow sqrt r.flat recWavel row = .ok (out, counts) ∧ out.length = row.flags.length ∧
      (∀ (j c : Nat) (κ : K), ks[j]? = some κ → c < row.nCorr →
        ∃ f f', row.flags[j * row.nCorr + c]? = some f ∧ out[j * row.nCorr + c]? = some f' ∧
          (f' = true ↔ f = true ∨ HitM r row.uvw ∨ HitL sqrt r row.uvw κ)) ∧
      counts.Nodup ∧
      ∀ i j, (i, j) ∈ counts ↔ i = row.baseline ∧ j < row.nChan ∧
        out[j * row.nCorr]? = some true ∧ row.flags[j * row.nCorr]? = some false := by
  rw [hchan] at hl
  obtain ⟨out, m1, m2⟩ := doFlag_spec sqrt r row.uvw row.nCorr hc ks 0 row.flags (by omega)
  obtain ⟨l, l1, l2, l3⟩ := newlyFlagged_spec row.flags out m2.1 row.nCorr hc ks.length 0 0
    (by rw [m2.1]; omega)
  refine ⟨out, l.map fun j => (row.baseline, j), ?_, m2.1, ?_, ?_, ?_⟩
  · rw [processRow, hk]; simp only
    rw [hchan, m1]; simp only
    rw [l1]
  · intro j c κ hκ hc'
    have hj := (List.getElem?_eq_some_iff.mp hκ).1
    have hlt : j * row.nCorr + c < row.flags.length := by
      have := index_lt (nChan := ks.length) (i := 0) (n := 1) (by omega) hj hc'
      rw [index, Nat.zero_mul, Nat.zero_add, Nat.one_mul] at this
      rw [hl]; exact this
    obtain ⟨f', q1, q2⟩ := m2.2 _ _ (List.getElem?_eq_getElem hlt)
    refine ⟨_, f', List.getElem?_eq_getElem hlt, q1, ?_⟩
    have hx := chan_index row.nCorr ks (fun κ => HitM r row.uvw ∨ HitL sqrt r row.uvw κ) 0 0 j c hc' hj
    simp only [index, Nat.zero_mul, Nat.zero_add, true_and] at hx
    rw [q2, hx]
    refine or_congr Iff.rfl ⟨?_, fun h => ⟨κ, hκ, h⟩⟩
    rintro ⟨κ', h1, h2⟩
    rw [hκ] at h1
    cases h1
    exact h2
  · exact l2.map fun a b h => (Prod.mk.inj h).2
  · intro i j
    rw [List.mem_map]
    have hidx : ∀ a, 0 + row.nCorr * (a - 0) = a * row.nCorr := by intro a; rw [Nat.sub_zero]; ring
    constructor
    · rintro ⟨a, ha, hab⟩
      obtain ⟨rfl, rfl⟩ := Prod.mk.inj hab
      have := (l3 a).mp ha
      rw [hidx] at this
      exact ⟨rfl, by omega, this.2.2.1, this.2.2.2⟩
    · rintro ⟨rfl, h1, h2, h3⟩
      refine ⟨j, (l3 j).mpr ?_, rfl⟩
      rw [hidx]
      exact ⟨by omega, by omega, h2, h3⟩

/-- C50: the rows of a BDA buffer are processed one by one. -/
theorem process_bda_rows (sqrt : K → K) (r : Ranges K) (hd : degenerate r = false) (recWavel : List (List K))
    (rows : List (Row K)) (outs : List (List Bool)) (counts : List (Nat × Nat)) :
    processBda sqrt r recWavel rows = .ok (outs, counts) ↔
      ∃ results, List.Forall₂ (fun row res => processRow sqrt r recWavel row = .ok res) rows results ∧
        outs = results.map (·.1) ∧ counts = results.flatMap (·.2) := by
  induction rows generalizing outs counts with
  | nil =>
    simp only [processBda, Except.ok.injEq, Prod.mk.injEq]
    constructor
    · rintro ⟨rfl, rfl⟩
      exact ⟨[], .nil, rfl, rfl⟩
    · rintro ⟨results, h, rfl, rfl⟩
      cases h
      exact ⟨rfl, rfl⟩
  | cons row rows ih =>
    rw [processBda, if_neg (by simp [hd])]
    constructor
    · intro h
      cases h1 : processRow sqrt r recWavel row with
      | error e => rw [h1] at h; simp at h
      | ok res =>
        rw [h1] at h
        simp only at h
        cases h2 : processBda sqrt r recWavel rows with
        | error e => rw [h2] at h; simp at h
        | ok q =>
          rw [h2] at h
          simp only [Except.ok.injEq, Prod.mk.injEq] at h
          obtain ⟨results, f, rfl', rfl''⟩ := (ih q.1 q.2).mp h2
          refine ⟨res :: results, .cons h1 f, ?_, ?_⟩
          · rw [← h.1, rfl']; rfl
          · rw [← h.2, rfl'']; rfl
    · rintro ⟨results, h, rfl, rfl⟩
      cases h with
      | cons h1 f =>
        rw [h1]
        simp only
        rw [(ih _ _).mpr ⟨_, f, rfl, rfl⟩]
        rfl

/-! ## The settings -/

/-- A token splits a string at its first place. -/
def FirstAt (a b : Char) (s x y : List Char) : Prop :=
  s = x ++ a :: b :: y ∧ ∀ x' y', s = x' ++ a :: b :: y' → x.length ≤ x'.length

/-- The range that a string stands for: `start..end`, or `centre+-halfwidth`. -/
def Denotes (num : List Char → Except Err K) (s : List Char) (a b : K) : Prop :=
  (∃ x y, FirstAt '.' '.' s x y ∧ num x = .ok a ∧ num y = .ok b) ∨
  ((¬ ∃ x y, s = x ++ '.' :: '.' :: y) ∧ ∃ x y v h, FirstAt '+' '-' s x y ∧ num x = .ok v ∧ num y = .ok h ∧
    a = v - h ∧ b = v + h)

/-- A value is to be flagged by the settings of a coordinate; `big` is the 1e15 of the code. -/
def Wanted (num : List Char → Except Err K) (big : K) (s : Setting K) (x : K) : Prop :=
  (∃ str ∈ s.ranges, ∃ a b, Denotes num str a b ∧ a < x ∧ x < b) ∨
  (0 < s.min ∧ -big < x ∧ x < s.min) ∨ (0 < s.max ∧ s.max < x ∧ x < big)

private theorem splitToken_none (a b : Char) (s : List Char) :
    splitToken a b s = none ↔ ¬ ∃ x y, s = x ++ a :: b :: y := by
  induction s with
  | nil => simp [splitToken]
  | cons c r ih =>
    rw [splitToken]
    split_ifs with h
    · simp only [false_iff, not_not]
      obtain ⟨rfl, h⟩ := h
      cases r with
      | nil => simp at h
      | cons d r =>
        simp at h
        subst h
        exact ⟨[], r, rfl⟩
    · rw [Option.map_eq_none_iff, ih, not_iff_not]
      constructor
      · rintro ⟨x, y, rfl⟩
        exact ⟨c :: x, y, rfl⟩
      · rintro ⟨x, y, e⟩
        cases x with
        | nil =>
          simp at e
          exact absurd ⟨e.1, by rw [e.2]; rfl⟩ h
        | cons d x =>
          simp at e
          exact ⟨x, y, e.2⟩

private theorem splitToken_some (a b : Char) (s x y : List Char) :
    splitToken a b s = some (x, y) ↔ FirstAt a b s x y := by
  induction s generalizing x y with
  | nil => simp [splitToken, FirstAt]
  | cons c r ih =>
    rw [splitToken]
    split_ifs with h
    · obtain ⟨rfl, h⟩ := h
      cases r with
      | nil => simp at h
      | cons d r =>
        simp at h
        subst h
        simp only [List.tail_cons, Option.some.injEq, Prod.mk.injEq]
        constructor
        · rintro ⟨rfl, rfl⟩
          exact ⟨rfl, fun _ _ _ => Nat.zero_le _⟩
        · rintro ⟨h1, h2⟩
          have := h2 [] r rfl
          have hx : x = [] := List.eq_nil_of_length_eq_zero (by simpa using this)
          subst hx
          simp at h1
          exact ⟨rfl, h1⟩
    · rw [Option.map_eq_some_iff]
      constructor
      · rintro ⟨⟨x0, y0⟩, h1, h2⟩
        obtain ⟨rfl, rfl⟩ := Prod.mk.inj h2
        obtain ⟨h3, h4⟩ := (ih x0 y0).mp h1
        refine ⟨by rw [h3]; rfl, ?_⟩
        intro x' y' e
        cases x' with
        | nil =>
          simp at e
          exact absurd ⟨e.1, by rw [e.2]; rfl⟩ h
        | cons d x' =>
          simp at e
          have := h4 x' y' e.2
          simpa using this
      · rintro ⟨h1, h2⟩
        cases x with
        | nil =>
          simp at h1
          exact absurd ⟨h1.1, by rw [h1.2]; rfl⟩ h
        | cons d x =>
          simp at h1
          obtain ⟨rfl, h1⟩ := h1
          refine ⟨(x, y), (ih x y).mpr ⟨h1, ?_⟩, rfl⟩
          intro x' y' e
          have := h2 (c :: x') y' (by rw [e]; rfl)
          simpa using this

private theorem twoNumbers_ok (num : List Char → Except Err K) (x y : List Char) (a b : K) :
    twoNumbers num (x, y) = .ok (a, b) ↔ num x = .ok a ∧ num y = .ok b := by
  rw [twoNumbers]
  cases num x with
  | error e => simp
  | ok v =>
    cases num y with
    | error e => simp
    | ok w => simp

/-- C50: a range string is read as the range that it stands for. -/
theorem range_read (num : List Char → Except Err K) (s : List Char) (a b : K) :
    parseRange num s = .ok (a, b) ↔ Denotes num s a b := by
  rw [parseRange]
  cases h : splitToken '.' '.' s with
  | some q =>
    obtain ⟨x, y⟩ := q
    have hf := (splitToken_some _ _ _ _ _).mp h
    simp only
    rw [twoNumbers_ok]
    constructor
    · intro h'
      exact .inl ⟨x, y, hf, h'⟩
    · rintro (⟨x', y', hf', h'⟩ | ⟨hno, -⟩)
      · have := (splitToken_some _ _ _ _ _).mpr hf'
        rw [h] at this
        simp at this
        obtain ⟨rfl, rfl⟩ := this
        exact h'
      · exact absurd ⟨x, y, hf.1⟩ hno
  | none =>
    have hno := (splitToken_none _ _ _).mp h
    have hleft : ¬ ∃ x y, FirstAt '.' '.' s x y ∧ num x = .ok a ∧ num y = .ok b := by
      rintro ⟨x, y, hf, -⟩
      exact hno ⟨x, y, hf.1⟩
    simp only [Denotes, hleft, false_or, hno, not_false_eq_true, true_and]
    cases h2 : splitToken '+' '-' s with
    | none =>
      have hno2 := (splitToken_none _ _ _).mp h2
      simp only [reduceCtorEq, false_iff]
      rintro ⟨x, y, v, hw, hf, -⟩
      exact hno2 ⟨x, y, hf.1⟩
    | some q =>
      obtain ⟨x, y⟩ := q
      have hf := (splitToken_some _ _ _ _ _).mp h2
      simp only
      constructor
      · intro h'
        cases h3 : twoNumbers num (x, y) with
        | error e => rw [h3] at h'; simp at h'
        | ok q =>
          obtain ⟨v, hw⟩ := q
          rw [h3] at h'
          simp at h'
          obtain ⟨h4, h5⟩ := (twoNumbers_ok num x y v hw).mp h3
          exact ⟨x, y, v, hw, hf, h4, h5, h'.1.symm, h'.2.symm⟩
      · rintro ⟨x', y', v, hw, hf', h4, h5, rfl, rfl⟩
        have := (splitToken_some _ _ _ _ _).mpr hf'
        rw [h2] at this
        simp at this
        obtain ⟨rfl, rfl⟩ := this
        rw [(twoNumbers_ok num x y v hw).mpr ⟨h4, h5⟩]

/-- C50: the range settings are accepted if and only if each string stands for a range; the values are
those ranges in order. -/
theorem ranges_read (num : List Char → Except Err K) (strs : List (List Char)) (vals : List K) :
    parseRanges num strs = .ok vals ↔
      ∃ ranges, vals = flat ranges ∧ List.Forall₂ (fun s p => Denotes num s p.1 p.2) strs ranges := by
  induction strs generalizing vals with
  | nil =>
    simp only [parseRanges, Except.ok.injEq]
    constructor
    · rintro rfl; exact ⟨[], rfl, .nil⟩
    · rintro ⟨ranges, rfl, h⟩; cases h; rfl
  | cons s strs ih =>
    rw [parseRanges]
    constructor
    · intro h
      cases h1 : parseRange num s with
      | error e => rw [h1] at h; simp at h
      | ok p =>
        rw [h1] at h
        simp only at h
        cases h2 : parseRanges num strs with
        | error e => rw [h2] at h; simp at h
        | ok rest =>
          rw [h2] at h
          simp only [Except.ok.injEq] at h
          obtain ⟨ranges, e, f⟩ := (ih rest).mp h2
          exact ⟨p :: ranges, by rw [← h, e]; rfl, .cons ((range_read num s p.1 p.2).mp h1) f⟩
    · rintro ⟨ranges, rfl, h⟩
      cases h with
      | cons hd f =>
        rw [(range_read num s _ _).mpr hd]
        simp only
        rw [(ih _).mpr ⟨_, rfl, f⟩]
        rfl

/-- The ranges of a coordinate as pairs. -/
private def limitPairs (big : K) (s : Setting K) : List (K × K) :=
  (if 0 < s.min then [(-big, s.min)] else []) ++ (if 0 < s.max then [(s.max, big)] else [])

private theorem limits_flat (big : K) (s : Setting K) : limits big s = flat (limitPairs big s) := by
  rw [limits, limitPairs]
  split_ifs <;> rfl

private theorem flat_append (l m : List (K × K)) : flat (l ++ m) = flat l ++ flat m := by
  rw [flat, List.flatMap_append]; rfl

private theorem flat_map (f : K → K) (l : List (K × K)) :
    (flat l).map f = flat (l.map fun p => (f p.1, f p.2)) := by
  induction l with
  | nil => rfl
  | cons p l ih =>
    have e : flat (p :: l) = p.1 :: p.2 :: flat l := rfl
    rw [e, List.map_cons, List.map_cons, ih]
    rfl

private theorem inside_append (x : K) (l m : List (K × K)) :
    Inside x (l ++ m) ↔ Inside x l ∨ Inside x m := by
  simp only [Inside, List.mem_append]
  constructor
  · rintro ⟨p, h | h, h'⟩
    · exact .inl ⟨p, h, h'⟩
    · exact .inr ⟨p, h, h'⟩
  · rintro (⟨p, h, h'⟩ | ⟨p, h, h'⟩)
    · exact ⟨p, .inl h, h'⟩
    · exact ⟨p, .inr h, h'⟩

private theorem wanted_iff (num : List Char → Except Err K) (big : K) (s : Setting K) (ranges : List (K × K))
    (hf : List.Forall₂ (fun s p => Denotes num s p.1 p.2) s.ranges ranges) (x : K) :
    Inside x (ranges ++ limitPairs big s) ↔ Wanted num big s x := by
  rw [inside_append, Wanted]
  refine or_congr ?_ ?_
  · generalize s.ranges = strs at hf
    induction hf with
    | nil => simp [Inside]
    | @cons str p strs ranges hd f ih =>
      simp only [Inside, List.mem_cons] at ih ⊢
      constructor
      · rintro ⟨q, rfl | hq, h⟩
        · exact ⟨str, .inl rfl, q.1, q.2, hd, h⟩
        · obtain ⟨t, ht, rest⟩ := ih.mp ⟨q, hq, h⟩
          exact ⟨t, .inr ht, rest⟩
      · rintro ⟨t, rfl | ht, a, b, hd', h⟩
        · refine ⟨p, .inl rfl, ?_⟩
          have h1 := (range_read num t p.1 p.2).mpr hd
          rw [(range_read num t a b).mpr hd'] at h1
          simp only [Except.ok.injEq] at h1
          obtain ⟨rfl, rfl⟩ := Prod.mk.inj h1
          exact h
        · obtain ⟨q, hq, h'⟩ := ih.mpr ⟨t, ht, a, b, hd', h⟩
          exact ⟨q, .inr hq, h'⟩
  · rw [limitPairs, inside_append]
    refine or_congr ?_ ?_
    · split_ifs with h <;> simp [Inside, h]
    · split_ifs with h <;> simp [Inside, h]

/-- The ranges of the uv distance are those of a distance: they start at zero or more, or at the -1e15 of a
minimum, and do not end below zero. -/
def Distances (num : List Char → Except Err K) (big : K) (s : Setting K) : Prop :=
  ∀ str ∈ s.ranges, ∀ a b, Denotes num str a b → (0 ≤ a ∨ a = -big) ∧ 0 ≤ b

private theorem inside_square (big : K) (hbig : 0 < big) (l : List (K × K))
    (hl : ∀ p ∈ l, (0 ≤ p.1 ∨ p.1 = -big) ∧ 0 ≤ p.2) (d : K) (hd : 0 ≤ d) :
    Inside (d * d) (l.map fun p => (squareVal big p.1, squareVal big p.2)) ↔ Inside d l := by
  have hsq : ∀ x y : K, 0 ≤ x → 0 ≤ y → (x * x < y * y ↔ x < y) := by
    intro x y hx hy
    constructor
    · intro h
      by_contra hle
      have := mul_self_le_mul_self hy (not_lt.mp hle)
      linarith
    · intro h
      exact mul_self_lt_mul_self hx h
  have key : ∀ p ∈ l, (squareVal big p.1 < d * d ∧ d * d < squareVal big p.2) ↔ (p.1 < d ∧ d < p.2) := by
    intro p hp
    obtain ⟨h1, h2⟩ := hl p hp
    have hb2 : p.2 ≠ -big := by
      intro h; rw [h] at h2; linarith
    refine and_congr ?_ ?_
    · rcases h1 with h1 | h1
      · rw [squareVal, if_pos (by intro h; rw [h] at h1; linarith)]
        exact hsq _ _ h1 hd
      · rw [squareVal, if_neg (by simpa using h1), h1]
        have := mul_self_nonneg d
        constructor <;> intro <;> linarith
    · rw [squareVal, if_pos hb2]
      exact hsq _ _ hd h2
  simp only [Inside, List.mem_map]
  constructor
  · rintro ⟨q, ⟨p, hp, rfl⟩, h⟩
    exact ⟨p, hp, (key p hp).mp h⟩
  · rintro ⟨p, hp, h⟩
    exact ⟨_, ⟨p, hp, rfl⟩, (key p hp).mpr h⟩

private theorem fill_plain (num : List Char → Except Err K) (big : K) (s : Setting K) (vals : List K)
    (h : fillUVW num big s false = .ok vals) :
    ∃ ranges, vals = flat ranges ∧ ∀ x, Inside x ranges ↔ Wanted num big s x := by
  rw [fillUVW] at h
  cases h1 : parseRanges num s.ranges with
  | error e => rw [h1] at h; simp at h
  | ok l =>
    rw [h1] at h
    simp only [Bool.false_eq_true, if_false, Except.ok.injEq] at h
    obtain ⟨ranges, rfl, hf⟩ := (ranges_read num _ _).mp h1
    exact ⟨ranges ++ limitPairs big s, by rw [← h, limits_flat, flat_append], wanted_iff num big s ranges hf⟩

private theorem fill_square (num : List Char → Except Err K) (big : K) (hbig : 0 < big) (s : Setting K)
    (hs : Distances num big s) (vals : List K) (h : fillUVW num big s true = .ok vals) :
    ∃ ranges, vals = flat ranges ∧ ∀ d, 0 ≤ d → (Inside (d * d) ranges ↔ Wanted num big s d) := by
  rw [fillUVW] at h
  cases h1 : parseRanges num s.ranges with
  | error e => rw [h1] at h; simp at h
  | ok l =>
    rw [h1] at h
    simp only [if_true, Except.ok.injEq] at h
    obtain ⟨ranges, rfl, hf⟩ := (ranges_read num _ _).mp h1
    refine ⟨(ranges ++ limitPairs big s).map fun p => (squareVal big p.1, squareVal big p.2), ?_, ?_⟩
    · rw [← h, limits_flat, ← flat_append, flat_map]
    · intro d hd
      rw [inside_square big hbig _ ?_ d hd, wanted_iff num big s ranges hf]
      intro p hp
      rcases List.mem_append.mp hp with hp | hp
      · have : ∃ str ∈ s.ranges, Denotes num str p.1 p.2 := by
          clear h1 h hs
          generalize s.ranges = strs at hf
          induction hf with
          | nil => simp at hp
          | @cons str q strs ranges hd f ih =>
            rcases List.mem_cons.mp hp with rfl | hp'
            · exact ⟨str, by simp, hd⟩
            · obtain ⟨t, ht, h'⟩ := ih (List.mem_append_left _ hp') hp'
              exact ⟨t, List.mem_cons_of_mem _ ht, h'⟩
        obtain ⟨str, hstr, hden⟩ := this
        exact hs str hstr _ _ hden
      · rw [limitPairs] at hp
        rcases List.mem_append.mp hp with hp | hp
        · split_ifs at hp with hpos
          · simp at hp; rw [hp]; exact ⟨.inr rfl, hpos.le⟩
          · simp at hp
        · split_ifs at hp with hpos
          · simp at hp; rw [hp]; exact ⟨.inl hpos.le, hbig.le⟩
          · simp at hp

/-- The settings ask to flag a channel of a baseline. -/
def Asked (sqrt : K → K) (num : List Char → Except Err K) (big : K) (s : Settings K) (p : Uvw K) (κ : K) :
    Prop :=
  (Wanted num big s.uvm (sqrt (p.u * p.u + p.v * p.v)) ∨ Wanted num big s.um p.u ∨ Wanted num big s.vm p.v ∨
    Wanted num big s.wm p.w) ∨
  Wanted num big s.uvl (sqrt (p.u * p.u + p.v * p.v) * κ) ∨ Wanted num big s.ul (p.u * κ) ∨
    Wanted num big s.vl (p.v * κ) ∨ Wanted num big s.wl (p.w * κ)

private theorem read_hits (sqrt : K → K) (hsqrt : ∀ x, 0 ≤ x → 0 ≤ sqrt x ∧ sqrt x * sqrt x = x)
    (num : List Char → Except Err K) (big : K) (hbig : 0 < big) (s : Settings K)
    (hs : Distances num big s.uvm) (r : Ranges K) (h : readRanges num big s = .ok r) :
    ∃ r' : Ranges (K × K), r = r'.flat ∧
      ∀ p κ, HitM r' p ∨ HitL sqrt r' p κ ↔ Asked sqrt num big s p κ := by
  simp only [readRanges, bind, Except.bind] at h
  cases h1 : fillUVW num big s.uvm true with
  | error e => rw [h1] at h; simp at h
  | ok a1 =>
  cases h2 : fillUVW num big s.um false with
  | error e => rw [h1, h2] at h; simp at h
  | ok a2 =>
  cases h3 : fillUVW num big s.vm false with
  | error e => rw [h1, h2, h3] at h; simp at h
  | ok a3 =>
  cases h4 : fillUVW num big s.wm false with
  | error e => rw [h1, h2, h3, h4] at h; simp at h
  | ok a4 =>
  cases h5 : fillUVW num big s.uvl false with
  | error e => rw [h1, h2, h3, h4, h5] at h; simp at h
  | ok a5 =>
  cases h6 : fillUVW num big s.ul false with
  | error e => rw [h1, h2, h3, h4, h5, h6] at h; simp at h
  | ok a6 =>
  cases h7 : fillUVW num big s.vl false with
  | error e => rw [h1, h2, h3, h4, h5, h6, h7] at h; simp at h
  | ok a7 =>
  cases h8 : fillUVW num big s.wl false with
  | error e => rw [h1, h2, h3, h4, h5, h6, h7, h8] at h; simp at h
  | ok a8 =>
  rw [h1, h2, h3, h4, h5, h6, h7, h8] at h
  simp only [pure, Except.pure, Except.ok.injEq] at h
  obtain ⟨p1, e1, i1⟩ := fill_square num big hbig s.uvm hs a1 h1
  obtain ⟨p2, e2, i2⟩ := fill_plain num big s.um a2 h2
  obtain ⟨p3, e3, i3⟩ := fill_plain num big s.vm a3 h3
  obtain ⟨p4, e4, i4⟩ := fill_plain num big s.wm a4 h4
  obtain ⟨p5, e5, i5⟩ := fill_plain num big s.uvl a5 h5
  obtain ⟨p6, e6, i6⟩ := fill_plain num big s.ul a6 h6
  obtain ⟨p7, e7, i7⟩ := fill_plain num big s.vl a7 h7
  obtain ⟨p8, e8, i8⟩ := fill_plain num big s.wl a8 h8
  refine ⟨⟨p1, p2, p3, p4, p5, p6, p7, p8⟩, ?_, ?_⟩
  · rw [← h, e1, e2, e3, e4, e5, e6, e7, e8]; rfl
  · intro p κ
    have hnn : 0 ≤ p.u * p.u + p.v * p.v := add_nonneg (mul_self_nonneg _) (mul_self_nonneg _)
    obtain ⟨q1, q2⟩ := hsqrt _ hnn
    have hd := i1 _ q1
    rw [q2] at hd
    simp only [HitM, HitL, Asked, hd, i2, i3, i4, i5, i6, i7, i8]

/-- C50 (for ranges of the uv distance in metres that are distances, see `negative_uv_range`): with the settings
read, the flag of each visibility is set if and only if it was set or the settings ask for it. -/
theorem uvw_flagged_partial (sqrt : K → K) (hsqrt : ∀ x, 0 ≤ x → 0 ≤ sqrt x ∧ sqrt x * sqrt x = x)
    (num : List Char → Except Err K) (big : K) (hbig : 0 < big) (s : Settings K)
    (hs : Distances num big s.uvm) (r : Ranges K) (h : readRanges num big s = .ok r) (nCorr : Nat)
    (hc : 0 < nCorr) (ks : List K) (others : List (List K)) (ps : List (Uvw K)) (flags : List Bool)
    (hl : flags.length = ps.length * (nCorr * ks.length)) :
    ∃ out counts, process sqrt r nCorr ks.length (ks :: others) ps flags = .ok (out, counts) ∧
      out.length = flags.length ∧
      (∀ (i j c : Nat) (p : Uvw K) (κ : K), ps[i]? = some p → ks[j]? = some κ → c < nCorr →
        ∃ f f', flags[index ks.length nCorr i j c]? = some f ∧ out[index ks.length nCorr i j c]? = some f' ∧
          (f' = true ↔ f = true ∨ Asked sqrt num big s p κ)) ∧
      counts.Nodup ∧
      ∀ i j, (i, j) ∈ counts ↔ i < ps.length ∧ j < ks.length ∧
        out[index ks.length nCorr i j 0]? = some true ∧ flags[index ks.length nCorr i j 0]? = some false := by
  obtain ⟨r', rfl, hr⟩ := read_hits sqrt hsqrt num big hbig s hs r h
  obtain ⟨out, counts, e1, e2, e3, e4⟩ := process_exact sqrt r' nCorr hc ks others ps flags hl
  refine ⟨out, counts, e1, e2, ?_, e4⟩
  intro i j c p κ h1 h2 h3
  obtain ⟨f, f', q1, q2, q3⟩ := e3 i j c p κ h1 h2 h3
  exact ⟨f, f', q1, q2, by rw [q3, hr]⟩

/-- C50 (same restriction): the same for rows of BDA buffers. -/
theorem uvw_flagged_row_partial (sqrt : K → K) (hsqrt : ∀ x, 0 ≤ x → 0 ≤ sqrt x ∧ sqrt x * sqrt x = x)
    (num : List Char → Except Err K) (big : K) (hbig : 0 < big) (s : Settings K)
    (hs : Distances num big s.uvm) (r : Ranges K) (h : readRanges num big s = .ok r)
    (recWavel : List (List K)) (row : Row K) (ks : List K) (hk : recWavel[row.baseline]? = some ks)
    (hc : 0 < row.nCorr) (hchan : row.nChan = ks.length) (hl : row.flags.length = row.nCorr * row.nChan) :
    ∃ out counts, processRow sqrt r recWavel row = .ok (out, counts) ∧ out.length = row.flags.length ∧
      ∀ (j c : Nat) (κ : K), ks[j]? = some κ → c < row.nCorr →
        ∃ f f', row.flags[j * row.nCorr + c]? = some f ∧ out[j * row.nCorr + c]? = some f' ∧
          (f' = true ↔ f = true ∨ Asked sqrt num big s row.uvw κ) := by
  obtain ⟨r', rfl, hr⟩ := read_hits sqrt hsqrt num big hbig s hs r h
  obtain ⟨out, counts, e1, e2, e3, -⟩ := process_row_exact sqrt r' recWavel row ks hk hc hchan hl
  refine ⟨out, counts, e1, e2, ?_⟩
  intro j c κ h1 h2
  obtain ⟨f, f', q1, q2, q3⟩ := e3 j c κ h1 h2
  exact ⟨f, f', q1, q2, by rw [q3, hr]⟩

/-! ## Examples -/

/-- Numbers of one digit. -/
def digitNum : List Char → Except Err ℚ
  | [c] => match digitVal false c with
    | some d => .ok d
    | none => .error .throws
  | _ => .error .throws

/-- No settings of a coordinate. -/
def unset : Setting ℚ := ⟨[], 0, 0⟩

/-- A sample of settings. -/
def sampleSettings : Settings ℚ :=
  ⟨⟨["3..5".toList, "8+-1".toList], 1, 0⟩, unset, unset, ⟨[], 0, 9⟩, ⟨["3..5".toList], 0, 0⟩, unset, unset,
    unset⟩

/-- C50: a range of the uv distance that starts below zero is squared too: the range -2 to 8 becomes 4 to 64.
A distance of 1 is inside the range but is not flagged. -/
theorem negative_uv_range :
    parseRange digitNum "3+-5".toList = .ok (-2, 8) ∧
    fillUVW digitNum 1000 ⟨["3+-5".toList], 0, 0⟩ true = .ok [4, 64] ∧
    doFlag (fun x : ℚ => x) ⟨[4, 64], [], [], [], [], [], [], []⟩ ⟨1, 0, 0⟩ 1 1 [1] 0 [false] = .ok [false] := by
  decide +kernel

example : parseRange digitNum "8+-1".toList = .ok (7, 9) := by decide +kernel
example : parseRange digitNum "8-1".toList = .error .throws := by decide +kernel
example : (readRanges digitNum 1000 sampleSettings).map (fun r => (r.uvm, r.wm, r.uvl)) =
    .ok ([9, 25, 49, 81, -1000, 1], [9, 1000], [3, 5]) := by decide +kernel

example : Distances digitNum 1000 sampleSettings.uvm := by
  intro str hstr a b hd
  have := (range_read digitNum str a b).mpr hd
  simp only [sampleSettings, List.mem_cons, List.not_mem_nil, or_false] at hstr
  rcases hstr with rfl | rfl
  · have e : parseRange digitNum "3..5".toList = .ok (3, 5) := by decide +kernel
    rw [e] at this
    simp only [Except.ok.injEq, Prod.mk.injEq] at this
    rw [← this.1, ← this.2]
    exact ⟨.inl (by decide +kernel), by decide +kernel⟩
  · have e : parseRange digitNum "8+-1".toList = .ok (7, 9) := by decide +kernel
    rw [e] at this
    simp only [Except.ok.injEq, Prod.mk.injEq] at this
    rw [← this.1, ← this.2]
    exact ⟨.inl (by decide +kernel), by decide +kernel⟩

/-- Two baselines of two channels and two correlations: the first is flagged for its w; of the second, whose
root is 2 (only here the root function is constant), the second channel is in a range of wavelengths. One
of its flags was set. -/
example : process (fun _ => (2 : ℚ)) ⟨[9, 25], [], [], [9, 1000], [3, 5], [], [], []⟩ 2 2 [[1, 2]]
    [⟨0, 1, 10⟩, ⟨0, 2, 0⟩] [false, false, false, false, false, false, true, false] =
    .ok ([true, true, true, true, false, false, true, true], [(0, 0), (0, 1)]) := by decide +kernel

example : processBda (fun _ => (2 : ℚ)) ⟨[], [], [], [], [3, 5], [], [], []⟩ [[1], [1, 2]]
    [⟨1, 1, 2, ⟨0, 2, 0⟩, [false, false]⟩, ⟨0, 1, 1, ⟨0, 2, 0⟩, [false]⟩] =
    .ok ([[false, true], [false]], [(1, 1)]) := by decide +kernel

end DP3.UvwFlagger
