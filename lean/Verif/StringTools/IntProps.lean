import Verif.StringTools.Model
import Mathlib.Tactic.Push
import Mathlib.Tactic.ByContra
import Mathlib.Tactic.IntervalCases

/-!
# C79: integers are read exactly or refused
-/

namespace DP3.StringTools

set_option linter.unusedSimpArgs false

/-- The value of a digit: its place in the list of digits. -/
def digit (hex : Bool) (c : Char) : Option Nat :=
  if hex then ("0123456789abcdef".toList.idxOf? c).or ("0123456789ABCDEF".toList.idxOf? c)
  else "0123456789".toList.idxOf? c

/-- The value of a string of digits, most significant digit first. -/
def number (hex : Bool) : List Char → Nat
  | [] => 0
  | c :: r => (digit hex c).getD 0 * (if hex then 16 else 10) ^ r.length + number hex r

/-- An integer as it can be written: decimal digits with or without a sign, or 0x and hexadecimal
digits. -/
inductive IntLiteral : List Char → Int → Prop where
  | dec (ds : List Char) : ds ≠ [] → (∀ c ∈ ds, (digit false c).isSome) →
      IntLiteral ds (number false ds)
  | plus (ds : List Char) : ds ≠ [] → (∀ c ∈ ds, (digit false c).isSome) →
      IntLiteral ('+' :: ds) (number false ds)
  | minus (ds : List Char) : ds ≠ [] → (∀ c ∈ ds, (digit false c).isSome) →
      IntLiteral ('-' :: ds) (-(number false ds : Int))
  | hex (x : Char) (ds : List Char) : x = 'x' ∨ x = 'X' → ds ≠ [] →
      (∀ c ∈ ds, (digit true c).isSome) → IntLiteral ('0' :: x :: ds) (number true ds)

/-! ## Digits and numbers -/

private theorem char_range (c : Char) (n : Nat) (h : c.toNat = n) : c = Char.ofNat n := by
  rw [← h, Char.ofNat_toNat]

theorem isDigit_toNat (c : Char) : isDigit c = true ↔ 48 ≤ c.toNat ∧ c.toNat ≤ 57 := by
  unfold isDigit
  simp only [decide_eq_true_eq]
  exact Iff.rfl

private theorem digitVal_eq (hex : Bool) (c : Char) : digitVal hex c = digit hex c := by
  by_cases h1 : 48 ≤ c.toNat ∧ c.toNat ≤ 57
  · obtain ⟨l, u⟩ := h1
    generalize hn : c.toNat = n at l u
    have := char_range c n hn
    subst this
    clear hn
    interval_cases n <;> cases hex <;> decide
  · by_cases h2 : hex = true ∧ 97 ≤ c.toNat ∧ c.toNat ≤ 102
    · obtain ⟨rfl, l, u⟩ := h2
      generalize hn : c.toNat = n at l u
      have := char_range c n hn
      subst this
      clear hn h1
      interval_cases n <;> decide
    · by_cases h3 : hex = true ∧ 65 ≤ c.toNat ∧ c.toNat ≤ 70
      · obtain ⟨rfl, l, u⟩ := h3
        generalize hn : c.toNat = n at l u
        have := char_range c n hn
        subst this
        clear hn h1 h2
        interval_cases n <;> decide
      · have e1 : digitVal hex c = none := by
          have hd : ¬ isDigit c = true := fun h => h1 ((isDigit_toNat c).mp h)
          have ha : ¬ (hex && decide ('a' ≤ c ∧ c ≤ 'f')) = true := by
            simp only [Bool.and_eq_true, decide_eq_true_eq]
            exact fun h => h2 ⟨h.1, h.2.1, h.2.2⟩
          have hA : ¬ (hex && decide ('A' ≤ c ∧ c ≤ 'F')) = true := by
            simp only [Bool.and_eq_true, decide_eq_true_eq]
            exact fun h => h3 ⟨h.1, h.2.1, h.2.2⟩
          rw [digitVal, if_neg hd, if_neg ha, if_neg hA]
        rw [e1]
        symm
        cases hex with
        | false =>
          unfold digit
          simp only [Bool.false_eq_true, if_false]
          rw [List.idxOf?_eq_none_iff]
          intro hm
          have : ∀ d ∈ "0123456789".toList, 48 ≤ d.toNat ∧ d.toNat ≤ 57 := by decide
          exact h1 (this c hm)
        | true =>
          simp only [true_and] at h2 h3
          unfold digit
          simp only [if_true]
          have l1 : ∀ d ∈ "0123456789abcdef".toList,
              (48 ≤ d.toNat ∧ d.toNat ≤ 57) ∨ (97 ≤ d.toNat ∧ d.toNat ≤ 102) := by decide
          have l2 : ∀ d ∈ "0123456789ABCDEF".toList,
              (48 ≤ d.toNat ∧ d.toNat ≤ 57) ∨ (65 ≤ d.toNat ∧ d.toNat ≤ 70) := by decide
          rw [List.idxOf?_eq_none_iff.mpr (fun hm => (l1 c hm).elim h1 h2),
            List.idxOf?_eq_none_iff.mpr (fun hm => (l2 c hm).elim h1 h3)]
          rfl

private theorem number_fold (hex : Bool) (ds : List Char) (v : Nat) :
    ds.foldl (fun v c => (if hex then 16 else 10) * v + (digit hex c).getD 0) v =
      v * (if hex then 16 else 10) ^ ds.length + number hex ds := by
  induction ds generalizing v with
  | nil => simp [number]
  | cons c r ih =>
    rw [List.foldl_cons, ih, number, List.length_cons, Nat.pow_succ, Nat.add_mul, Nat.add_assoc]
    congr 1
    rw [Nat.mul_comm _ v, Nat.mul_assoc, Nat.mul_comm (_ ^ _)]

/-! ## Trimming -/

theorem dropWhile_append_all {p : Char → Bool} (a b : List Char) (h : ∀ c ∈ a, p c = true) :
    (a ++ b).dropWhile p = b.dropWhile p := by
  induction a with
  | nil => rfl
  | cons c a ih =>
    have := h c (by simp)
    simp [this, ih fun c hc => h c (by simp [hc])]

theorem takeWhile_append_all {p : Char → Bool} (a b : List Char) (h : ∀ c ∈ a, p c = true) :
    (a ++ b).takeWhile p = a ++ b.takeWhile p := by
  induction a with
  | nil => rfl
  | cons c a ih =>
    have := h c (by simp)
    simp [this, ih fun c hc => h c (by simp [hc])]

theorem mem_takeWhile {p : Char → Bool} (s : List Char) (c : Char) (h : c ∈ s.takeWhile p) :
    p c = true := by
  induction s with
  | nil => simp at h
  | cons d s ih =>
    by_cases hd : p d = true
    · simp only [List.takeWhile_cons, hd, if_true, List.mem_cons] at h
      rcases h with rfl | h
      · exact hd
      · exact ih h
    · simp [hd] at h

private theorem dropWhile_all {p : Char → Bool} (a : List Char) (h : ∀ c ∈ a, p c = true) :
    a.dropWhile p = [] := by
  simpa using dropWhile_append_all a [] h

theorem dropWhile_head {p : Char → Bool} (s : List Char) (h : ∀ c, s.head? = some c → p c = false) :
    s.dropWhile p = s := by
  cases s with
  | nil => rfl
  | cons c s => simp [h c rfl]

theorem takeWhile_head {p : Char → Bool} (s : List Char) (h : ∀ c, s.head? = some c → p c = false) :
    s.takeWhile p = [] := by
  cases s with
  | nil => rfl
  | cons c s => simp [h c rfl]

/-- A string is whitespace, its trimmed form, and whitespace. -/
theorem trim_decompose (s : List Char) :
    ∃ w1 w2, s = w1 ++ trim s ++ w2 ∧ lskip s = trim s ++ w2 ∧ (∀ c ∈ w1, isSpace c = true) ∧
      (∀ c ∈ w2, isSpace c = true) := by
  refine ⟨s.takeWhile isSpace, ((lskip s).reverse.takeWhile isSpace).reverse, ?_, ?_, ?_, ?_⟩
  · have e2 : trim s ++ ((lskip s).reverse.takeWhile isSpace).reverse = lskip s := by
      unfold trim rskip
      rw [← List.reverse_append, List.takeWhile_append_dropWhile, List.reverse_reverse]
    rw [List.append_assoc, e2]
    exact List.takeWhile_append_dropWhile.symm
  · unfold trim rskip
    rw [← List.reverse_append, List.takeWhile_append_dropWhile, List.reverse_reverse]
  · intro c hc
    exact mem_takeWhile _ _ hc
  · intro c hc
    exact mem_takeWhile _ _ (List.mem_reverse.mp hc)

/-- Trimming removes all surrounding whitespace. -/
theorem trim_eq (w1 b w2 : List Char) (h1 : ∀ c ∈ w1, isSpace c = true)
    (h2 : ∀ c ∈ w2, isSpace c = true) (hh : ∀ c, b.head? = some c → isSpace c = false)
    (hl : ∀ c, b.getLast? = some c → isSpace c = false) : trim (w1 ++ b ++ w2) = b := by
  unfold trim rskip lskip
  rw [List.append_assoc, dropWhile_append_all _ _ h1]
  cases b with
  | nil =>
    simp only [List.nil_append]
    rw [dropWhile_all w2 h2]
    rfl
  | cons c b =>
    rw [dropWhile_head (c :: b ++ w2) (by intro d hd; exact hh d (by simpa using hd)),
      List.reverse_append, dropWhile_append_all _ _ (by simpa using h2), dropWhile_head,
      List.reverse_reverse]
    intro d hd
    exact hl d (by rw [← hd, List.head?_reverse])

theorem trim_head (s : List Char) (c : Char) (h : (trim s).head? = some c) : isSpace c = false := by
  obtain ⟨w1, w2, _, e2, _, _⟩ := trim_decompose s
  have : (lskip s).head? = some c := by
    rw [e2, List.head?_append, h]; rfl
  unfold lskip at this
  have hn := List.head?_dropWhile_not isSpace s
  rw [this] at hn
  simpa using hn

theorem trim_last (s : List Char) (c : Char) (h : (trim s).getLast? = some c) :
    isSpace c = false := by
  unfold trim rskip at h
  rw [List.getLast?_reverse] at h
  have hn := List.head?_dropWhile_not isSpace (lskip s).reverse
  rw [h] at hn
  simpa using hn

/-! ## Digits -/

private theorem digit_not_space (hex : Bool) (c : Char) (h : (digit hex c).isSome) :
    isSpace c = false := by
  by_contra hs
  simp only [Bool.not_eq_false, isSpace, Bool.or_eq_true, beq_iff_eq] at hs
  rcases hs with ((((rfl | rfl) | rfl) | rfl) | rfl) | rfl <;> revert h <;> cases hex <;> decide

private theorem scan_spec (hex : Bool) (s : List Char) (n v : Nat) :
    ∃ ds r, s = ds ++ r ∧ (∀ c ∈ ds, (digit hex c).isSome) ∧
      (∀ c, r.head? = some c → digit hex c = none) ∧
      scanDigits hex s n v = (n + ds.length,
        ds.foldl (fun v c => (if hex then 16 else 10) * v + (digit hex c).getD 0) v, r) := by
  induction s generalizing n v with
  | nil => exact ⟨[], [], by simp [scanDigits]⟩
  | cons c s ih =>
    cases hd : digit hex c with
    | none =>
      refine ⟨[], c :: s, rfl, by simp, by simpa using hd, by simp [scanDigits, digitVal_eq, hd]⟩
    | some d =>
      obtain ⟨ds, r, h1, h2, h3, h4⟩ := ih (n + 1) ((if hex then 16 else 10) * v + d)
      refine ⟨c :: ds, r, by simp [h1], ?_, h3, ?_⟩
      · intro x hx
        rcases List.mem_cons.mp hx with rfl | hx
        · simp [hd]
        · exact h2 x hx
      · rw [scanDigits, digitVal_eq, hd]
        simp only [h4, List.length_cons, List.foldl_cons, hd, Option.getD_some]
        simp; omega

private theorem scan_exact (hex : Bool) (ds r : List Char) (h : ∀ c ∈ ds, (digit hex c).isSome)
    (hr : ∀ c, r.head? = some c → digit hex c = none) :
    scanDigits hex (ds ++ r) 0 0 = (ds.length, number hex ds, r) := by
  have gen : ∀ n v, scanDigits hex (ds ++ r) n v = (n + ds.length,
      ds.foldl (fun v c => (if hex then 16 else 10) * v + (digit hex c).getD 0) v, r) := by
    induction ds with
    | nil =>
      intro n v
      cases r with
      | nil => rfl
      | cons c r => simp [scanDigits, digitVal_eq, hr c rfl]
    | cons c ds ih =>
      intro n v
      obtain ⟨d, hd⟩ := Option.isSome_iff_exists.mp (h c (by simp))
      rw [List.cons_append, scanDigits, digitVal_eq, hd]
      simp only [ih (fun c hc => h c (by simp [hc])), List.length_cons, List.foldl_cons, hd,
        Option.getD_some]
      simp; omega
  rw [gen 0 0, number_fold]; simp

private theorem sign_not_digit : digit false '+' = none ∧ digit false '-' = none := by decide

private theorem digit_cases (c : Char) (h : (digit false c).isSome) : c ≠ '+' ∧ c ≠ '-' := by
  constructor <;> (rintro rfl; revert h; decide)

/-- `strtol` on a literal followed by something that is not a digit. -/
private theorem strtol_literal (b w : List Char) (v : Int) (h : IntLiteral b v)
    (hw : ∀ c, w.head? = some c → isSpace c = true) :
    strtol (looksHex b) (b ++ w) = (true, v, w) := by
  have hnd : ∀ hex, ∀ c, w.head? = some c → digit hex c = none := by
    intro hex c hc
    cases hd : digit hex c with
    | none => rfl
    | some d =>
      have := digit_not_space hex c (by simp [hd])
      rw [hw c hc] at this; simp at this
  cases h with
  | dec ds hne hd =>
    have hx : looksHex b = false := by
      unfold looksHex
      by_cases hl : 1 < b.length
      · have h1 : (digit false b[1]).isSome := hd _ (List.getElem_mem ..)
        have : b[1] ≠ 'x' ∧ b[1] ≠ 'X' := by
          constructor <;> (intro e; rw [e] at h1; revert h1; decide)
        simp [List.getElem?_eq_getElem hl, this.1, this.2]
      · simp; omega
    rw [hx]
    cases b with
    | nil => exact absurd rfl hne
    | cons c r =>
      have hc := digit_cases c (hd c (by simp))
      have hs := scan_exact false (c :: r) w hd (hnd false)
      unfold strtol
      simp only [Bool.false_eq_true, if_false]
      have hm : dropSign (c :: r ++ w) = c :: r ++ w := by simp [dropSign, hc.1, hc.2]
      rw [hm, hs]
      simp [hc.2]
  | plus ds hne hd =>
    have hx : looksHex ('+' :: ds) = false := by simp [looksHex]
    rw [hx]
    have hs := scan_exact false ds w hd (hnd false)
    cases ds with
    | nil => exact absurd rfl hne
    | cons c r =>
      unfold strtol
      simp only [Bool.false_eq_true, if_false, List.cons_append, dropSign, true_or, or_true,
        if_true] at hs ⊢
      rw [hs]
      simp
  | minus ds hne hd =>
    have hx : looksHex ('-' :: ds) = false := by simp [looksHex]
    rw [hx]
    have hs := scan_exact false ds w hd (hnd false)
    cases ds with
    | nil => exact absurd rfl hne
    | cons c r =>
      unfold strtol
      simp only [Bool.false_eq_true, if_false, List.cons_append, dropSign, true_or, or_true,
        if_true] at hs ⊢
      rw [hs]
      simp
  | hex x ds hx hne hd =>
    have hl : looksHex ('0' :: x :: ds) = true := by
      have : 0 < ds.length := List.length_pos_iff.mpr hne
      rcases hx with rfl | rfl <;> simp [looksHex] <;> omega
    rw [hl]
    have hs := scan_exact true ds w hd (hnd true)
    cases ds with
    | nil => exact absurd rfl hne
    | cons c r =>
      unfold strtol
      simp only [if_true, List.cons_append, List.drop_succ_cons, List.drop_zero] at hs ⊢
      rw [hs]
      simp

/-- When `strtol` stops exactly at the end of the trimmed string, that was a literal, or nothing. -/
private theorem strtol_inv (b w : List Char) (hw : ∀ c ∈ w, isSpace c = true)
    (hl : (strtol (looksHex b) (b ++ w)).2.2.length = w.length) :
    (IntLiteral b (strtol (looksHex b) (b ++ w)).2.1 ∧ (strtol (looksHex b) (b ++ w)).1 = true) ∨
      (b = [] ∧ (strtol (looksHex b) (b ++ w)).2.1 = 0 ∧
        (strtol (looksHex b) (b ++ w)).1 = false) := by
  -- a scan that ends with as many characters as w has consumed exactly the digits
  have key : ∀ hex (p q : List Char), p ++ w = q →
      ∀ n v r, scanDigits hex q 0 0 = (n, v, r) → r.length = w.length →
        n = p.length ∧ (∀ c ∈ p, (digit hex c).isSome) ∧ v = number hex p := by
    intro hex p q e n v r hs hlen
    obtain ⟨ds, r', h1, h2, h3, h4⟩ := scan_spec hex q 0 0
    rw [hs] at h4
    simp only [Prod.mk.injEq, Nat.zero_add] at h4
    obtain ⟨rfl, rfl, rfl⟩ := h4
    rw [h1] at e
    have : p = ds := by
      have := congrArg List.length e
      simp [hlen] at this
      exact (List.append_inj e (by omega)).1
    subst this
    exact ⟨rfl, h2, by rw [number_fold]; simp⟩
  cases hx : looksHex b with
  | true =>
    rw [hx] at hl
    left
    simp only [looksHex, Bool.and_eq_true, Bool.or_eq_true, decide_eq_true_eq, beq_iff_eq] at hx
    match b, hx with
    | c0 :: c1 :: ds, hx =>
      simp only [List.getElem?_cons_zero, List.getElem?_cons_succ, Option.some.injEq] at hx
      obtain ⟨⟨hlen, rfl⟩, h1⟩ := hx
      unfold strtol at hl ⊢
      simp only [if_true, List.cons_append, List.drop_succ_cons, List.drop_zero] at hl ⊢
      cases hs : scanDigits true (ds ++ w) 0 0 with
      | mk n vr =>
        obtain ⟨v, r⟩ := vr
        rw [hs] at hl
        cases n with
        | zero =>
          simp at hl; omega
        | succ n =>
          simp only at hl
          obtain ⟨k1, k2, k3⟩ := key true ds _ rfl _ _ _ hs hl
          simp only [and_true]
          rw [k3]
          exact .hex c1 ds h1 (by intro e; simp [e] at k1) k2
  | false =>
    rw [hx] at hl
    unfold strtol at hl ⊢
    simp only [Bool.false_eq_true, if_false] at hl ⊢
    match b with
    | [] =>
      simp only [List.nil_append] at hl ⊢
      right
      have hm : dropSign w = w := by
        cases w with
        | nil => rfl
        | cons c w =>
          have h1 : ¬ (c = '+' ∨ c = '-') := by
            rintro (rfl | rfl)
            · exact absurd (hw '+' (by simp)) (by decide)
            · exact absurd (hw '-' (by simp)) (by decide)
          simp [dropSign, h1]
      rw [hm] at hl ⊢
      cases hs : scanDigits false w 0 0 with
      | mk n vr =>
        obtain ⟨v, r⟩ := vr
        rw [hs] at hl
        cases n with
        | zero => simp
        | succ n =>
          simp only at hl
          have := (key false [] _ rfl _ _ _ hs hl).1
          simp at this
    | c :: b =>
      left
      by_cases hp : c = '+'
      · subst hp
        simp only [List.cons_append, dropSign, true_or, or_true, if_true] at hl ⊢
        cases hs : scanDigits false (b ++ w) 0 0 with
        | mk n vr =>
          obtain ⟨v, r⟩ := vr
          rw [hs] at hl
          cases n with
          | zero => simp at hl; omega
          | succ n =>
            simp only at hl
            obtain ⟨k1, k2, k3⟩ := key false b _ rfl _ _ _ hs hl
            simp only [List.head?_cons, and_true]
            rw [k3]
            exact .plus b (by intro e; simp [e] at k1) k2
      · by_cases hm : c = '-'
        · subst hm
          simp only [List.cons_append, dropSign, true_or, or_true, if_true] at hl ⊢
          cases hs : scanDigits false (b ++ w) 0 0 with
          | mk n vr =>
            obtain ⟨v, r⟩ := vr
            rw [hs] at hl
            cases n with
            | zero => simp at hl; omega
            | succ n =>
              simp only at hl
              obtain ⟨k1, k2, k3⟩ := key false b _ rfl _ _ _ hs hl
              simp only [List.head?_cons, and_true]
              rw [k3]
              exact .minus b (by intro e; simp [e] at k1) k2
        · have hmatch : dropSign (c :: b ++ w) = c :: b ++ w := by simp [dropSign, hp, hm]
          rw [hmatch] at hl ⊢
          cases hs : scanDigits false (c :: b ++ w) 0 0 with
          | mk n vr =>
            obtain ⟨v, r⟩ := vr
            rw [hs] at hl
            cases n with
            | zero => simp at hl; omega
            | succ n =>
              simp only at hl
              obtain ⟨k1, k2, k3⟩ := key false (c :: b) _ rfl _ _ _ hs hl
              simp only [List.cons_append, List.head?_cons, Option.some_beq_some, beq_iff_eq, hm,
                if_false, and_true]
              rw [k3]
              exact .dec (c :: b) (by simp) k2

private theorem literal_ends (b : List Char) (v : Int) (h : IntLiteral b v) :
    b ≠ [] ∧ (∀ c, b.head? = some c → isSpace c = false) ∧
      (∀ c, b.getLast? = some c → isSpace c = false) := by
  have hlast : ∀ hex (ds : List Char), (∀ c ∈ ds, (digit hex c).isSome) → ∀ c,
      ds.getLast? = some c → isSpace c = false := by
    intro hex ds hd c hc
    exact digit_not_space hex c (hd c (List.mem_of_getLast? hc))
  cases h with
  | dec ds hne hd =>
    refine ⟨hne, fun c hc => digit_not_space false c (hd c (List.mem_of_head? hc)), hlast _ _ hd⟩
  | plus ds hne hd =>
    refine ⟨by simp, by simp; decide, ?_⟩
    intro c hc
    rw [List.getLast?_cons_of_ne_nil hne] at hc
    exact hlast _ _ hd c hc
  | minus ds hne hd =>
    refine ⟨by simp, by simp; decide, ?_⟩
    intro c hc
    rw [List.getLast?_cons_of_ne_nil hne] at hc
    exact hlast _ _ hd c hc
  | hex x ds hx hne hd =>
    refine ⟨by simp, by simp; decide, ?_⟩
    intro c hc
    rw [List.getLast?_cons_of_ne_nil (by simp), List.getLast?_cons_of_ne_nil hne] at hc
    exact hlast _ _ hd c hc

/-- What the written text may look like: a literal surrounded by whitespace, or, when the C library
does not report an error for it, only whitespace, which counts as zero. -/
def Reads (einval : Bool) (s : List Char) (v : Int) : Prop :=
  ∃ w1 b w2, s = w1 ++ b ++ w2 ∧ (∀ c ∈ w1, isSpace c = true) ∧ (∀ c ∈ w2, isSpace c = true) ∧
    (IntLiteral b v ∨ (b = [] ∧ v = 0 ∧ einval = false))

private theorem reads_iff (einval : Bool) (s : List Char) (v : Int) :
    Reads einval s v ↔
      (strtol (looksHex (trim s)) (lskip s)).2.2.length + (trim s).length = (lskip s).length ∧
        (strtol (looksHex (trim s)) (lskip s)).2.1 = v ∧
        (einval && !(strtol (looksHex (trim s)) (lskip s)).1) = false := by
  constructor
  · rintro ⟨w1, b, w2, rfl, h1, h2, h⟩
    rcases h with h | ⟨rfl, rfl, rfl⟩
    · obtain ⟨_, hh, hlst⟩ := literal_ends b v h
      rw [trim_eq w1 b w2 h1 h2 hh hlst]
      have hls : lskip (w1 ++ b ++ w2) = b ++ w2 := by
        unfold lskip
        rw [List.append_assoc, dropWhile_append_all _ _ h1, dropWhile_head]
        intro c hc
        cases b with
        | nil => exact absurd rfl (literal_ends _ v h).1
        | cons d b => exact hh c (by simpa using hc)
      rw [hls, strtol_literal b w2 v h (fun c hc => h2 c (List.mem_of_head? hc))]
      simp; omega
    · have ht : trim (w1 ++ [] ++ w2) = [] := by
        rw [trim_eq w1 [] w2 h1 h2] <;> simp
      have hls : lskip (w1 ++ [] ++ w2) = [] := by
        unfold lskip
        rw [List.append_nil, dropWhile_append_all _ _ h1]
        exact dropWhile_all _ h2
      rw [ht, hls]
      decide
  · rintro ⟨hl, rfl, he⟩
    obtain ⟨w1, w2, e1, e2, h1, h2⟩ := trim_decompose s
    refine ⟨w1, trim s, w2, e1, h1, h2, ?_⟩
    rw [e2] at hl he ⊢
    rcases strtol_inv (trim s) w2 h2 (by simp at hl; omega) with ⟨hi, _⟩ | ⟨hn, h0, hc⟩
    · exact .inl hi
    · refine .inr ⟨hn, h0, ?_⟩
      rw [hc] at he
      simpa using he

/-- C79: reading a `long` succeeds with a value exactly when the text is that integer, surrounded by
whitespace, and it fits; or when the text is blank (value zero) and the C library does not object.
Otherwise an exception is thrown. -/
theorem strToLong_spec (einval : Bool) (s : List Char) (v : Int) :
    strToLong einval s = .ok v ↔ Reads einval s v ∧ -2 ^ 63 ≤ v ∧ v < 2 ^ 63 := by
  rw [reads_iff]
  simp only [strToLong]
  generalize strtol (looksHex (trim s)) (lskip s) = r
  by_cases h1 : r.2.2.length + (trim s).length = (lskip s).length
  · by_cases h2 : r.2.1 < -2 ^ 63 ∨ 2 ^ 63 ≤ r.2.1 ∨ (einval && !r.1) = true
    · simp only [h1, ne_eq, not_true_eq_false, if_false, if_pos h2, reduceCtorEq, true_and,
        false_iff]
      rintro ⟨⟨rfl, h3⟩, h4⟩
      rw [h3] at h2
      simp at h2; omega
    · have h2' := h2
      simp only [not_or] at h2
      simp only [h1, ne_eq, not_true_eq_false, if_false, if_neg h2', Except.ok.injEq, true_and]
      constructor
      · rintro rfl
        refine ⟨⟨rfl, by simpa using h2.2.2⟩, by omega, by omega⟩
      · rintro ⟨⟨h, _⟩, _⟩
        exact h
  · simp [h1]

private theorem range_spec (lo hi : Int) (x : Except Err Int) (v : Int) :
    strToRange lo hi x = .ok v ↔ x = .ok v ∧ lo ≤ v ∧ v ≤ hi := by
  cases x with
  | error e => simp [strToRange]
  | ok w =>
    unfold strToRange
    by_cases h : w < lo ∨ hi < w
    · simp only [if_pos h, reduceCtorEq, Except.ok.injEq, false_iff]
      rintro ⟨rfl, h'⟩; omega
    · simp only [if_neg h, Except.ok.injEq]
      constructor
      · rintro rfl; exact ⟨rfl, by omega, by omega⟩
      · exact fun h => h.1

/-- C79: the same for `int` and `int32_t`. -/
theorem strToInt_spec (einval : Bool) (s : List Char) (v : Int) :
    strToInt einval s = .ok v ↔ Reads einval s v ∧ -2 ^ 31 ≤ v ∧ v < 2 ^ 31 := by
  unfold strToInt
  rw [range_spec, strToLong_spec]
  constructor
  · rintro ⟨⟨h, _⟩, _⟩; exact ⟨h, by omega, by omega⟩
  · rintro ⟨h, _⟩; exact ⟨⟨h, by omega, by omega⟩, by omega, by omega⟩

/-- C79: the same for `int16_t`. -/
theorem strToInt16_spec (einval : Bool) (s : List Char) (v : Int) :
    strToInt16 einval s = .ok v ↔ Reads einval s v ∧ -2 ^ 15 ≤ v ∧ v < 2 ^ 15 := by
  unfold strToInt16
  rw [range_spec, strToLong_spec]
  constructor
  · rintro ⟨⟨h, _⟩, _⟩; exact ⟨h, by omega, by omega⟩
  · rintro ⟨h, _⟩; exact ⟨⟨h, by omega, by omega⟩, by omega, by omega⟩

/-- The text starts, after whitespace, with a minus sign. -/
def StartsMinus (s : List Char) : Prop :=
  ∃ w r, s = w ++ '-' :: r ∧ ∀ c ∈ w, isSpace c = true

private theorem startsMinus_iff (s : List Char) :
    StartsMinus s ↔ (lskip s).head? = some '-' := by
  constructor
  · rintro ⟨w, r, rfl, h⟩
    unfold lskip
    rw [dropWhile_append_all _ _ h]
    simp [isSpace]
  · intro h
    refine ⟨s.takeWhile isSpace, (lskip s).tail, ?_, fun c hc => mem_takeWhile _ _ hc⟩
    have : '-' :: (lskip s).tail = lskip s := by
      cases hl : lskip s with
      | nil => simp [hl] at h
      | cons c r => simp [hl] at h; simp [h]
    rw [this]
    exact List.takeWhile_append_dropWhile.symm

private theorem nonneg_of_noMinus (einval : Bool) (s : List Char) (v : Int) (h : Reads einval s v)
    (hm : ¬ StartsMinus s) : 0 ≤ v := by
  obtain ⟨w1, b, w2, rfl, h1, h2, h⟩ := h
  rcases h with h | ⟨_, rfl, _⟩
  · cases h with
    | dec ds _ _ => omega
    | plus ds _ _ => omega
    | minus ds _ _ => exact absurd ⟨w1, ds ++ w2, by simp, h1⟩ hm
    | hex x ds _ _ _ => omega
  · omega

/-- C79: reading an `unsigned long`: no minus sign, and the value fits. -/
theorem strToUlong_spec (einval : Bool) (s : List Char) (v : Int) :
    strToUlong einval s = .ok v ↔ Reads einval s v ∧ ¬ StartsMinus s ∧ 0 ≤ v ∧ v < 2 ^ 64 := by
  have hr := reads_iff einval s v
  by_cases hm : StartsMinus s
  · have := (startsMinus_iff s).mp hm
    simp [strToUlong, this, hm]
  · have hm' : ¬ (lskip s).head? = some '-' := fun e => hm ((startsMinus_iff s).mpr e)
    have hnn := nonneg_of_noMinus einval s v
    rw [hr] at hnn ⊢
    simp only [strToUlong, beq_iff_eq, hm', if_false]
    generalize strtol (looksHex (trim s)) (lskip s) = r at *
    by_cases h1 : r.2.2.length + (trim s).length = (lskip s).length
    · by_cases h2 : 2 ^ 64 ≤ r.2.1 ∨ (einval && !r.1) = true
      · simp only [h1, ne_eq, not_true_eq_false, if_false, if_pos h2, reduceCtorEq, true_and,
          false_iff]
        rintro ⟨⟨rfl, h3⟩, h4⟩
        rw [h3] at h2
        simp at h2; omega
      · have h2' := h2
        simp only [not_or] at h2
        simp only [h1, ne_eq, not_true_eq_false, if_false, if_neg h2', Except.ok.injEq, true_and]
        constructor
        · rintro rfl
          have h3 : (r.2.1 = r.2.1 ∧ (einval && !r.1) = false) := ⟨rfl, by simpa using h2.2⟩
          exact ⟨h3, hm, hnn ⟨h1, h3⟩ hm, by omega⟩
        · rintro ⟨⟨h, _⟩, _⟩
          exact h
    · simp [h1]

/-- C79: the same for `unsigned int` and `uint32_t`. -/
theorem strToUint32_spec (einval : Bool) (s : List Char) (v : Int) :
    strToUint32 einval s = .ok v ↔ Reads einval s v ∧ ¬ StartsMinus s ∧ 0 ≤ v ∧ v < 2 ^ 32 := by
  unfold strToUint32
  rw [range_spec, strToUlong_spec]
  constructor
  · rintro ⟨⟨h, h', _⟩, _⟩; exact ⟨h, h', by omega, by omega⟩
  · rintro ⟨h, h', _⟩; exact ⟨⟨h, h', by omega, by omega⟩, by omega, by omega⟩

/-- C79: the same for `uint16_t`. -/
theorem strToUint16_spec (einval : Bool) (s : List Char) (v : Int) :
    strToUint16 einval s = .ok v ↔ Reads einval s v ∧ ¬ StartsMinus s ∧ 0 ≤ v ∧ v < 2 ^ 16 := by
  unfold strToUint16
  rw [range_spec, strToUlong_spec]
  constructor
  · rintro ⟨⟨h, h', _⟩, _⟩; exact ⟨h, h', by omega, by omega⟩
  · rintro ⟨h, h', _⟩; exact ⟨⟨h, h', by omega, by omega⟩, by omega, by omega⟩

/-- C79: `ParameterValue::getUint32` gives the value that was written exactly when it is less than
2^31, although all values below 2^32 are accepted. -/
theorem getUint32_partial (einval : Bool) (s : List Char) (v : Int)
    (h : strToUint32 einval s = .ok v) : getUint32 einval s = .ok v ↔ v < 2 ^ 31 := by
  unfold getUint32
  rw [h]
  simp only [Except.ok.injEq]
  by_cases hv : v < 2 ^ 31
  · rw [if_pos hv]; simp only [hv]
  · rw [if_neg hv]; simp only [hv, iff_false]; omega

/-- Digits in a text, for use with the array strings. -/
theorem strToInt_digits (einval : Bool) (ds : List Char) (hne : ds ≠ [])
    (hd : ∀ c ∈ ds, isDigit c = true) (hv : number false ds < 2 ^ 31) :
    strToInt einval ds = .ok (number false ds) := by
  rw [strToInt_spec]
  refine ⟨⟨[], ds, [], by simp, by simp, by simp, .inl (.dec ds hne ?_)⟩, by omega, by omega⟩
  intro c hc
  rw [← digitVal_eq]; simp [digitVal, hd c hc]

/-- C79: a boolean is decided by its first character only. -/
theorem strToBool_spec (s : List Char) (b : Bool) :
    strToBool s = .ok b ↔ ∃ c, s.head? = some c ∧
      c ∈ (if b then ['t', 'T', '1', 'y', 'Y'] else ['f', 'F', '0', 'n', 'N']) := by
  cases s with
  | nil => simp [strToBool]
  | cons c r =>
    simp only [strToBool, List.head?_cons, Option.some.injEq, exists_eq_left']
    by_cases h1 : c = 't' ∨ c = 'T' ∨ c = '1' ∨ c = 'Y' ∨ c = 'y'
    · rw [if_pos h1]
      rcases h1 with rfl | rfl | rfl | rfl | rfl <;> cases b <;> decide
    · rw [if_neg h1]
      by_cases h2 : c = 'f' ∨ c = 'F' ∨ c = '0' ∨ c = 'N' ∨ c = 'n'
      · rw [if_pos h2]
        rcases h2 with rfl | rfl | rfl | rfl | rfl <;> cases b <;> decide
      · rw [if_neg h2]
        simp only [not_or] at h1 h2
        cases b <;> simp [h1, h2]

/-! ## Examples -/

example : strToLong false " -12 ".toList = .ok (-12) := by decide +kernel
example : strToLong false "0x1F".toList = .ok 31 := by decide +kernel
example : strToLong false "010".toList = .ok 10 := by decide +kernel
example : strToLong false "12a".toList = .error .throws := by decide +kernel
example : strToInt false "2147483648".toList = .error .throws := by decide +kernel
/-- The empty string is read as zero with glibc. -/
example : strToInt false "".toList = .ok 0 ∧ strToInt true "".toList = .error .throws := by
  decide +kernel
example : strToUint32 false "4294967295".toList = .ok 4294967295 := by decide +kernel
/-- The wrong sign. -/
example : getUint32 false "4294967295".toList = .ok (-1) := by decide +kernel
example : IntLiteral "0xfF".toList 255 := .hex 'x' ['f', 'F'] (.inl rfl) (by simp) (by decide)
example : strToBool "nonsense".toList = .ok false := by decide

end DP3.StringTools
