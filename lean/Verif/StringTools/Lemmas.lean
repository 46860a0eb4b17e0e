import Verif.StringTools.Spec

/-!
# Scanning of array strings
-/

namespace DP3.StringTools

open Items

set_option linter.unusedSimpArgs false

/-! ## The notation -/

theorem sepWith_ne {xs : Items} (h : xs ≠ .nil) (b : List Char) : sepWith xs b = ',' :: b := by
  cases xs <;> simp_all [sepWith]

@[simp] theorem append_nil (a : Items) : append a .nil = a := by
  induction a <;> simp_all [append]

theorem append_eq_nil {a b : Items} : append a b = .nil ↔ a = .nil ∧ b = .nil := by
  cases a <;> simp [append]

theorem append_assoc (a b c : Items) : append (append a b) c = append a (append b c) := by
  induction a <;> simp_all [append]

theorem addWs_eq_nil {w : List Char} {a : Items} : addWs w a = .nil ↔ a = .nil := by
  cases a <;> simp [addWs]

theorem body_addWs (w : List Char) (a : Items) (h : a ≠ .nil) : body (addWs w a) = w ++ body a := by
  cases a <;> simp_all [addWs, body]

theorem addWs_nil (a : Items) : addWs [] a = a := by
  cases a <;> simp [addWs]

theorem body_append (a b : Items) (h : a ≠ .nil) :
    body (append a b) = body a ++ sepWith b (body b) := by
  have key : ∀ (n : Items), (n ≠ .nil → body (append n b) = body n ++ sepWith b (body b)) →
      sepWith (append n b) (body (append n b)) = sepWith n (body n) ++ sepWith b (body b) := by
    intro n ih
    by_cases hn : n = .nil
    · subst hn; simp [append, sepWith]
    · rw [sepWith_ne hn, sepWith_ne (by simp [append_eq_nil, hn]), ih hn]; simp
  induction a with
  | nil => exact absurd rfl h
  | text ws s n ih => simp [append, body, key n ih]
  | quoted ws q s n ih => simp [append, body, key n ih]
  | range ws pfx lo hi sfx form w1 w2 n ih => simp [append, body, key n ih]
  | list ws i n _ ih => simp [append, body, key n ih]
  | rep ws m p i n _ ih => simp [append, body, key n ih]

theorem times_ne_nil {n : Nat} {a : Items} (hn : 0 < n) (ha : a ≠ .nil) : times n a ≠ .nil := by
  cases n with
  | zero => omega
  | succ n => simp [times, append_eq_nil, ha]

/-- Repeats replaced, ranges kept: what `expandMultString` makes. -/
def mult : Items → Items
  | .nil => .nil
  | .text ws s next => .text ws s (mult next)
  | .quoted ws q s next => .quoted ws q s (mult next)
  | .range ws pfx lo hi sfx form w1 w2 next => .range ws pfx lo hi sfx form w1 w2 (mult next)
  | .list ws inner next => .list ws (mult inner) (mult next)
  | .rep ws n _ inner next => append (addWs ws (times (number false n) (mult inner))) (mult next)

/-- The texts of a range. -/
def rangeTexts (pfx lo hi sfx : List Char) : Items :=
  texts ((between (number false lo) (number false hi)).map fun k =>
    pfx ++ withZeros lo.length k ++ sfx)

/-- Ranges replaced. -/
def rng : Items → Items
  | .nil => .nil
  | .text ws s next => .text ws s (rng next)
  | .quoted ws q s next => .quoted ws q s (rng next)
  | .range ws pfx lo hi sfx _ _ _ next => append (addWs ws (rangeTexts pfx lo hi sfx)) (rng next)
  | .list ws inner next => .list ws (rng inner) (rng next)
  | .rep ws n parens inner next => .rep ws n parens (rng inner) (rng next)

theorem between_ne (a b : Nat) : between a b ≠ [] := by
  unfold between
  split <;> simp

theorem texts_ne {l : List (List Char)} (h : l ≠ []) : texts l ≠ .nil := by
  cases l <;> simp_all [texts]

theorem rangeTexts_ne (pfx lo hi sfx : List Char) : rangeTexts pfx lo hi sfx ≠ .nil :=
  texts_ne (by simp [between_ne])

theorem rng_append (a b : Items) : rng (append a b) = append (rng a) (rng b) := by
  induction a <;> simp_all [append, rng, append_assoc]

theorem addWs_append (w : List Char) (a b : Items) (h : a ≠ .nil) :
    addWs w (append a b) = append (addWs w a) b := by
  cases a <;> simp_all [append, addWs]

theorem addWs_addWs (v w : List Char) (a : Items) : addWs v (addWs w a) = addWs (v ++ w) a := by
  cases a <;> simp [addWs]

theorem rng_addWs (w : List Char) (a : Items) : rng (addWs w a) = addWs w (rng a) := by
  cases a with
  | range ws pfx lo hi sfx form w1 w2 next =>
    have e1 : rng (addWs w (.range ws pfx lo hi sfx form w1 w2 next)) =
      append (addWs (w ++ ws) (rangeTexts pfx lo hi sfx)) (rng next) := rfl
    have e2 : rng (.range ws pfx lo hi sfx form w1 w2 next) =
      append (addWs ws (rangeTexts pfx lo hi sfx)) (rng next) := rfl
    rw [e1, e2, addWs_append _ _ _ (by simp [addWs_eq_nil, rangeTexts_ne]), addWs_addWs]
  | _ => simp [rng, addWs]

theorem rng_times (n : Nat) (a : Items) : rng (times n a) = times n (rng a) := by
  induction n <;> simp_all [times, rng, rng_append]

theorem denote_eq (xs : Items) : denote xs = rng (mult xs) := by
  induction xs with
  | nil => rfl
  | text ws s n ih => simp [denote, mult, rng, ih]
  | quoted ws q s n ih => simp [denote, mult, rng, ih]
  | range ws pfx lo hi sfx form w1 w2 n ih => simp [denote, mult, rng, ih, rangeTexts]
  | list ws i n ih1 ih2 => simp [denote, mult, rng, ih1, ih2]
  | rep ws m p i n ih1 ih2 => simp [denote, mult, rng_append, rng_addWs, rng_times, ih1, ih2]

/-- No repeats. -/
def NoRep : Items → Prop
  | .nil => True
  | .text _ _ next | .quoted _ _ _ next | .range _ _ _ _ _ _ _ _ next => NoRep next
  | .list _ inner next => NoRep inner ∧ NoRep next
  | .rep _ _ _ _ _ => False

theorem noRep_append (a b : Items) (ha : NoRep a) (hb : NoRep b) : NoRep (append a b) := by
  induction a <;> simp_all [append, NoRep]

theorem noRep_addWs (w : List Char) (a : Items) (ha : NoRep a) : NoRep (addWs w a) := by
  cases a <;> simp_all [addWs, NoRep]

theorem noRep_times (n : Nat) (a : Items) (ha : NoRep a) : NoRep (times n a) := by
  induction n with
  | zero => simp [times, NoRep]
  | succ n ih => exact noRep_append _ _ ha ih

theorem noRep_mult (xs : Items) : NoRep (mult xs) := by
  induction xs with
  | nil => simp [mult, NoRep]
  | text ws s n ih => simpa [mult, NoRep] using ih
  | quoted ws q s n ih => simpa [mult, NoRep] using ih
  | range ws pfx lo hi sfx form w1 w2 n ih => simpa [mult, NoRep] using ih
  | list ws i n ih1 ih2 => exact ⟨ih1, ih2⟩
  | rep ws m p i n ih1 ih2 =>
    exact noRep_append _ _ (noRep_addWs _ _ (noRep_times _ _ ih1)) ih2

theorem wf_append (a b : Items) (ha : WF a) (hb : WF b) : WF (append a b) := by
  induction a with
  | nil => exact hb
  | text ws s n ih => exact ⟨ha.1, ha.2.1, ha.2.2.1, ih ha.2.2.2⟩
  | quoted ws q s n ih => exact ⟨ha.1, ha.2.1, ha.2.2.1, ih ha.2.2.2⟩
  | range ws pfx lo hi sfx form w1 w2 n ih =>
    obtain ⟨h1, h2, h3, h4, h5, h6, h7, h8, h9, h10, h11, h12, h13⟩ := ha
    exact ⟨h1, h2, h3, h4, h5, h6, h7, h8, h9, h10, h11, h12, ih h13⟩
  | list ws i n _ ih => exact ⟨ha.1, ha.2.1, ih ha.2.2⟩
  | rep ws m p i n _ ih =>
    obtain ⟨h1, h2, h3, h4, h5, h6, h7⟩ := ha
    exact ⟨h1, h2, h3, h4, h5, h6, ih h7⟩

theorem blank_append {a b : List Char} (ha : Blank a) (hb : Blank b) : Blank (a ++ b) := by
  intro c hc
  rcases List.mem_append.mp hc with h | h
  · exact ha c h
  · exact hb c h

theorem wf_addWs (w : List Char) (a : Items) (hw : Blank w) (ha : WF a) : WF (addWs w a) := by
  cases a with
  | nil => trivial
  | text ws s n => exact ⟨blank_append hw ha.1, ha.2⟩
  | quoted ws q s n => exact ⟨blank_append hw ha.1, ha.2⟩
  | range ws pfx lo hi sfx form w1 w2 n => exact ⟨blank_append hw ha.1, ha.2⟩
  | list ws i n => exact ⟨blank_append hw ha.1, ha.2⟩
  | rep ws m p i n => exact ⟨blank_append hw ha.1, ha.2⟩

theorem wf_times (n : Nat) (a : Items) (ha : WF a) : WF (times n a) := by
  induction n with
  | zero => trivial
  | succ n ih => exact wf_append _ _ ha ih

theorem wf_mult (xs : Items) (h : WF xs) : WF (mult xs) := by
  induction xs with
  | nil => trivial
  | text ws s n ih => exact ⟨h.1, h.2.1, h.2.2.1, ih h.2.2.2⟩
  | quoted ws q s n ih => exact ⟨h.1, h.2.1, h.2.2.1, ih h.2.2.2⟩
  | range ws pfx lo hi sfx form w1 w2 n ih =>
    obtain ⟨h1, h2, h3, h4, h5, h6, h7, h8, h9, h10, h11, h12, h13⟩ := h
    exact ⟨h1, h2, h3, h4, h5, h6, h7, h8, h9, h10, h11, h12, ih h13⟩
  | list ws i n ih1 ih2 => exact ⟨h.1, ih1 h.2.1, ih2 h.2.2⟩
  | rep ws m p i n ih1 ih2 =>
    obtain ⟨h1, h2, h3, h4, h5, h6, h7⟩ := h
    exact wf_append _ _ (wf_addWs _ _ h1 (wf_times _ _ (ih1 h4))) (ih2 h7)

theorem mult_eq_nil (xs : Items) (h : WF xs) : mult xs = .nil ↔ xs = .nil := by
  induction xs with
  | rep ws m p i n ih1 _ =>
    obtain ⟨h1, h2, h3, h4, h5, h6, h7⟩ := h
    have : mult i ≠ .nil := fun e => h5 ((ih1 h4).mp e)
    simp [mult, append_eq_nil, addWs_eq_nil, times_ne_nil h3 this]
  | _ => simp [mult]

theorem rng_eq_nil (xs : Items) : rng xs = .nil ↔ xs = .nil := by
  cases xs <;> simp [rng, append_eq_nil, addWs_eq_nil, rangeTexts_ne]

/-! ## Characters -/

/-- No character of the list has a meaning for the scanner of repeats. -/
def Neutral (c : Char) : Prop :=
  c ∉ ['\'', '"', '[', ']', '(', ')', ',', ';', '*']

theorem Neutral.ne {c : Char} (h : Neutral c) :
    isQuote c = false ∧ c ≠ '[' ∧ c ≠ ']' ∧ c ≠ '(' ∧ c ≠ ')' ∧ c ≠ ',' ∧ c ≠ ';' ∧ c ≠ '*' := by
  simp only [Neutral, List.mem_cons, List.not_mem_nil, or_false, not_or] at h
  simp [isQuote, h]

theorem neutral_blank {ws : List Char} (h : Blank ws) : ∀ c ∈ ws, Neutral c := by
  intro c hc
  rcases h c hc with rfl | rfl <;> (unfold Neutral; decide)

theorem space_blank {ws : List Char} (h : Blank ws) : ∀ c ∈ ws, isSpace c = true := by
  intro c hc
  rcases h c hc with rfl | rfl <;> decide

theorem digit_range (c : Char) (h : isDigit c = true) :
    c ∈ ['0', '1', '2', '3', '4', '5', '6', '7', '8', '9'] := by
  have h' : 48 ≤ c.toNat ∧ c.toNat ≤ 57 := (isDigit_toNat c).mp h
  obtain ⟨l, u⟩ := h'
  generalize hn : c.toNat = n at l u
  have e : c = Char.ofNat n := by rw [← hn, Char.ofNat_toNat]
  subst e
  clear hn h
  interval_cases n <;> decide

theorem neutral_digit {c : Char} (h : isDigit c = true) : Neutral c := by
  have h' := digit_range c h
  have : ∀ d ∈ ['0', '1', '2', '3', '4', '5', '6', '7', '8', '9'], Neutral d := by
    unfold Neutral; decide
  exact this c h'

theorem digit_facts {c : Char} (h : isDigit c = true) :
    isSpace c = false ∧ c ≠ '.' ∧ endsPrefix c = false ∧ endsSuffix c = false ∧ c ≠ '{' ∧
      c ≠ '}' := by
  have h' := digit_range c h
  have : ∀ d ∈ ['0', '1', '2', '3', '4', '5', '6', '7', '8', '9'],
    isSpace d = false ∧ d ≠ '.' ∧ endsPrefix d = false ∧ endsSuffix d = false ∧ d ≠ '{' ∧
      d ≠ '}' := by decide
  exact this c h'

theorem neutral_plain {s : List Char} (h : Plain s) : ∀ c ∈ s, Neutral c := fun c hc => (h c hc).2

theorem neutral_dot : Neutral '.' := by unfold Neutral; decide

theorem neutral_rangeText {pfx lo hi sfx : List Char} {form : Form} {w1 w2 : List Char}
    (h1 : Plain pfx) (h2 : Plain sfx) (h3 : Number lo) (h4 : Number hi) (h5 : Blank w1)
    (h6 : Blank w2) : ∀ c ∈ rangeText pfx lo hi sfx form w1 w2, Neutral c := by
  have a1 := neutral_plain h1
  have a2 := neutral_plain h2
  have a3 : ∀ c ∈ lo, Neutral c := fun c hc => neutral_digit (h3.2.1 c hc)
  have a4 : ∀ c ∈ hi, Neutral c := fun c hc => neutral_digit (h4.2.1 c hc)
  have a5 := neutral_blank h5
  have a6 := neutral_blank h6
  have b1 : Neutral '{' := by unfold Neutral; decide
  have b2 : Neutral '}' := by unfold Neutral; decide
  intro c hc
  cases form <;> simp only [rangeText, List.mem_append, List.mem_cons] at hc
  · rcases hc with (((((h | h) | h) | rfl | rfl | h)) | h) | h
    exacts [a1 c h, a3 c h, a5 c h, neutral_dot, neutral_dot, a6 c h, a4 c h, a2 c h]
  · rcases hc with ((((((h | h) | h) | rfl | rfl | h)) | h) | h) | h
    exacts [a1 c h, a3 c h, a5 c h, neutral_dot, neutral_dot, a6 c h, a1 c h, a4 c h, a2 c h]
  · rcases hc with ((((h | rfl | h) | h) | rfl | rfl | h) | h) | rfl | h
    exacts [a1 c h, b1, a3 c h, a5 c h, neutral_dot, neutral_dot, a6 c h, a4 c h, b2, a2 c h]

/-! ## Balanced parts -/

/-- Put a text before the first part of a result. -/
def before (s : List Char) : Except Err (List Char × List Char) → Except Err (List Char × List Char)
  | .ok (a, b) => .ok (s ++ a, b)
  | .error e => .error e

theorem before_append (s t : List Char) (r : Except Err (List Char × List Char)) :
    before (s ++ t) r = before s (before t r) := by
  cases r with
  | error e => rfl
  | ok x => simp [before]

@[simp] theorem before_nil (r : Except Err (List Char × List Char)) : before [] r = r := by
  cases r <;> rfl

theorem bal_cons (o cl : Char) (n : Nat) (c : Char) (r : List Char) (h : ¬ (c = cl ∧ n = 1)) :
    skipBalanced o cl none n (c :: r) = before [c]
      (skipBalanced o cl (if isQuote c ∧ c ≠ cl ∧ c ≠ o then some c else none)
        (if c = cl then n - 1 else if c = o then n + 1 else n) r) := by
  rw [skipBalanced, if_neg h]
  cases skipBalanced o cl (if isQuote c ∧ c ≠ cl ∧ c ≠ o then some c else none)
        (if c = cl then n - 1 else if c = o then n + 1 else n) r <;> rfl

theorem bal_run (o cl : Char) (n : Nat) (s t : List Char)
    (h : ∀ c ∈ s, isQuote c = false ∧ c ≠ o ∧ c ≠ cl) :
    skipBalanced o cl none n (s ++ t) = before s (skipBalanced o cl none n t) := by
  induction s with
  | nil => simp
  | cons c s ih =>
    obtain ⟨h1, h2, h3⟩ := h c (by simp)
    rw [List.cons_append, bal_cons _ _ _ _ _ (by simp [h3])]
    simp only [h1, h2, h3, Bool.false_eq_true, false_and, if_false]
    rw [ih fun c hc => h c (by simp [hc])]
    exact (before_append [c] s _).symm

theorem bal_inside (o cl q : Char) (n : Nat) (s t : List Char) (h : q ∉ s) :
    skipBalanced o cl (some q) n (s ++ q :: t) = before (s ++ [q]) (skipBalanced o cl none n t) := by
  induction s with
  | nil =>
    rw [List.nil_append, skipBalanced, if_pos rfl]
    cases skipBalanced o cl none n t <;> rfl
  | cons c s ih =>
    have hc : c ≠ q := by rintro rfl; exact h (by simp)
    rw [List.cons_append, skipBalanced, if_neg hc, ih fun hm => h (by simp [hm])]
    cases skipBalanced o cl none n t <;> rfl

theorem bal_quoted (o cl q : Char) (n : Nat) (s t : List Char) (hq : q = '\'' ∨ q = '"')
    (ho : o = '[' ∧ cl = ']' ∨ o = '(' ∧ cl = ')') (h : q ∉ s) :
    skipBalanced o cl none n ((q :: s ++ [q]) ++ t) =
      before (q :: s ++ [q]) (skipBalanced o cl none n t) := by
  have h1 : isQuote q = true ∧ q ≠ cl ∧ q ≠ o := by
    rcases hq with rfl | rfl <;> rcases ho with ⟨rfl, rfl⟩ | ⟨rfl, rfl⟩ <;> decide
  have e : (q :: s ++ [q]) ++ t = q :: (s ++ q :: t) := by simp
  rw [e, bal_cons _ _ _ _ _ (by simp [h1.2.1])]
  rw [if_pos h1, if_neg h1.2.1, if_neg h1.2.2, bal_inside _ _ _ _ _ _ h]
  exact (before_append [q] (s ++ [q]) _).symm

theorem bal_neutral (o cl : Char) (n : Nat) (s t : List Char)
    (ho : o = '[' ∧ cl = ']' ∨ o = '(' ∧ cl = ')') (h : ∀ c ∈ s, Neutral c) :
    skipBalanced o cl none n (s ++ t) = before s (skipBalanced o cl none n t) := by
  apply bal_run
  intro c hc
  obtain ⟨h1, h2, h3, h4, h5, _⟩ := (h c hc).ne
  rcases ho with ⟨rfl, rfl⟩ | ⟨rfl, rfl⟩
  · exact ⟨h1, h2, h3⟩
  · exact ⟨h1, h4, h5⟩

/-- One character that is neither a quote, nor opening, nor closing. -/
theorem bal_skip (o cl : Char) (n : Nat) (c : Char) (t : List Char)
    (h : isQuote c = false ∧ c ≠ o ∧ c ≠ cl) :
    skipBalanced o cl none n (c :: t) = before [c] (skipBalanced o cl none n t) :=
  bal_run o cl n [c] t (by simpa using h)

/-- Something in parentheses or brackets, of the same or of the other kind. -/
theorem bal_enclosed (o cl o' cl' : Char) (n : Nat) (s t : List Char) (hn : 0 < n)
    (ho : o = '[' ∧ cl = ']' ∨ o = '(' ∧ cl = ')') (ho' : o' = '[' ∧ cl' = ']' ∨ o' = '(' ∧ cl' = ')')
    (hs : ∀ m, 0 < m → ∀ t, skipBalanced o cl none m (s ++ t) = before s (skipBalanced o cl none m t)) :
    skipBalanced o cl none n ((o' :: s ++ [cl']) ++ t) =
      before (o' :: s ++ [cl']) (skipBalanced o cl none n t) := by
  have e : (o' :: s ++ [cl']) ++ t = o' :: (s ++ cl' :: t) := by simp
  rw [e]
  by_cases heq : o = o'
  · have hcl : cl = cl' := by
      rcases ho with ⟨rfl, rfl⟩ | ⟨rfl, rfl⟩ <;> rcases ho' with ⟨rfl, rfl⟩ | ⟨rfl, rfl⟩ <;> simp_all
    subst heq hcl
    have h1 : isQuote o = false ∧ o ≠ cl ∧ isQuote cl = false := by
      rcases ho with ⟨rfl, rfl⟩ | ⟨rfl, rfl⟩ <;> decide
    rw [bal_cons _ _ _ _ _ (by simp [h1.2.1])]
    simp only [h1.1, h1.2.1, Bool.false_eq_true, false_and, if_false, if_true]
    rw [hs (n + 1) (by omega), bal_cons _ _ _ _ _ (by simp; omega)]
    simp only [h1.2.2, Bool.false_eq_true, false_and, if_false, if_true, Nat.add_sub_cancel]
    rw [← before_append, ← before_append]
    simp
  · have h1 : (isQuote o' = false ∧ o' ≠ o ∧ o' ≠ cl) ∧ (isQuote cl' = false ∧ cl' ≠ o ∧ cl' ≠ cl) := by
      rcases ho with ⟨rfl, rfl⟩ | ⟨rfl, rfl⟩ <;> rcases ho' with ⟨rfl, rfl⟩ | ⟨rfl, rfl⟩ <;>
        first | decide | exact absurd rfl heq
    rw [bal_skip _ _ _ _ _ h1.1, hs n hn, bal_skip _ _ _ _ _ h1.2, ← before_append, ← before_append]
    simp

theorem bal_sep (o cl : Char) (n : Nat) (next : Items) (t : List Char)
    (ho : o = '[' ∧ cl = ']' ∨ o = '(' ∧ cl = ')')
    (hs : ∀ t, skipBalanced o cl none n (body next ++ t) =
      before (body next) (skipBalanced o cl none n t)) :
    skipBalanced o cl none n (sepWith next (body next) ++ t) =
      before (sepWith next (body next)) (skipBalanced o cl none n t) := by
  by_cases hn : next = .nil
  · subst hn; simp [sepWith]
  · rw [sepWith_ne hn, List.cons_append, bal_skip, hs, ← before_append]
    · rfl
    · rcases ho with ⟨rfl, rfl⟩ | ⟨rfl, rfl⟩ <;> decide

theorem bal_body (o cl : Char) (ho : o = '[' ∧ cl = ']' ∨ o = '(' ∧ cl = ')') (xs : Items)
    (h : WF xs) : ∀ n, 0 < n → ∀ t, skipBalanced o cl none n (body xs ++ t) =
      before (body xs) (skipBalanced o cl none n t) := by
  induction xs with
  | nil => intro n _ t; simp [body]
  | text ws s next ih =>
    intro n hn t
    rw [body, List.append_assoc, List.append_assoc, bal_neutral _ _ _ _ _ ho (neutral_blank h.1),
      bal_neutral _ _ _ _ _ ho (neutral_plain h.2.1), bal_sep _ _ _ _ _ ho (ih h.2.2.2 n hn),
      ← before_append, ← before_append, List.append_assoc]
  | quoted ws q s next ih =>
    intro n hn t
    rw [body, List.append_assoc, List.append_assoc, bal_neutral _ _ _ _ _ ho (neutral_blank h.1),
      bal_quoted _ _ _ _ _ _ h.2.1 ho h.2.2.1, bal_sep _ _ _ _ _ ho (ih h.2.2.2 n hn),
      ← before_append, ← before_append, List.append_assoc]
  | range ws pfx lo hi sfx form w1 w2 next ih =>
    intro n hn t
    obtain ⟨h1, h2, h3, h4, h5, h6, h7, h8, h9, h10, h11, h12, h13⟩ := h
    rw [body, List.append_assoc, List.append_assoc, bal_neutral _ _ _ _ _ ho (neutral_blank h1),
      bal_neutral _ _ _ _ _ ho (neutral_rangeText h2 h4 h6 h7 h8 h9),
      bal_sep _ _ _ _ _ ho (ih h13 n hn), ← before_append, ← before_append, List.append_assoc]
  | list ws inner next ih1 ih2 =>
    intro n hn t
    rw [body, List.append_assoc, List.append_assoc, bal_neutral _ _ _ _ _ ho (neutral_blank h.1),
      bal_enclosed _ _ _ _ _ _ _ hn ho (.inl ⟨rfl, rfl⟩) (ih1 h.2.1),
      bal_sep _ _ _ _ _ ho (ih2 h.2.2 n hn), ← before_append, ← before_append, List.append_assoc]
  | rep ws m p inner next ih1 ih2 =>
    intro n hn t
    obtain ⟨h1, h2, h3, h4, h5, h6, h7⟩ := h
    have hstar : isQuote '*' = false ∧ '*' ≠ o ∧ '*' ≠ cl := by
      rcases ho with ⟨rfl, rfl⟩ | ⟨rfl, rfl⟩ <;> decide
    have e : ∀ (v u : List Char), (m ++ '*' :: v) ++ u = m ++ '*' :: (v ++ u) := by simp
    have hv : ∀ u, skipBalanced o cl none n
        ((if p = true then '(' :: body inner ++ [')'] else body inner) ++ u) =
        before (if p = true then '(' :: body inner ++ [')'] else body inner)
          (skipBalanced o cl none n u) := by
      intro u
      cases p with
      | true =>
        simp only [if_true]
        exact bal_enclosed _ _ _ _ _ _ _ hn ho (.inr ⟨rfl, rfl⟩) (ih1 h4)
      | false =>
        simp only [Bool.false_eq_true, if_false]
        exact ih1 h4 n hn u
    rw [body, List.append_assoc, List.append_assoc, bal_neutral _ _ _ _ _ ho (neutral_blank h1), e,
      bal_neutral _ _ _ _ _ ho (fun c hc => neutral_digit (h2.2.1 c hc)),
      bal_skip _ _ _ _ _ hstar, hv, bal_sep _ _ _ _ _ ho (ih2 h7 n hn)]
    simp only [← before_append]
    congr 1
    simp

/-- Skipping the part up to the closing parenthesis or bracket. -/
theorem bal_close (o cl : Char) (ho : o = '[' ∧ cl = ']' ∨ o = '(' ∧ cl = ')') (xs : Items)
    (h : WF xs) (t : List Char) :
    skipBalanced o cl none 1 (body xs ++ cl :: t) = .ok (body xs ++ [cl], t) := by
  rw [bal_body o cl ho xs h 1 (by omega), skipBalanced, if_pos ⟨rfl, rfl⟩]
  rfl

/-! ## Semicolons -/

theorem semi_neutral (s t : List Char) (h : ∀ c ∈ s, isQuote c = false ∧ c ≠ ';') :
    replaceSemicolon none (s ++ t) = s ++ replaceSemicolon none t := by
  induction s with
  | nil => rfl
  | cons c s ih =>
    obtain ⟨h1, h2⟩ := h c (by simp)
    simp [replaceSemicolon, h1, h2, ih fun c hc => h c (by simp [hc])]

theorem semi_inside (q : Char) (s t : List Char) (h : q ∉ s) :
    replaceSemicolon (some q) (s ++ q :: t) = s ++ q :: replaceSemicolon none t := by
  induction s with
  | nil => simp [replaceSemicolon]
  | cons c s ih =>
    have hc : c ≠ q := by rintro rfl; exact h (by simp)
    simp [replaceSemicolon, hc, ih fun hm => h (by simp [hm])]

private theorem ns {s : List Char} (h : ∀ c ∈ s, Neutral c) : ∀ c ∈ s, isQuote c = false ∧ c ≠ ';' :=
  fun c hc => ⟨(h c hc).ne.1, (h c hc).ne.2.2.2.2.2.2.1⟩

theorem semi_sep (next : Items) (t : List Char)
    (hs : ∀ t, replaceSemicolon none (body next ++ t) = body next ++ replaceSemicolon none t) :
    replaceSemicolon none (sepWith next (body next) ++ t) =
      sepWith next (body next) ++ replaceSemicolon none t := by
  by_cases hn : next = .nil
  · subst hn; simp [sepWith]
  · rw [sepWith_ne hn, List.cons_append]
    simp [replaceSemicolon, isQuote, hs]

theorem semi_enclosed (o cl : Char) (s t : List Char)
    (ho : o = '[' ∧ cl = ']' ∨ o = '(' ∧ cl = ')')
    (hs : ∀ t, replaceSemicolon none (s ++ t) = s ++ replaceSemicolon none t) :
    replaceSemicolon none ((o :: s ++ [cl]) ++ t) = (o :: s ++ [cl]) ++ replaceSemicolon none t := by
  have e : (o :: s ++ [cl]) ++ t = o :: (s ++ cl :: t) := by simp
  rw [e]
  rcases ho with ⟨rfl, rfl⟩ | ⟨rfl, rfl⟩ <;> simp [replaceSemicolon, isQuote, hs]

theorem semi_body (xs : Items) (h : WF xs) (t : List Char) :
    replaceSemicolon none (body xs ++ t) = body xs ++ replaceSemicolon none t := by
  induction xs generalizing t with
  | nil => simp [body]
  | text ws s next ih =>
    rw [body, List.append_assoc, List.append_assoc, semi_neutral _ _ (ns (neutral_blank h.1)),
      semi_neutral _ _ (ns (neutral_plain h.2.1)), semi_sep _ _ (ih h.2.2.2)]
    simp
  | quoted ws q s next ih =>
    have hq : isQuote q = true := by rcases h.2.1 with rfl | rfl <;> rfl
    have e : ∀ u : List Char, (q :: s ++ [q]) ++ u = q :: (s ++ q :: u) := by simp
    rw [body, List.append_assoc, List.append_assoc, semi_neutral _ _ (ns (neutral_blank h.1)), e,
      replaceSemicolon, if_pos hq, semi_inside _ _ _ h.2.2.1, semi_sep _ _ (ih h.2.2.2)]
    simp
  | range ws pfx lo hi sfx form w1 w2 next ih =>
    obtain ⟨h1, h2, h3, h4, h5, h6, h7, h8, h9, h10, h11, h12, h13⟩ := h
    rw [body, List.append_assoc, List.append_assoc, semi_neutral _ _ (ns (neutral_blank h1)),
      semi_neutral _ _ (ns (neutral_rangeText h2 h4 h6 h7 h8 h9)), semi_sep _ _ (ih h13)]
    simp
  | list ws inner next ih1 ih2 =>
    rw [body, List.append_assoc, List.append_assoc, semi_neutral _ _ (ns (neutral_blank h.1)),
      semi_enclosed _ _ _ _ (.inl ⟨rfl, rfl⟩) (ih1 h.2.1), semi_sep _ _ (ih2 h.2.2)]
    simp
  | rep ws m p inner next ih1 ih2 =>
    obtain ⟨h1, h2, h3, h4, h5, h6, h7⟩ := h
    have e : ∀ (v u : List Char), (m ++ '*' :: v) ++ u = (m ++ ['*']) ++ (v ++ u) := by simp
    have hm : ∀ c ∈ m ++ ['*'], isQuote c = false ∧ c ≠ ';' := by
      intro c hc
      rcases List.mem_append.mp hc with hc | hc
      · exact ns (fun c hc => neutral_digit (h2.2.1 c hc)) c hc
      · simp only [List.mem_singleton] at hc
        subst hc; decide
    have hv : ∀ u, replaceSemicolon none
        ((if p = true then '(' :: body inner ++ [')'] else body inner) ++ u) =
        (if p = true then '(' :: body inner ++ [')'] else body inner) ++ replaceSemicolon none u := by
      intro u
      cases p with
      | true =>
        simp only [if_true]
        exact semi_enclosed _ _ _ _ (.inr ⟨rfl, rfl⟩) (ih1 h4)
      | false =>
        simp only [Bool.false_eq_true, if_false]
        exact ih1 h4 u
    rw [body, List.append_assoc, List.append_assoc, semi_neutral _ _ (ns (neutral_blank h1)), e,
      semi_neutral _ _ hm, hv, semi_sep _ _ (ih2 h7)]
    simp

/-! ## The end of a value -/

theorem value_cons (fuel : Nat) (c : Char) (r : List Char) (h : Neutral c ∨ c = '*' ∨ c = ';') :
    scanValue (fuel + 1) (c :: r) = before [c] (scanValue fuel r) := by
  have h' : isQuote c = false ∧ ¬ (c = '[' ∨ c = '(') ∧ ¬ (c = ',' ∨ c = ']' ∨ c = ')') := by
    rcases h with h | rfl | rfl
    · obtain ⟨h1, h2, h3, h4, h5, h6, _⟩ := h.ne
      exact ⟨h1, by simp [h2, h4], by simp [h3, h5, h6]⟩
    · decide
    · decide
  rw [scanValue]
  simp only [h'.1, Bool.false_eq_true, if_false, if_neg h'.2.1, if_neg h'.2.2]
  cases scanValue fuel r <;> rfl

theorem value_run (fuel : Nat) (s t : List Char) (h : ∀ c ∈ s, Neutral c ∨ c = '*' ∨ c = ';') :
    scanValue (s.length + fuel) (s ++ t) = before s (scanValue fuel t) := by
  induction s with
  | nil => simp
  | cons c s ih =>
    have e : (c :: s).length + fuel = (s.length + fuel) + 1 := by simp; omega
    rw [e, List.cons_append, value_cons _ _ _ (h c (by simp)), ih fun c hc => h c (by simp [hc])]
    exact (before_append [c] s _).symm

theorem find_spec (q : Char) (s t : List Char) (h : q ∉ s) :
    findQuote q (s ++ q :: t) = some (s ++ [q], t) := by
  induction s with
  | nil => simp [findQuote]
  | cons c s ih =>
    have hc : c ≠ q := by rintro rfl; exact h (by simp)
    simp [findQuote, hc, ih fun hm => h (by simp [hm])]

/-- A single element is passed. -/
theorem value_single (xs : Items) (h : WF xs) (hs : Single xs) :
    ∃ k, k ≤ (body xs).length ∧ ∀ fuel t,
      scanValue (k + fuel) (body xs ++ t) = before (body xs) (scanValue fuel t) := by
  induction xs with
  | nil => exact absurd hs (by simp [Single])
  | text ws s next ih =>
    obtain ⟨rfl, rfl⟩ := hs
    refine ⟨s.length, by simp [body, sepWith], ?_⟩
    intro fuel t
    simp only [body, sepWith, List.nil_append, List.append_nil]
    exact value_run _ _ _ fun c hc => .inl (neutral_plain h.2.1 c hc)
  | quoted ws q s next ih =>
    obtain ⟨rfl, rfl⟩ := hs
    refine ⟨1, by simp [body, sepWith], ?_⟩
    intro fuel t
    have hq : isQuote q = true := by rcases h.2.1 with rfl | rfl <;> rfl
    have e : body (.quoted [] q s .nil) ++ t = q :: (s ++ q :: t) := by simp [body, sepWith]
    rw [e, Nat.add_comm, scanValue, if_pos hq, find_spec _ _ _ h.2.2.1]
    simp only [body, sepWith]
    cases scanValue fuel t <;> simp [before]
  | range ws pfx lo hi sfx form w1 w2 next ih =>
    obtain ⟨rfl, rfl⟩ := hs
    obtain ⟨h1, h2, h3, h4, h5, h6, h7, h8, h9, h10, h11, h12, h13⟩ := h
    refine ⟨(rangeText pfx lo hi sfx form w1 w2).length, by simp [body, sepWith], ?_⟩
    intro fuel t
    simp only [body, sepWith, List.nil_append, List.append_nil]
    exact value_run _ _ _ fun c hc => .inl (neutral_rangeText h2 h4 h6 h7 h8 h9 c hc)
  | list ws inner next ih1 ih2 =>
    obtain ⟨rfl, rfl⟩ := hs
    refine ⟨1, by simp [body, sepWith], ?_⟩
    intro fuel t
    have e : body (.list [] inner .nil) ++ t = '[' :: (body inner ++ ']' :: t) := by
      simp [body, sepWith]
    rw [e, Nat.add_comm, scanValue]
    simp only [isQuote, if_true, true_or, bal_close '[' ']' (.inl ⟨rfl, rfl⟩) inner h.2.1 t]
    simp only [body, sepWith]
    cases scanValue fuel t <;> simp [before]
  | rep ws m p inner next ih1 ih2 =>
    obtain ⟨rfl, rfl⟩ := hs
    obtain ⟨h1, h2, h3, h4, h5, h6, h7⟩ := h
    have hrun : ∀ c ∈ m ++ ['*'], Neutral c ∨ c = '*' ∨ c = ';' := by
      intro c hc
      rcases List.mem_append.mp hc with hc | hc
      · exact .inl (neutral_digit (h2.2.1 c hc))
      · simp only [List.mem_singleton] at hc
        exact .inr (.inl hc)
    cases p with
    | true =>
      refine ⟨(m ++ ['*']).length + 1, by simp [body, sepWith]; omega, ?_⟩
      intro fuel t
      have e : body (.rep [] m true inner .nil) ++ t =
          (m ++ ['*']) ++ ('(' :: (body inner ++ ')' :: t)) := by
        simp [body, sepWith]
      rw [e, Nat.add_assoc, value_run _ _ _ hrun, Nat.add_comm 1, scanValue]
      have hq : isQuote '(' = false := by decide
      have hb : ('(' = '[') = False := by decide
      simp only [hq, hb, Bool.false_eq_true, if_false, or_true, if_true,
        bal_close '(' ')' (.inr ⟨rfl, rfl⟩) inner h4 t]
      simp only [body, sepWith]
      cases scanValue fuel t <;> simp [before]
    | false =>
      obtain ⟨k, hk, hi⟩ := ih1 h4 (h6 rfl)
      refine ⟨(m ++ ['*']).length + k, by simp [body, sepWith]; omega, ?_⟩
      intro fuel t
      have e : body (.rep [] m false inner .nil) ++ t = (m ++ ['*']) ++ (body inner ++ t) := by
        simp [body, sepWith]
      rw [e, Nat.add_assoc, value_run _ _ _ hrun, hi, ← before_append]
      congr 1
      simp [body, sepWith]

/-- What follows an element: a comma or a closing bracket or parenthesis. -/
def Tail (t : List Char) : Prop := ∃ c r, t = c :: r ∧ (c = ',' ∨ c = ']' ∨ c = ')')

theorem value_stop (fuel : Nat) (t : List Char) (h : Tail t) : scanValue (fuel + 1) t = .ok ([], t) := by
  obtain ⟨c, r, rfl, h⟩ := h
  have h1 : isQuote c = false ∧ ¬ (c = '[' ∨ c = '(') := by
    rcases h with rfl | rfl | rfl <;> decide
  rw [scanValue]
  simp only [h1.1, Bool.false_eq_true, if_false, if_neg h1.2, if_pos h]

theorem repeat_else (fuel : Nat) (r : List Char) (h1 : r.head? ≠ some '[') (h2 : r.head? ≠ some '(') :
    repeatValue fuel r = scanValue fuel r := by
  unfold repeatValue
  split
  · simp at h1
  · simp at h2
  · rfl

/-- The head of a single element is not a blank and not a parenthesis; it is a bracket only for an
array. -/
theorem single_head (xs : Items) (h : WF xs) (hs : Single xs) (t : List Char) (ht : Tail t) :
    (∀ c, (body xs ++ t).head? = some c → isSpace c = false ∧ c ≠ '(') ∧
      ((body xs ++ t).head? = some '[' → ∃ inner, xs = .list [] inner .nil) := by
  obtain ⟨tc, tr, rfl, ht⟩ := ht
  have htc : isSpace tc = false ∧ tc ≠ '(' ∧ tc ≠ '[' := by
    rcases ht with rfl | rfl | rfl <;> decide
  have plain : ∀ (s : List Char), (∀ c ∈ s, isSpace c = false ∧ Neutral c) → ∀ c,
      (s ++ tc :: tr).head? = some c → isSpace c = false ∧ c ≠ '(' ∧ c ≠ '[' := by
    intro s hp c hc
    cases s with
    | nil => simp at hc; subst hc; exact htc
    | cons d s =>
      simp at hc; subst hc
      obtain ⟨h1, h2⟩ := hp d (by simp)
      exact ⟨h1, h2.ne.2.2.2.1, h2.ne.2.1⟩
  have head_of : ∀ (d : Char) (s : List Char), isSpace d = false → Neutral d → ∀ c,
      (d :: s).head? = some c → isSpace c = false ∧ c ≠ '(' ∧ c ≠ '[' := by
    intro d s h1 h2 c hc
    simp at hc; subst hc
    exact ⟨h1, h2.ne.2.2.2.1, h2.ne.2.1⟩
  have fin : (∀ c, (body xs ++ tc :: tr).head? = some c → isSpace c = false ∧ c ≠ '(' ∧ c ≠ '[') →
      (∀ c, (body xs ++ tc :: tr).head? = some c → isSpace c = false ∧ c ≠ '(') ∧
      ((body xs ++ tc :: tr).head? = some '[' → ∃ inner, xs = .list [] inner .nil) :=
    fun h => ⟨fun c hc => ⟨(h c hc).1, (h c hc).2.1⟩, fun hc => absurd rfl (h _ hc).2.2⟩
  cases xs with
  | nil => exact absurd hs (by simp [Single])
  | text ws s next =>
    obtain ⟨rfl, rfl⟩ := hs
    apply fin
    simp only [body, sepWith, List.nil_append, List.append_nil]
    exact plain s fun c hc => ⟨(h.2.1 c hc).1, (h.2.1 c hc).2⟩
  | quoted ws q s next =>
    obtain ⟨rfl, rfl⟩ := hs
    apply fin
    intro c hc
    simp [body, sepWith] at hc; subst hc
    rcases h.2.1 with rfl | rfl <;> decide
  | range ws pfx lo hi sfx form w1 w2 next =>
    obtain ⟨rfl, rfl⟩ := hs
    obtain ⟨h1, h2, h3, h4, h5, h6, h7, h8, h9, h10, h11, h12, h13⟩ := h
    apply fin
    simp only [body, sepWith, List.nil_append, List.append_nil]
    obtain ⟨d, lo', e⟩ := List.exists_cons_of_ne_nil h6.1
    have hd : isDigit d = true := h6.2.1 d (by simp [e])
    intro c hc
    cases pfx with
    | nil =>
      cases form <;> simp only [rangeText, e, List.nil_append, List.cons_append] at hc
      · exact head_of d _ (digit_facts hd).1 (neutral_digit hd) c hc
      · exact head_of d _ (digit_facts hd).1 (neutral_digit hd) c hc
      · exact head_of '{' _ (by decide) (by unfold Neutral; decide) c hc
    | cons p pfx =>
      have hp := h2 p (by simp)
      cases form <;> simp only [rangeText, List.nil_append, List.cons_append] at hc
      · exact head_of p _ hp.1 hp.2 c hc
      · exact head_of p _ hp.1 hp.2 c hc
      · exact head_of p _ hp.1 hp.2 c hc
  | list ws inner next =>
    obtain ⟨rfl, rfl⟩ := hs
    refine ⟨?_, fun _ => ⟨inner, rfl⟩⟩
    intro c hc
    simp [body, sepWith] at hc; subst hc
    decide
  | rep ws m p inner next =>
    obtain ⟨rfl, rfl⟩ := hs
    obtain ⟨h1, h2, h3, h4, h5, h6, h7⟩ := h
    apply fin
    obtain ⟨d, m', e⟩ := List.exists_cons_of_ne_nil h2.1
    have hd : isDigit d = true := h2.2.1 d (by simp [e])
    intro c hc
    simp only [body, e, List.nil_append, List.cons_append] at hc
    exact head_of d _ (digit_facts hd).1 (neutral_digit hd) c hc

/-- The value to be repeated is found. -/
theorem repeatValue_spec (p : Bool) (xs : Items) (h : WF xs) (hs : p = false → Single xs)
    (t : List Char) (ht : Tail t) (fuel : Nat) (hf : (body xs).length < fuel) :
    repeatValue fuel (lskip ((if p then '(' :: body xs ++ [')'] else body xs) ++ t)) =
      .ok (body xs, t) := by
  cases p with
  | true =>
    have e : (if true = true then '(' :: body xs ++ [')'] else body xs) ++ t =
        '(' :: (body xs ++ ')' :: t) := by simp
    rw [e]
    have hl : lskip ('(' :: (body xs ++ ')' :: t)) = '(' :: (body xs ++ ')' :: t) :=
      dropWhile_head _ (by simp; decide)
    rw [hl, repeatValue, bal_close '(' ')' (.inr ⟨rfl, rfl⟩) xs h t]
    have := semi_body xs h []
    simp only [List.append_nil, replaceSemicolon] at this
    simp [this]
  | false =>
    have hs := hs rfl
    obtain ⟨hh1, hh2⟩ := single_head xs h hs t ht
    simp only [Bool.false_eq_true, if_false]
    have hl : lskip (body xs ++ t) = body xs ++ t := dropWhile_head _ fun c hc => (hh1 c hc).1
    rw [hl]
    by_cases hb : (body xs ++ t).head? = some '['
    · obtain ⟨inner, rfl⟩ := hh2 hb
      have e : body (.list [] inner .nil) ++ t = '[' :: (body inner ++ ']' :: t) := by
        simp [body, sepWith]
      rw [e, repeatValue, bal_close '[' ']' (.inl ⟨rfl, rfl⟩) inner h.2.1 t]
      simp [body, sepWith]
    · rw [repeat_else _ _ hb fun e => (hh1 _ e).2 rfl]
      obtain ⟨k, hk, hi⟩ := value_single xs h hs
      obtain ⟨f, rfl⟩ : ∃ f, fuel = k + (f + 1) := ⟨fuel - k - 1, by omega⟩
      rw [hi, value_stop f t ht]
      simp [before]

end DP3.StringTools
