import Verif.StringTools.Lemmas

/-!
# C42: array strings are expanded to the list they denote
-/

namespace DP3.StringTools

open Items

set_option linter.unusedSimpArgs false

/-- From one position of a scanner to another, in a number of iterations. -/
def Reach (f : Nat → List Char → List Char → Except Err (List Char)) (p r p' r' : List Char) : Prop :=
  ∃ n, ∀ fuel, f (n + fuel) p r = f fuel p' r'

private theorem Reach.refl (f : Nat → List Char → List Char → Except Err (List Char))
    (p r : List Char) : Reach f p r p r := ⟨0, fun fuel => by rw [Nat.zero_add]⟩

private theorem Reach.trans {f : Nat → List Char → List Char → Except Err (List Char)}
    {p r p' r' p'' r'' : List Char} (h1 : Reach f p r p' r') (h2 : Reach f p' r' p'' r'') :
    Reach f p r p'' r'' := by
  obtain ⟨n, h1⟩ := h1
  obtain ⟨m, h2⟩ := h2
  exact ⟨n + m, fun fuel => by rw [Nat.add_assoc, h1, h2]⟩

/-! ## Repeats -/

private theorem mult_step (ev : Bool) (p : List Char) (c : Char) (r p' r' : List Char) (hr : r ≠ [])
    (h : ∀ fuel, r.length + 1 < fuel → multStep ev fuel p c r = .ok (p', r')) :
    Reach (expandMult ev) p (c :: r) p' r' := by
  obtain ⟨d, r, rfl⟩ := List.exists_cons_of_ne_nil hr
  refine ⟨1, fun fuel => ?_⟩
  rw [Nat.add_comm, expandMult, h _ (by simp)]

private theorem tail_ne {t : List Char} (h : Tail t) : t ≠ [] := by
  obtain ⟨c, r, rfl, _⟩ := h; simp

private theorem mult_one (ev : Bool) (p : List Char) (c : Char) (r : List Char) (hr : r ≠ [])
    (h : isQuote c = false ∧ c ≠ '*') : Reach (expandMult ev) p (c :: r) (c :: p) r :=
  mult_step ev p c r _ _ hr fun fuel _ => by simp [multStep, h.1, h.2]

private theorem mult_run (ev : Bool) (s p r : List Char) (hr : r ≠ []) (h : ∀ c ∈ s, Neutral c) :
    Reach (expandMult ev) p (s ++ r) (s.reverse ++ p) r := by
  induction s generalizing p with
  | nil => exact Reach.refl _ _ _
  | cons c s ih =>
    have hc := (h c (by simp)).ne
    have h1 := mult_one ev p c (s ++ r) (by simp [hr]) ⟨hc.1, hc.2.2.2.2.2.2.2⟩
    have h2 := ih (c :: p) fun c hc => h c (by simp [hc])
    simpa using h1.trans h2

private theorem mult_quoted (ev : Bool) (q : Char) (s p r : List Char) (hq : q = '\'' ∨ q = '"')
    (h : q ∉ s) : Reach (expandMult ev) p ((q :: s ++ [q]) ++ r) ((q :: s ++ [q]).reverse ++ p) r := by
  have hq' : isQuote q = true := by rcases hq with rfl | rfl <;> rfl
  have e : (q :: s ++ [q]) ++ r = q :: (s ++ q :: r) := by simp
  rw [e]
  refine mult_step ev p q _ _ _ (by simp) fun fuel _ => ?_
  simp [multStep, hq', find_spec q s r h]

/-- Before an element: blanks, and before them the start or a comma, bracket or parenthesis. -/
def OkPre (p : List Char) : Prop :=
  ∃ w q, p = w ++ q ∧ Blank w ∧ (q = [] ∨ ∃ c r, q = c :: r ∧ (c = ',' ∨ c = '[' ∨ c = '('))

private theorem okPre_blank {w p : List Char} (hw : Blank w) (h : OkPre p) : OkPre (w.reverse ++ p) := by
  obtain ⟨v, q, rfl, hv, hq⟩ := h
  exact ⟨w.reverse ++ v, q, by simp, blank_append (fun c hc => hw c (List.mem_reverse.mp hc)) hv, hq⟩

private theorem okPre_comma (p : List Char) : OkPre (',' :: p) :=
  ⟨[], _, rfl, by simp [Blank], .inr ⟨',', p, rfl, .inl rfl⟩⟩

private theorem okPre_bracket (p : List Char) : OkPre ('[' :: p) :=
  ⟨[], _, rfl, by simp [Blank], .inr ⟨'[', p, rfl, .inr (.inl rfl)⟩⟩

private theorem okPre_head {p : List Char} (h : OkPre p) (c : Char) (hc : p.head? = some c) :
    isDigit c = false ∧ endsPrefix c = true := by
  obtain ⟨w, q, rfl, hw, hq⟩ := h
  cases w with
  | cons d w =>
    simp at hc; subst hc
    rcases hw d (by simp) with rfl | rfl <;> decide
  | nil =>
    rcases hq with rfl | ⟨d, r, rfl, hd⟩
    · simp at hc
    · simp at hc; subst hc
      rcases hd with rfl | rfl | rfl <;> decide

private theorem numberBefore_spec (p n : List Char) (hp : OkPre p) (hn : Number n) :
    numberBefore (n.reverse ++ p) = some (n, p) := by
  have hnd : ∀ c ∈ n.reverse, isDigit c = true := fun c hc => hn.2.1 c (List.mem_reverse.mp hc)
  have hne : n.reverse ≠ [] := by simpa using hn.1
  have e1 : (n.reverse ++ p).dropWhile isSpace = n.reverse ++ p := by
    refine dropWhile_head _ ?_
    intro c hc
    obtain ⟨d, m, hm⟩ := List.exists_cons_of_ne_nil hne
    rw [hm] at hc hnd
    simp at hc; subst hc
    exact (digit_facts (hnd d (by simp))).1
  have e2 : (n.reverse ++ p).takeWhile isDigit = n.reverse := by
    rw [takeWhile_append_all _ _ hnd, takeWhile_head _ fun c hc => (okPre_head hp c hc).1]
    simp
  have e3 : (n.reverse ++ p).dropWhile isDigit = p := by
    rw [dropWhile_append_all _ _ hnd, dropWhile_head _ fun c hc => (okPre_head hp c hc).1]
  unfold numberBefore
  simp only [e1, e2, e3, List.reverse_reverse]
  obtain ⟨w, q, rfl, hw, hq⟩ := hp
  rw [dropWhile_append_all _ _ (space_blank hw)]
  rcases hq with rfl | ⟨c, r, rfl, hc⟩
  · simp [hn.1]
  · have hs : isSpace c = false := by rcases hc with rfl | rfl | rfl <;> decide
    simp [hs, hc, hn.1]

private theorem tail_sep {next : Items} {t : List Char} (ht : Tail t) :
    Tail (sepWith next (body next) ++ t) := by
  by_cases hn : next = .nil
  · subst hn; simpa [sepWith] using ht
  · rw [sepWith_ne hn]
    exact ⟨',', _, rfl, .inl rfl⟩

private theorem mult_sep (ev : Bool) (next : Items) (h : WF next) (p t : List Char) (ht : Tail t)
    (ih : ∀ p t, OkPre p → Tail t →
      Reach (expandMult ev) p (body next ++ t) ((body (mult next)).reverse ++ p) t) :
    Reach (expandMult ev) p (sepWith next (body next) ++ t)
      ((sepWith (mult next) (body (mult next))).reverse ++ p) t := by
  by_cases hn : next = .nil
  · subst hn
    simp only [mult, sepWith]
    exact Reach.refl _ _ _
  · have hm : mult next ≠ .nil := fun e => hn ((mult_eq_nil next h).mp e)
    rw [sepWith_ne hn, sepWith_ne hm]
    have h1 := mult_one ev p ',' (body next ++ t) (by simp [tail_ne ht]) (by decide)
    have h2 := ih (',' :: p) t (okPre_comma p) ht
    simpa using h1.trans h2

/-- A repeated text is scanned, each copy like one. -/
private theorem mult_copies (ev : Bool) (inner : Items)
    (hm : mult inner ≠ .nil)
    (ih : ∀ p t, OkPre p → Tail t →
      Reach (expandMult ev) p (body inner ++ t) ((body (mult inner)).reverse ++ p) t)
    (n : Nat) (hn : 0 < n) (p t : List Char) (hp : OkPre p) (ht : Tail t) :
    Reach (expandMult ev) p (joinComma (List.replicate n (body inner)) ++ t)
      ((body (times n (mult inner))).reverse ++ p) t := by
  induction n generalizing p with
  | zero => omega
  | succ n ihn =>
    cases n with
    | zero =>
      simp only [List.replicate, joinComma, times, append_nil]
      exact ih p t hp ht
    | succ n =>
      have ht' : Tail (',' :: (joinComma (List.replicate (n + 1) (body inner)) ++ t)) :=
        ⟨',', _, rfl, .inl rfl⟩
      have h1 := ih p _ hp ht'
      have h2 := mult_one ev ((body (mult inner)).reverse ++ p) ','
        (joinComma (List.replicate (n + 1) (body inner)) ++ t) (by simp [tail_ne ht]) (by decide)
      have h3 := ihn (by omega) (',' :: ((body (mult inner)).reverse ++ p)) (okPre_comma _)
      have e1 : joinComma (List.replicate (n + 1 + 1) (body inner)) ++ t =
          body inner ++ ',' :: (joinComma (List.replicate (n + 1) (body inner)) ++ t) := by
        simp [List.replicate, joinComma]
      have e2 : body (times (n + 1 + 1) (mult inner)) =
          body (mult inner) ++ ',' :: body (times (n + 1) (mult inner)) := by
        have : times (n + 1 + 1) (mult inner) = append (mult inner) (times (n + 1) (mult inner)) := rfl
        rw [this, body_append _ _ hm, sepWith_ne (times_ne_nil (by omega) hm)]
      rw [e1, e2]
      simpa using h1.trans (h2.trans h3)

/-- The first pass replaces the repeats. -/
private theorem mult_reach (ev : Bool) (xs : Items) (h : WF xs) (p t : List Char) (hp : OkPre p)
    (ht : Tail t) :
    Reach (expandMult ev) p (body xs ++ t) ((body (mult xs)).reverse ++ p) t := by
  induction xs generalizing p t with
  | nil => exact Reach.refl _ _ _
  | text ws s next ih =>
    have hne := tail_ne (tail_sep (next := next) ht)
    have h1 := mult_run ev ws p (s ++ (sepWith next (body next) ++ t)) (by simp at hne ⊢; tauto)
      (neutral_blank h.1)
    have h2 := mult_run ev s (ws.reverse ++ p) (sepWith next (body next) ++ t) hne
      (neutral_plain h.2.1)
    have h3 := mult_sep ev next h.2.2.2 (s.reverse ++ (ws.reverse ++ p)) t ht (ih h.2.2.2)
    simpa [body, mult] using h1.trans (h2.trans h3)
  | quoted ws q s next ih =>
    have hne := tail_ne (tail_sep (next := next) ht)
    have h1 := mult_run ev ws p ((q :: s ++ [q]) ++ (sepWith next (body next) ++ t)) (by simp)
      (neutral_blank h.1)
    have h2 := mult_quoted ev q s (ws.reverse ++ p) (sepWith next (body next) ++ t) h.2.1 h.2.2.1
    have h3 := mult_sep ev next h.2.2.2 ((q :: s ++ [q]).reverse ++ (ws.reverse ++ p)) t ht
      (ih h.2.2.2)
    simpa [body, mult] using h1.trans (h2.trans h3)
  | range ws pfx lo hi sfx form w1 w2 next ih =>
    obtain ⟨h1, h2, h3, h4, h5, h6, h7, h8, h9, h10, h11, h12, h13⟩ := h
    have hne := tail_ne (tail_sep (next := next) ht)
    have k1 := mult_run ev ws p (rangeText pfx lo hi sfx form w1 w2 ++
      (sepWith next (body next) ++ t)) (by simp at hne ⊢; tauto) (neutral_blank h1)
    have k2 := mult_run ev (rangeText pfx lo hi sfx form w1 w2) (ws.reverse ++ p)
      (sepWith next (body next) ++ t) hne (neutral_rangeText h2 h4 h6 h7 h8 h9)
    have k3 := mult_sep ev next h13 ((rangeText pfx lo hi sfx form w1 w2).reverse ++
      (ws.reverse ++ p)) t ht (ih h13)
    simpa [body, mult] using k1.trans (k2.trans k3)
  | list ws inner next ih1 ih2 =>
    have hne := tail_ne (tail_sep (next := next) ht)
    have k1 := mult_run ev ws p ('[' :: (body inner ++ ']' :: (sepWith next (body next) ++ t)))
      (by simp) (neutral_blank h.1)
    have k2 := mult_one ev (ws.reverse ++ p) '[' (body inner ++ ']' :: (sepWith next (body next) ++ t))
      (by simp) (by decide)
    have k3 := ih1 h.2.1 ('[' :: (ws.reverse ++ p)) (']' :: (sepWith next (body next) ++ t))
      (okPre_bracket _) ⟨']', _, rfl, by simp⟩
    have k4 := mult_one ev ((body (mult inner)).reverse ++ '[' :: (ws.reverse ++ p)) ']'
      (sepWith next (body next) ++ t) hne (by decide)
    have k5 := mult_sep ev next h.2.2
      (']' :: ((body (mult inner)).reverse ++ '[' :: (ws.reverse ++ p))) t ht (ih2 h.2.2)
    simpa [body, mult] using k1.trans (k2.trans (k3.trans (k4.trans k5)))
  | rep ws n par inner next ih1 ih2 =>
    obtain ⟨h1, h2, h3, h4, h5, h6, h7⟩ := h
    have hts := tail_sep (next := next) ht
    have hm : mult inner ≠ .nil := fun e => h5 ((mult_eq_nil inner h4).mp e)
    have hpw := okPre_blank h1 hp
    have k1 := mult_run ev ws p (n ++ '*' :: ((if par then '(' :: body inner ++ [')'] else body inner)
      ++ (sepWith next (body next) ++ t))) (by simp) (neutral_blank h1)
    have k2 := mult_run ev n (ws.reverse ++ p) ('*' :: ((if par then '(' :: body inner ++ [')']
      else body inner) ++ (sepWith next (body next) ++ t))) (by simp)
      (fun c hc => neutral_digit (h2.2.1 c hc))
    have k3 : Reach (expandMult ev) (n.reverse ++ (ws.reverse ++ p))
        ('*' :: ((if par then '(' :: body inner ++ [')'] else body inner) ++
          (sepWith next (body next) ++ t))) (ws.reverse ++ p)
        (joinComma (List.replicate (number false n) (body inner)) ++
          (sepWith next (body next) ++ t)) := by
      refine mult_step ev _ _ _ _ _ (by have := tail_ne hts; simp at this ⊢; tauto) fun fuel hf => ?_
      have hq : isQuote '*' = false := by decide
      have hval := repeatValue_spec par inner h4 h6 _ hts fuel (by
        cases par <;> simp at hf <;> omega)
      simp only [multStep, hq, Bool.false_eq_true, if_false, ne_eq, not_true_eq_false, multStar,
        numberBefore_spec _ _ hpw h2, strToInt_digits ev n h2.1 h2.2.1 h2.2.2, hval, Int.toNat_natCast]
    have k4 := mult_copies ev inner hm (fun p t hp ht => ih1 h4 p t hp ht) _ h3 _ _ hpw hts
    have k5 := mult_sep ev next h7 ((body (times (number false n) (mult inner))).reverse ++
      (ws.reverse ++ p)) t ht (ih2 h7)
    have e : body (mult (.rep ws n par inner next)) =
        ws ++ body (times (number false n) (mult inner)) ++
          sepWith (mult next) (body (mult next)) := by
      have ht' := times_ne_nil h3 hm
      rw [mult, body_append _ _ (by simp [addWs_eq_nil, ht']), body_addWs _ _ ht']
    rw [e]
    simpa [body] using k1.trans (k2.trans (k3.trans (k4.trans k5)))

/-! ## Ranges -/

private theorem noDots_cons (c : Char) (s : List Char) :
    NoDots (c :: s) ↔ ¬ (c = '.' ∧ s.head? = some '.') ∧ NoDots s := by
  constructor
  · intro h
    refine ⟨?_, fun a b e => h (c :: a) b (by simp [e])⟩
    rintro ⟨rfl, hs⟩
    cases s with
    | nil => simp at hs
    | cons d s => simp at hs; subst hs; exact h [] s rfl
  · rintro ⟨h1, h2⟩ a b e
    cases a with
    | nil => simp at e; exact h1 ⟨e.1, by simp [e.2]⟩
    | cons x a => simp at e; exact h2 a b e.2

private theorem noDots_mid (a b : List Char) (c : Char) (ha : NoDots a) (hb : NoDots b) (hc : c ≠ '.') :
    NoDots (a ++ c :: b) := by
  induction a with
  | nil => rw [List.nil_append, noDots_cons]; exact ⟨by simp [hc], hb⟩
  | cons x a ih =>
    rw [noDots_cons] at ha
    rw [List.cons_append, noDots_cons]
    refine ⟨?_, ih ha.2⟩
    rintro ⟨rfl, h⟩
    cases a with
    | nil => simp at h; exact hc h
    | cons y a => simp at h; exact ha.1 ⟨rfl, by simp [h]⟩

private theorem noDots_nil : NoDots [] := by intro a b e; simp at e

private theorem noDots_digits (ds b : List Char) (h : ∀ c ∈ ds, isDigit c = true) (hb : NoDots b) :
    NoDots (ds ++ b) := by
  induction ds with
  | nil => exact hb
  | cons c ds ih =>
    exact noDots_mid [] _ c noDots_nil (ih fun c hc => h c (by simp [hc]))
      (digit_facts (h c (by simp))).2.1

private theorem noDots_blank (ws b : List Char) (h : Blank ws) (hb : NoDots b) : NoDots (ws ++ b) := by
  induction ws with
  | nil => exact hb
  | cons c ds ih =>
    refine noDots_mid [] _ c noDots_nil (ih fun c hc => h c (by simp [hc])) ?_
    rcases h c (by simp) with rfl | rfl <;> decide

private theorem noDots_number (a ds b : List Char) (ha : NoDots a) (hne : ds ≠ [])
    (h : ∀ c ∈ ds, isDigit c = true) (hb : NoDots b) : NoDots (a ++ ds ++ b) := by
  obtain ⟨d, ds, rfl⟩ := List.exists_cons_of_ne_nil hne
  have := noDots_mid a (ds ++ b) d ha (noDots_digits ds b (fun c hc => h c (by simp [hc])) hb)
    (digit_facts (h d (by simp))).2.1
  simpa using this

private theorem range_step (ev : Bool) (p : List Char) (c d : Char) (r p' r' : List Char)
    (h : rangeStep ev p c d r = .ok (p', r')) :
    Reach (expandRange ev) p (c :: d :: r) p' r' := by
  refine ⟨1, fun fuel => ?_⟩
  rw [Nat.add_comm, expandRange, h]

private theorem range_one (ev : Bool) (p : List Char) (c : Char) (r : List Char) (hr : r ≠ [])
    (h : isQuote c = false) (hd : ¬ (c = '.' ∧ r.head? = some '.')) :
    Reach (expandRange ev) p (c :: r) (c :: p) r := by
  obtain ⟨d, r, rfl⟩ := List.exists_cons_of_ne_nil hr
  apply range_step
  unfold rangeStep
  simp only [List.head?_cons, Option.some.injEq] at hd
  rw [if_neg (by simp [h]), if_neg hd]

private theorem range_run (ev : Bool) (s p : List Char) (d : Char) (r : List Char)
    (h : ∀ c ∈ s, isQuote c = false) (hd : NoDots (s ++ [d])) :
    Reach (expandRange ev) p (s ++ d :: r) (s.reverse ++ p) (d :: r) := by
  induction s generalizing p with
  | nil => exact Reach.refl _ _ _
  | cons c s ih =>
    rw [List.cons_append, noDots_cons] at hd
    have h1 := range_one ev p c (s ++ d :: r) (by simp) (h c (by simp)) (by
      cases s with
      | nil => simpa using hd.1
      | cons x s => simpa using hd.1)
    have h2 := ih (c :: p) (fun c hc => h c (by simp [hc])) hd.2
    simpa using h1.trans h2

private theorem range_tail (ev : Bool) (s p t : List Char)
    (h : ∀ c ∈ s, isQuote c = false) (hd : NoDots s) (ht : Tail t) :
    Reach (expandRange ev) p (s ++ t) (s.reverse ++ p) t := by
  obtain ⟨c, r, rfl, hc⟩ := ht
  refine range_run ev s p c r h ?_
  refine noDots_mid s [] c hd noDots_nil ?_
  rcases hc with rfl | rfl | rfl <;> decide

private theorem range_quoted (ev : Bool) (q : Char) (s p r : List Char) (hq : q = '\'' ∨ q = '"')
    (h : q ∉ s) : Reach (expandRange ev) p ((q :: s ++ [q]) ++ r) ((q :: s ++ [q]).reverse ++ p) r := by
  have hq' : isQuote q = true := by rcases hq with rfl | rfl <;> rfl
  have e : (q :: s ++ [q]) ++ r = q :: (s ++ q :: r) := by simp
  rw [e]
  cases hs : s ++ q :: r with
  | nil => simp at hs
  | cons d u =>
    apply range_step
    simp [rangeStep, hq', ← hs, find_spec q s r h]

private theorem decimal_digits (n : Nat) : decimal n ≠ [] ∧ ∀ c ∈ decimal n, isDigit c = true := by
  refine ⟨?_, ?_⟩
  · simp [decimal]
  · intro c hc
    have := Nat.isDigit_of_mem_toDigits (b := 10) (by omega) (by omega) hc
    rw [isDigit_toNat]
    simp [Char.isDigit] at this
    exact this

private theorem padded_digits (w n : Nat) : padded w n ≠ [] ∧ ∀ c ∈ padded w n, isDigit c = true := by
  obtain ⟨h1, h2⟩ := decimal_digits n
  refine ⟨by simp [padded, h1], ?_⟩
  intro c hc
  rcases List.mem_append.mp hc with h | h
  · rw [(List.mem_replicate.mp h).2]; decide
  · exact h2 c h

private theorem padded_eq (w n : Nat) : withZeros w n = padded w n := by
  simp [withZeros, padded, decimal, toString, Nat.repr]

private theorem between_eq (a b : Nat) : between a b = rangeNums a b := by
  unfold between rangeNums
  by_cases h : a < b
  · rw [if_pos (by omega), if_pos h, Nat.sub_add_comm (by omega)]
  · by_cases he : a = b
    · subst he; simp
    · rw [if_neg (by omega), if_neg h, Nat.sub_add_comm (by omega)]

private theorem body_texts (l : List (List Char)) : body (texts l) = joinComma l := by
  induction l with
  | nil => rfl
  | cons s l ih =>
    cases l with
    | nil => simp [texts, body, sepWith, joinComma]
    | cons t l =>
      rw [texts, body, sepWith_ne (by simp [texts]), ih, joinComma]
      simp

/-- The lists of texts made from a range are scanned without change. -/
private theorem range_texts (ev : Bool) (l : List (List Char)) (p t : List Char) (ht : Tail t)
    (hl : ∀ s ∈ l, (∀ c ∈ s, isQuote c = false) ∧ NoDots s) :
    Reach (expandRange ev) p (joinComma l ++ t) ((joinComma l).reverse ++ p) t := by
  apply range_tail _ _ _ _ _ _ ht
  · induction l with
    | nil => simp [joinComma]
    | cons s l ih =>
      have ih := ih fun s hs => hl s (by simp [hs])
      cases l with
      | nil => simpa [joinComma] using (hl s (by simp)).1
      | cons u l =>
        intro c hc
        simp only [joinComma, List.mem_append, List.mem_cons] at hc
        rcases hc with hc | rfl | hc
        · exact (hl s (by simp)).1 c hc
        · decide
        · exact ih c (by simpa using hc)
  · induction l with
    | nil => exact noDots_nil
    | cons s l ih =>
      have ih := ih fun s hs => hl s (by simp [hs])
      cases l with
      | nil => simpa [joinComma] using (hl s (by simp)).2
      | cons u l => exact noDots_mid _ _ ',' (hl s (by simp)).2 ih (by decide)

private theorem plain_ends {s : List Char} (h : Plain s) :
    ∀ c ∈ s, endsPrefix c = false ∧ endsSuffix c = false ∧ isQuote c = false := by
  intro c hc
  obtain ⟨h1, h2⟩ := h c hc
  simp only [List.mem_cons, List.not_mem_nil, or_false, not_or] at h2
  have h3 : c ≠ ' ' ∧ c ≠ '\t' := by
    constructor <;> (rintro rfl; revert h1; decide)
  simp [endsPrefix, endsSuffix, isQuote, h2, h3]

/-- The treatment of the dots, for a prefix and suffix as they are written. -/
private theorem dots_spec (ev : Bool) (p pfx lo w1 w2 hi sfx t : List Char) (again : Bool)
    (hp : OkPre p) (hpfx : Plain pfx) (hsfx : Plain sfx) (hlo : Number lo) (hhi : Number hi)
    (hw1 : Blank w1) (hw2 : Blank w2) (hph : ∀ c, pfx.head? = some c → isDigit c = false)
    (hpl : ∀ c, pfx.getLast? = some c → isDigit c = false)
    (hsh : ∀ c, sfx.head? = some c → isDigit c = false)
    (hmax : number false lo < number false hi → number false hi ≠ 2147483647) (ht : Tail t) :
    rangeDots ev (w1.reverse ++ (lo.reverse ++ (pfx.reverse ++ p)))
      (w2 ++ ((if again then pfx else []) ++ (hi ++ (sfx ++ t)))) =
    .ok (p, joinComma ((rangeNums (number false lo) (number false hi)).map fun n =>
      (dropBraces pfx sfx).1 ++ padded lo.length n ++ (dropBraces pfx sfx).2) ++ t) := by
  have hlod : ∀ c ∈ lo.reverse, isDigit c = true := fun c hc => hlo.2.1 c (List.mem_reverse.mp hc)
  have hlone : lo.reverse ≠ [] := by simpa using hlo.1
  have hth : ∀ c, t.head? = some c → isDigit c = false ∧ endsSuffix c = true := by
    obtain ⟨c, r, rfl, hc⟩ := ht
    intro d hd
    simp at hd; subst hd
    rcases hc with rfl | rfl | rfl <;> decide
  have hback : ∀ c, (pfx.reverse ++ p).head? = some c → isDigit c = false := by
    intro c hc
    rw [List.head?_append] at hc
    cases hr : pfx.reverse.head? with
    | none =>
      rw [hr] at hc
      exact (okPre_head hp c (by simpa using hc)).1
    | some d =>
      rw [hr] at hc
      simp at hc; subst hc
      exact hpl d (by rw [← hr, List.head?_reverse])
  have e1 : (w1.reverse ++ (lo.reverse ++ (pfx.reverse ++ p))).dropWhile isSpace =
      lo.reverse ++ (pfx.reverse ++ p) := by
    rw [dropWhile_append_all _ _
      (fun c hc => space_blank hw1 c (List.mem_reverse.mp hc)), dropWhile_head]
    intro c hc
    obtain ⟨d, m, hm⟩ := List.exists_cons_of_ne_nil hlone
    rw [hm] at hc hlod
    simp at hc; subst hc
    exact (digit_facts (hlod d (by simp))).1
  have e2 : (lo.reverse ++ (pfx.reverse ++ p)).takeWhile isDigit = lo.reverse := by
    rw [takeWhile_append_all _ _ hlod, takeWhile_head _ hback]
    simp
  have e3 : (lo.reverse ++ (pfx.reverse ++ p)).dropWhile isDigit = pfx.reverse ++ p := by
    rw [dropWhile_append_all _ _ hlod, dropWhile_head _ hback]
  have hpp : ∀ c ∈ pfx.reverse, (!endsPrefix c) = true := by
    intro c hc
    simp [(plain_ends hpfx c (List.mem_reverse.mp hc)).1]
  have hph' : ∀ c, p.head? = some c → (!endsPrefix c) = false := by
    intro c hc; simp [(okPre_head hp c hc).2]
  have e4 : (pfx.reverse ++ p).takeWhile (fun c => !endsPrefix c) = pfx.reverse := by
    rw [takeWhile_append_all _ _ hpp, takeWhile_head _ hph']
    simp
  have e5 : (pfx.reverse ++ p).dropWhile (fun c => !endsPrefix c) = p := by
    rw [dropWhile_append_all _ _ hpp, dropWhile_head _ hph']
  have hdig : strToInt ev lo = .ok (number false lo) := strToInt_digits ev lo hlo.1 hlo.2.1 hlo.2.2
  have hdig2 : strToInt ev hi = .ok (number false hi) := strToInt_digits ev hi hhi.1 hhi.2.1 hhi.2.2
  unfold rangeDots
  simp only [e1, e2, e3, e4, e5, List.reverse_reverse, if_neg hlo.1, hdig]
  obtain ⟨d, hi', hhi'⟩ := List.exists_cons_of_ne_nil hhi.1
  have hd : isDigit d = true := hhi.2.1 d (by simp [hhi'])
  have r1 : lskip (w2 ++ ((if again = true then pfx else []) ++ (hi ++ (sfx ++ t)))) =
      (if again = true then pfx else []) ++ (hi ++ (sfx ++ t)) := by
    unfold lskip
    rw [dropWhile_append_all _ _ (space_blank hw2), dropWhile_head]
    intro c hc
    cases hpc : (if again = true then pfx else []) with
    | nil =>
      rw [hpc, hhi'] at hc
      simp at hc; subst hc
      exact (digit_facts hd).1
    | cons x y =>
      rw [hpc] at hc
      simp at hc; subst hc
      have : x ∈ pfx := by
        cases again
        · simp at hpc
        · simp at hpc; simp [hpc]
      exact (hpfx x this).1
  have r2 : (if pfx ≠ [] ∧ pfx.length < ((if again = true then pfx else []) ++ (hi ++ (sfx ++ t))).length ∧
        ((if again = true then pfx else []) ++ (hi ++ (sfx ++ t))).take pfx.length = pfx then
        ((if again = true then pfx else []) ++ (hi ++ (sfx ++ t))).drop pfx.length
      else (if again = true then pfx else []) ++ (hi ++ (sfx ++ t))) = hi ++ (sfx ++ t) := by
    cases again with
    | true =>
      simp only [if_true]
      by_cases hn : pfx = []
      · subst hn; simp
      · rw [if_pos ⟨hn, by simp [hhi'], by simp⟩]
        simp
    | false =>
      simp only [Bool.false_eq_true, if_false, List.nil_append]
      rw [if_neg]
      rintro ⟨hn, _, he⟩
      obtain ⟨x, y, hxy⟩ := List.exists_cons_of_ne_nil hn
      rw [hxy, hhi'] at he
      simp at he
      have := hph x (by simp [hxy])
      rw [← he.1, hd] at this
      simp at this
  have hst : ∀ c, (sfx ++ t).head? = some c → isDigit c = false := by
    intro c hc
    cases hs : sfx with
    | nil => rw [hs] at hc; exact (hth c (by simpa using hc)).1
    | cons x y => rw [hs] at hc; exact hsh c (by rw [hs]; simpa using hc)
  have e6 : (hi ++ (sfx ++ t)).takeWhile isDigit = hi := by
    rw [takeWhile_append_all _ _ hhi.2.1, takeWhile_head _ hst]; simp
  have e7 : (hi ++ (sfx ++ t)).dropWhile isDigit = sfx ++ t := by
    rw [dropWhile_append_all _ _ hhi.2.1, dropWhile_head _ hst]
  have hss : ∀ c ∈ sfx, (!endsSuffix c) = true := by
    intro c hc; simp [(plain_ends hsfx c hc).2.1]
  have hth' : ∀ c, t.head? = some c → (!endsSuffix c) = false := by
    intro c hc; simp [(hth c hc).2]
  have e8 : (sfx ++ t).takeWhile (fun c => !endsSuffix c) = sfx := by
    rw [takeWhile_append_all _ _ hss, takeWhile_head _ hth']; simp
  have e9 : (sfx ++ t).dropWhile (fun c => !endsSuffix c) = t := by
    rw [dropWhile_append_all _ _ hss, dropWhile_head _ hth']
  have hub : ¬ ((number false lo : Int) < (number false hi : Int) ∧
      (number false hi : Int) = 2147483647) := by
    rintro ⟨a, b⟩
    exact hmax (by omega) (by omega)
  unfold rangeRest
  simp only [r1]
  rw [r2]
  have e0 : hi ++ (sfx ++ t) = d :: (hi' ++ (sfx ++ t)) := by simp [hhi']
  generalize hX : hi ++ (sfx ++ t) = X at *
  rw [e0] at e6 e7 ⊢
  simp only [hd, if_true, e6, e7, e8, e9, hdig2, if_neg hub, Int.toNat_natCast]

private theorem rng_sep (ev : Bool) (next : Items) (p t : List Char) (ht : Tail t)
    (ih : ∀ p t, OkPre p → Tail t →
      Reach (expandRange ev) p (body next ++ t) ((body (rng next)).reverse ++ p) t) :
    Reach (expandRange ev) p (sepWith next (body next) ++ t)
      ((sepWith (rng next) (body (rng next))).reverse ++ p) t := by
  by_cases hn : next = .nil
  · subst hn
    simp only [rng, sepWith]
    exact Reach.refl _ _ _
  · have hm : rng next ≠ .nil := fun e => hn ((rng_eq_nil next).mp e)
    rw [sepWith_ne hn, sepWith_ne hm]
    have h1 := range_one ev p ',' (body next ++ t) (by simp [tail_ne ht]) (by decide) (by simp)
    have h2 := ih (',' :: p) t (okPre_comma p) ht
    simpa using h1.trans h2

private theorem range_blank (ev : Bool) (ws p r : List Char) (hr : r ≠ []) (h : Blank ws) :
    Reach (expandRange ev) p (ws ++ r) (ws.reverse ++ p) r := by
  induction ws generalizing p with
  | nil => exact Reach.refl _ _ _
  | cons c s ih =>
    have hc : isQuote c = false ∧ c ≠ '.' := by rcases h c (by simp) with rfl | rfl <;> decide
    have h1 := range_one ev p c (s ++ r) (by simp [hr]) hc.1 (by simp [hc.2])
    have h2 := ih (c :: p) fun c hc => h c (by simp [hc])
    simpa using h1.trans h2

/-- A range, with the prefix and suffix as they are written. -/
private theorem range_element (ev : Bool) (p pfx lo w1 w2 hi sfx t : List Char) (again : Bool)
    (hp : OkPre p) (hpfx : Plain pfx) (hpd : NoDots pfx) (hsfx : Plain sfx)
    (hlo : Number lo) (hhi : Number hi)
    (hw1 : Blank w1) (hw2 : Blank w2) (hph : ∀ c, pfx.head? = some c → isDigit c = false)
    (hpl : ∀ c, pfx.getLast? = some c → isDigit c = false)
    (hsh : ∀ c, sfx.head? = some c → isDigit c = false)
    (hmax : number false lo < number false hi → number false hi ≠ 2147483647) (ht : Tail t)
    (pfx' sfx' : List Char) (hb : dropBraces pfx sfx = (pfx', sfx'))
    (hpq : ∀ c ∈ pfx', isQuote c = false) (hsq : ∀ c ∈ sfx', isQuote c = false)
    (hpd' : NoDots pfx') (hsd' : NoDots sfx') :
    Reach (expandRange ev) p
      (pfx ++ lo ++ w1 ++ '.' :: '.' :: (w2 ++ ((if again then pfx else []) ++ (hi ++ (sfx ++ t)))))
      ((body (rangeTexts pfx' lo hi sfx')).reverse ++ p) t := by
  have k1 := range_run ev (pfx ++ lo ++ w1) p '.'
    ('.' :: (w2 ++ ((if again then pfx else []) ++ (hi ++ (sfx ++ t))))) (by
      intro c hc
      simp only [List.mem_append] at hc
      rcases hc with (hc | hc) | hc
      · exact (plain_ends hpfx c hc).2.2
      · exact (neutral_digit (hlo.2.1 c hc)).ne.1
      · rcases hw1 c hc with rfl | rfl <;> decide) (by
      rw [List.append_assoc]
      refine noDots_number pfx lo (w1 ++ ['.']) hpd hlo.1 hlo.2.1 (noDots_blank _ _ hw1 ?_)
      rw [noDots_cons]
      exact ⟨by simp, noDots_nil⟩)
  have k2 := range_step ev ((pfx ++ lo ++ w1).reverse ++ p) '.' '.'
    (w2 ++ ((if again then pfx else []) ++ (hi ++ (sfx ++ t)))) _ _ (by
      have hq : isQuote '.' = false := by decide
      rw [rangeStep, if_neg (by simp [hq]), if_pos ⟨rfl, rfl⟩]
      have e : (pfx ++ lo ++ w1).reverse ++ p = w1.reverse ++ (lo.reverse ++ (pfx.reverse ++ p)) := by
        simp
      rw [e]
      exact dots_spec ev p pfx lo w1 w2 hi sfx t again hp hpfx hsfx hlo hhi hw1 hw2 hph hpl hsh hmax ht)
  rw [hb] at k2
  have k3 := range_texts ev ((rangeNums (number false lo) (number false hi)).map fun n =>
      pfx' ++ padded lo.length n ++ sfx') p t ht (by
      intro s hs
      obtain ⟨n, _, rfl⟩ := List.mem_map.mp hs
      obtain ⟨g1, g2⟩ := padded_digits lo.length n
      refine ⟨?_, noDots_number _ _ _ hpd' g1 g2 hsd'⟩
      intro c hc
      simp only [List.mem_append] at hc
      rcases hc with (hc | hc) | hc
      · exact hpq c hc
      · exact (neutral_digit (g2 c hc)).ne.1
      · exact hsq c hc)
  have e : body (rangeTexts pfx' lo hi sfx') =
      joinComma ((rangeNums (number false lo) (number false hi)).map fun n =>
      pfx' ++ padded lo.length n ++ sfx') := by
    unfold rangeTexts
    rw [body_texts, between_eq]
    simp only [padded_eq]
  rw [e]
  exact k1.trans (k2.trans k3)

/-- The second pass replaces the ranges. -/
private theorem rng_reach (ev : Bool) (xs : Items) (h : WF xs) (hn : NoRep xs) (p t : List Char)
    (hp : OkPre p) (ht : Tail t) :
    Reach (expandRange ev) p (body xs ++ t) ((body (rng xs)).reverse ++ p) t := by
  induction xs generalizing p t with
  | nil => exact Reach.refl _ _ _
  | text ws s next ih =>
    have hts := tail_sep (next := next) ht
    have h1 := range_blank ev ws p (s ++ (sepWith next (body next) ++ t))
      (by have := tail_ne hts; simp at this ⊢; tauto) h.1
    have h2 := range_tail ev s (ws.reverse ++ p) (sepWith next (body next) ++ t)
      (fun c hc => (plain_ends h.2.1 c hc).2.2) h.2.2.1 hts
    have h3 := rng_sep ev next (s.reverse ++ (ws.reverse ++ p)) t ht (ih h.2.2.2 hn)
    simpa [body, rng] using h1.trans (h2.trans h3)
  | quoted ws q s next ih =>
    have h1 := range_blank ev ws p ((q :: s ++ [q]) ++ (sepWith next (body next) ++ t)) (by simp) h.1
    have h2 := range_quoted ev q s (ws.reverse ++ p) (sepWith next (body next) ++ t) h.2.1 h.2.2.1
    have h3 := rng_sep ev next ((q :: s ++ [q]).reverse ++ (ws.reverse ++ p)) t ht (ih h.2.2.2 hn)
    simpa [body, rng] using h1.trans (h2.trans h3)
  | range ws pfx lo hi sfx form w1 w2 next ih =>
    obtain ⟨h1, h2, h3, h4, h5, h6, h7, h8, h9, h10, h11, h12, h13⟩ := h
    have hts := tail_sep (next := next) ht
    have k1 := range_blank ev ws p (rangeText pfx lo hi sfx form w1 w2 ++
      (sepWith next (body next) ++ t)) (by have := tail_ne hts; simp at this ⊢; tauto) h1
    have hpq : ∀ c ∈ pfx, isQuote c = false := fun c hc => (plain_ends h2 c hc).2.2
    have hsq : ∀ c ∈ sfx, isQuote c = false := fun c hc => (plain_ends h4 c hc).2.2
    have k2 : Reach (expandRange ev) (ws.reverse ++ p) (rangeText pfx lo hi sfx form w1 w2 ++
        (sepWith next (body next) ++ t)) ((body (rangeTexts pfx lo hi sfx)).reverse ++ (ws.reverse ++ p))
        (sepWith next (body next) ++ t) := by
      cases form with
      | once =>
        obtain ⟨g1, g2, g3⟩ := h12 (by simp)
        have := range_element ev (ws.reverse ++ p) pfx lo w1 w2 hi sfx
          (sepWith next (body next) ++ t) false (okPre_blank h1 hp) h2 h3 h4 h6 h7 h8 h9 h10 g1 g2 h11
          hts pfx sfx (by unfold dropBraces; rw [if_neg g3]) hpq hsq h3 h5
        simpa [rangeText] using this
      | again =>
        obtain ⟨g1, g2, g3⟩ := h12 (by simp)
        have := range_element ev (ws.reverse ++ p) pfx lo w1 w2 hi sfx
          (sepWith next (body next) ++ t) true (okPre_blank h1 hp) h2 h3 h4 h6 h7 h8 h9 h10 g1 g2 h11
          hts pfx sfx (by unfold dropBraces; rw [if_neg g3]) hpq hsq h3 h5
        simpa [rangeText] using this
      | braces =>
        have hplain : Plain (pfx ++ ['{']) ∧ Plain ('}' :: sfx) := by
          constructor
          · intro c hc
            rcases List.mem_append.mp hc with hc | hc
            · exact h2 c hc
            · simp only [List.mem_singleton] at hc; subst hc; decide
          · intro c hc
            rcases List.mem_cons.mp hc with rfl | hc
            · decide
            · exact h4 c hc
        have := range_element ev (ws.reverse ++ p) (pfx ++ ['{']) lo w1 w2 hi ('}' :: sfx)
          (sepWith next (body next) ++ t) false (okPre_blank h1 hp) hplain.1
          (noDots_mid pfx [] '{' h3 noDots_nil (by decide)) hplain.2 h6 h7 h8 h9 (by
            intro c hc
            cases pfx with
            | nil => simp at hc; subst hc; decide
            | cons x y => exact h10 c (by simpa using hc)) (by
            intro c hc; simp at hc; subst hc; decide) (by
            intro c hc; simp at hc; subst hc; decide) h11
          hts pfx sfx (by simp [dropBraces]) hpq hsq h3 h5
        simpa [rangeText] using this
    have k3 := rng_sep ev next ((body (rangeTexts pfx lo hi sfx)).reverse ++ (ws.reverse ++ p)) t ht
      (ih h13 hn)
    have e : body (rng (.range ws pfx lo hi sfx form w1 w2 next)) =
        ws ++ body (rangeTexts pfx lo hi sfx) ++ sepWith (rng next) (body (rng next)) := by
      have ht' := rangeTexts_ne pfx lo hi sfx
      rw [rng, body_append _ _ (by simp [addWs_eq_nil, ht']), body_addWs _ _ ht']
    rw [e]
    simpa [body] using k1.trans (k2.trans k3)
  | list ws inner next ih1 ih2 =>
    have hts := tail_sep (next := next) ht
    have k1 := range_blank ev ws p ('[' :: (body inner ++ ']' :: (sepWith next (body next) ++ t)))
      (by simp) h.1
    have k2 := range_one ev (ws.reverse ++ p) '[' (body inner ++ ']' :: (sepWith next (body next) ++ t))
      (by simp) (by decide) (by simp)
    have k3 := ih1 h.2.1 hn.1 ('[' :: (ws.reverse ++ p)) (']' :: (sepWith next (body next) ++ t))
      (okPre_bracket _) ⟨']', _, rfl, by simp⟩
    have k4 := range_one ev ((body (rng inner)).reverse ++ '[' :: (ws.reverse ++ p)) ']'
      (sepWith next (body next) ++ t) (tail_ne hts) (by decide) (by simp)
    have k5 := rng_sep ev next
      (']' :: ((body (rng inner)).reverse ++ '[' :: (ws.reverse ++ p))) t ht (ih2 h.2.2 hn.2)
    simpa [body, rng] using k1.trans (k2.trans (k3.trans (k4.trans k5)))
  | rep ws n par inner next ih1 ih2 => exact absurd hn (by simp [NoRep])

/-! ## The property -/

private theorem last_bracket (b : List Char) : ('[' :: b ++ [']']).getLast? = some ']' :=
  List.getLast?_concat

private theorem trim_brackets (b : List Char) : trim ('[' :: b ++ [']']) = '[' :: b ++ [']'] := by
  have := trim_eq [] ('[' :: b ++ [']']) [] (by simp) (by simp) (by simp; decide)
    (by rw [last_bracket]; simp; decide)
  simpa using this

/-- C42: an array string of the notation is expanded to the list it denotes. -/
theorem expand_denotes (ev : Bool) (xs : Items) (h : WF xs) :
    ∃ n, ∀ fuel, n ≤ fuel →
      expandArray ev fuel ('[' :: body xs ++ [']']) = .ok ('[' :: body (denote xs) ++ [']']) := by
  have tail1 : Tail [']'] := ⟨']', [], rfl, by simp⟩
  have a1 := mult_one ev [] '[' (body xs ++ [']']) (by simp) (by decide)
  have a2 := mult_reach ev xs h ['['] [']'] (okPre_bracket []) tail1
  obtain ⟨n1, a⟩ := a1.trans a2
  have b1 := range_one ev [] '[' (body (mult xs) ++ [']']) (by simp) (by decide) (by simp)
  have b2 := rng_reach ev (mult xs) (wf_mult xs h) (noRep_mult xs) ['['] [']'] (okPre_bracket []) tail1
  obtain ⟨n2, b⟩ := b1.trans b2
  refine ⟨n1 + n2 + 1, fun fuel hf => ?_⟩
  obtain ⟨f1, rfl⟩ : ∃ f, fuel = n1 + (f + 1) := ⟨fuel - n1 - 1, by omega⟩
  obtain ⟨f2, e2⟩ : ∃ f, n1 + (f1 + 1) = n2 + (f + 1) := ⟨n1 + f1 - n2, by omega⟩
  unfold expandArray
  rw [trim_brackets]
  have hl := last_bracket (body xs)
  rw [if_neg (by rw [hl]; simp)]
  have a' := a (f1 + 1)
  have b' := b (f2 + 1)
  rw [← e2] at b'
  simp only [List.cons_append] at a' b' ⊢
  rw [a', expandMult]
  have e : ((body (mult xs)).reverse ++ ['[']).reverse ++ [']'] = '[' :: (body (mult xs) ++ [']']) := by
    simp
  simp only [e]
  rw [b', expandRange, denote_eq]
  simp

/-! ## Strings without repetitions and ranges -/

/-- A text that ends with a number, apart from whitespace. -/
def EndsWithNumber (a : List Char) : Prop :=
  ∃ a' c w, a = a' ++ c :: w ∧ isDigit c = true ∧ ∀ x ∈ w, isSpace x = true

/-- A text that ends with a number, apart from whitespace, where the number is at the start or after a
comma or an opening bracket or parenthesis. -/
def EndsWithCount (a : List Char) : Prop :=
  ∃ a' w1 ds w2, a = a' ++ w1 ++ ds ++ w2 ∧ ds ≠ [] ∧ (∀ c ∈ ds, isDigit c = true) ∧
    (∀ x ∈ w1, isSpace x = true) ∧ (∀ x ∈ w2, isSpace x = true) ∧
    (a' = [] ∨ ∃ c, a'.getLast? = some c ∧ (c = ',' ∨ c = '[' ∨ c = '('))

private theorem numberBefore_none (pre : List Char) (h : ¬ EndsWithCount pre.reverse) :
    numberBefore pre = none := by
  cases hn : numberBefore pre with
  | none => rfl
  | some x =>
    refine absurd ?_ h
    have e1 : pre.takeWhile isSpace ++ pre.dropWhile isSpace = pre := List.takeWhile_append_dropWhile
    have e2 := List.takeWhile_append_dropWhile (p := isDigit) (l := pre.dropWhile isSpace)
    have e3 := List.takeWhile_append_dropWhile (p := isSpace)
      (l := (pre.dropWhile isSpace).dropWhile isDigit)
    have m1 : ∀ c ∈ pre.takeWhile isSpace, isSpace c = true := fun c hc => mem_takeWhile _ _ hc
    have m2 : ∀ c ∈ (pre.dropWhile isSpace).takeWhile isDigit, isDigit c = true :=
      fun c hc => mem_takeWhile _ _ hc
    have m3 : ∀ c ∈ ((pre.dropWhile isSpace).dropWhile isDigit).takeWhile isSpace, isSpace c = true :=
      fun c hc => mem_takeWhile _ _ hc
    simp only [numberBefore] at hn
    generalize ((pre.dropWhile isSpace).dropWhile isDigit).dropWhile isSpace = d4 at *
    generalize ((pre.dropWhile isSpace).dropWhile isDigit).takeWhile isSpace = t3 at *
    generalize (pre.dropWhile isSpace).dropWhile isDigit = d2 at *
    generalize (pre.dropWhile isSpace).takeWhile isDigit = t2 at *
    generalize pre.dropWhile isSpace = d1 at *
    generalize pre.takeWhile isSpace = t1 at *
    refine ⟨d4.reverse, t3.reverse, t2.reverse, t1.reverse, ?_, ?_, by simpa using m2,
      by simpa using m3, by simpa using m1, ?_⟩
    · rw [← e1, ← e2, ← e3]; simp
    · rintro hd
      rw [hd] at hn
      cases d4 <;> simp at hn
    · cases d4 with
      | nil => exact .inl rfl
      | cons c d =>
        refine .inr ⟨c, by simp, ?_⟩
        simp only at hn
        split at hn
        · rename_i hh; exact hh.1
        · simp at hn

private theorem mult_unchanged (einval : Bool) (fuel : Nat) (pre s : List Char)
    (hf : s.length < fuel) (hq : ∀ c ∈ s, isQuote c = false)
    (hm : ∀ a b, pre.reverse ++ s = a ++ '*' :: b → ¬ EndsWithCount a) :
    expandMult einval fuel pre s = .ok (pre.reverse ++ s) := by
  induction fuel generalizing pre s with
  | zero => omega
  | succ fuel ih =>
    match s with
    | [] => simp [expandMult]
    | [c] => simp [expandMult]
    | c :: d :: r =>
      have hstep : multStep einval (r.length + 3) pre c (d :: r) = .ok (c :: pre, d :: r) := by
        unfold multStep
        rw [if_neg (by simp [hq c (by simp)])]
        by_cases hc : c = '*'
        · subst hc
          rw [if_neg (by simp), multStar, numberBefore_none _ (hm _ _ rfl)]
        · rw [if_pos hc]
      rw [expandMult, hstep]
      simp only
      rw [ih (c :: pre) (d :: r) (by simp at hf ⊢; omega) (fun x hx => hq x (by simp [hx])) (by
        intro a b e
        exact hm a b (by simpa using e))]
      simp

private theorem dots_none (einval : Bool) (pre r : List Char) (h : ¬ EndsWithNumber pre.reverse) :
    rangeDots einval pre r = .ok ('.' :: pre, '.' :: r) := by
  simp only [rangeDots]
  rw [if_pos]
  have e1 : pre.takeWhile isSpace ++ pre.dropWhile isSpace = pre := List.takeWhile_append_dropWhile
  have m1 : ∀ c ∈ pre.takeWhile isSpace, isSpace c = true := fun c hc => mem_takeWhile _ _ hc
  cases hd : pre.dropWhile isSpace with
  | nil => simp
  | cons c d =>
    by_cases hc : isDigit c = true
    · refine absurd ⟨d.reverse, c, (pre.takeWhile isSpace).reverse, ?_, hc, by simpa using m1⟩ h
      rw [hd] at e1
      nth_rewrite 1 [← e1]
      simp
    · simp [hc]

private theorem range_unchanged (einval : Bool) (fuel : Nat) (pre s : List Char)
    (hf : s.length < fuel) (hq : ∀ c ∈ s, isQuote c = false)
    (hm : ∀ a b, pre.reverse ++ s = a ++ '.' :: '.' :: b → ¬ EndsWithNumber a) :
    expandRange einval fuel pre s = .ok (pre.reverse ++ s) := by
  induction fuel generalizing pre s with
  | zero => omega
  | succ fuel ih =>
    match s with
    | [] => simp [expandRange]
    | [c] => simp [expandRange]
    | c :: d :: r =>
      have hstep : rangeStep einval pre c d r = .ok (c :: pre, d :: r) := by
        unfold rangeStep
        rw [if_neg (by simp [hq c (by simp)])]
        by_cases hc : c = '.' ∧ d = '.'
        · obtain ⟨rfl, rfl⟩ := hc
          rw [if_pos (by simp), dots_none _ _ _ (hm _ _ rfl)]
        · rw [if_neg hc]
      rw [expandRange, hstep]
      simp only
      rw [ih (c :: pre) (d :: r) (by simp at hf ⊢; omega) (fun x hx => hq x (by simp [hx])) (by
        intro a b e
        exact hm a b (by simpa using e))]
      simp

/-- C42: a string without quotes in which no asterisk comes after a count and no two dots come after
a number is not changed. -/
theorem expand_unchanged (einval : Bool) (fuel : Nat) (s : List Char) (hf : s.length < fuel)
    (hq : ∀ c ∈ s, isQuote c = false) (hm : ∀ a b, s = a ++ '*' :: b → ¬ EndsWithCount a)
    (hr : ∀ a b, s = a ++ '.' :: '.' :: b → ¬ EndsWithNumber a) :
    expandArray einval fuel s = .ok s := by
  unfold expandArray
  split
  · rfl
  · rw [mult_unchanged einval fuel [] s hf hq (by simpa using hm)]
    simp only [List.reverse_nil, List.nil_append]
    exact range_unchanged einval fuel [] s hf hq (by simpa using hr)

example : expandArray false 20 "[CS001*,x2*3,a..b]".toList = .ok "[CS001*,x2*3,a..b]".toList := by
  decide +kernel
example : ¬ EndsWithCount "[CS001".toList ∧ ¬ EndsWithNumber "[a".toList := by
  constructor
  · rintro ⟨a', w1, ds, w2, e, hne, hd, h1, h2, h3⟩
    rcases List.eq_nil_or_concat w2 with rfl | ⟨w, x, rfl⟩
    · rcases h3 with rfl | ⟨c, hc, hcc⟩
      · cases w1 with
        | nil =>
          cases ds with
          | nil => exact hne rfl
          | cons y ds => simp at e; have := hd y (by simp); rw [← e.1] at this; revert this; decide
        | cons y w1 => simp at e; have := h1 y (by simp); rw [← e.1] at this; revert this; decide
      · obtain ⟨a, rfl⟩ : ∃ a, a' = a ++ [c] := by
          rcases List.eq_nil_or_concat a' with rfl | ⟨a, y, rfl⟩
          · simp at hc
          · rw [List.concat_eq_append] at hc ⊢
            rw [List.getLast?_concat] at hc
            exact ⟨a, by simp at hc; rw [hc]⟩
        cases a with
        | nil =>
          simp at e
          cases w1 with
          | nil =>
            cases ds with
            | nil => exact hne rfl
            | cons y ds => simp at e; have := hd y (by simp); rw [← e.2.1] at this; revert this; decide
          | cons y w1 => simp at e; have := h1 y (by simp); rw [← e.2.1] at this; revert this; decide
        | cons y a =>
          have hmem : c ∈ "CS001".toList := by
            have : "CS001".toList = a ++ [c] ++ w1 ++ ds := by simpa using (by simpa using e : _ ∧ _).2
            rw [this]; simp
          rcases hcc with rfl | rfl | rfl <;> revert hmem <;> decide
    · have := congrArg List.getLast? e
      rw [List.concat_eq_append, ← List.append_assoc, List.getLast?_concat] at this
      have hx := h2 x (by simp)
      simp at this
      rw [← this] at hx
      revert hx; decide
  · rintro ⟨a', c, w, e, hc, hw⟩
    have hmem : c ∈ "[a".toList := by rw [e]; simp
    revert hc
    simp at hmem
    rcases hmem with rfl | rfl <;> decide

/-- C42: a string that is not enclosed in brackets is left as it is. -/
theorem expand_other (ev : Bool) (fuel : Nat) (s : List Char)
    (h : (trim s).head? ≠ some '[' ∨ (trim s).getLast? ≠ some ']') : expandArray ev fuel s = .ok s := by
  unfold expandArray
  rw [if_pos h]

/-! ## Examples and exceptions -/

/-- `[ 2*st01..03, 2*('a,b',x{1..2}y), 2*[7, 8..b9]]`-like: repeats, ranges, quotes, sub-arrays. -/
def sample : Items :=
  .rep [' '] ['2'] false (.range [] "st".toList "01".toList "03".toList [] .once [] [] .nil)
    (.rep [' '] ['2'] true
      (.quoted [] '\'' "a,b".toList (.range [] "x".toList ['2'] ['1'] "y".toList .braces [] [] .nil))
      (.list ['\t'] (.text [] ['7'] (.range [' '] ['b'] ['8'] ['9'] [] .again [' '] [] .nil)) .nil))

example : WF sample := by
  have nd : ∀ s : List Char, (∀ c ∈ s, c ≠ '.') → NoDots s := by
    rintro s h a b rfl
    exact h '.' (by simp) rfl
  simp only [sample, WF, Single]
  refine ⟨by unfold Blank; decide, by unfold Number; decide +kernel, by decide +kernel,
    ⟨by unfold Blank; decide, by unfold Plain; decide, nd _ (by decide), by unfold Plain; decide,
      nd _ (by decide), by unfold Number; decide +kernel, by unfold Number; decide +kernel,
      by unfold Blank; decide, by unfold Blank; decide, by simp; decide, by decide +kernel,
      fun _ => ⟨by simp; decide, by simp, by simp⟩, trivial⟩, by simp, by simp,
    ⟨by unfold Blank; decide, by unfold Number; decide +kernel, by decide +kernel,
      ⟨by unfold Blank; decide, by simp, by decide,
        ⟨by unfold Blank; decide, by unfold Plain; decide, nd _ (by decide), by unfold Plain; decide,
          nd _ (by decide), by unfold Number; decide +kernel, by unfold Number; decide +kernel,
          by unfold Blank; decide, by unfold Blank; decide, by simp; decide, by decide +kernel,
          by simp, trivial⟩⟩, by simp, by simp,
      ⟨by unfold Blank; decide, ⟨by unfold Blank; decide, by unfold Plain; decide, nd _ (by decide),
        ⟨by unfold Blank; decide, by unfold Plain; decide, nd _ (by decide), by unfold Plain; decide,
          nd _ (by decide), by unfold Number; decide +kernel, by unfold Number; decide +kernel,
          by unfold Blank; decide, by unfold Blank; decide, by simp; decide, by decide +kernel,
          fun _ => ⟨by simp; decide, by simp, by simp⟩, trivial⟩⟩, trivial⟩⟩⟩

example : body sample = " 2*st01..03, 2*('a,b',x{2..1}y),\t[7, b8 ..b9]".toList := by decide +kernel
example : body (denote sample) =
    " st01,st02,st03,st01,st02,st03, 'a,b',x2y,x1y,'a,b',x2y,x1y,\t[7, b8,b9]".toList := by
  decide +kernel

/-- Zero repeats leave an empty element instead of no element. -/
theorem repeat_zero (ev : Bool) :
    expandArray ev 20 "[1,0*2]".toList = .ok "[1,]".toList := by
  cases ev <;> decide +kernel

/-- A range up to the largest `int` overflows. -/
theorem range_overflow (ev : Bool) :
    expandArray ev 60 "[2147483646..2147483647]".toList = .error .ub := by
  cases ev <;> decide +kernel

/-- The quote directly after `..` is not seen as the start of a quoted text. -/
theorem dots_quote (ev : Bool) :
    expandArray ev 20 "[1..'a']".toList = .error .throws := by
  cases ev <;> decide +kernel

end DP3.StringTools
