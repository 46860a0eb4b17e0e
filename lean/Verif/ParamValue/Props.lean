import Verif.ParamValue.Model
import Verif.StringTools.Props
import Mathlib.Data.List.Forall2
import Mathlib.Tactic.IntervalCases

/-!
# C45: vectors are split at the commas outside quotes and parentheses
-/

namespace DP3.ParamValue

open DP3.StringTools

set_option linter.unusedSimpArgs false

/-- Where a reader is in a text: the quote character when inside quotes, and the number of open
parentheses, brackets and braces. -/
structure Place where
  quote : Option Char
  par : Nat
  brk : Nat
  brc : Nat
  deriving DecidableEq

/-- The start of a text. -/
def Place.start : Place := ⟨none, 0, 0, 0⟩

/-- The place after reading one more character. -/
def Place.read (p : Place) (c : Char) : Place :=
  match p.quote with
  | some q => if c = q then { p with quote := none } else p
  | none =>
    match c with
    | '\'' => { p with quote := some '\'' }
    | '"' => { p with quote := some '"' }
    | '(' => { p with par := p.par + 1 }
    | ')' => { p with par := p.par - 1 }
    | '[' => { p with brk := p.brk + 1 }
    | ']' => { p with brk := p.brk - 1 }
    | '{' => { p with brc := p.brc + 1 }
    | '}' => { p with brc := p.brc - 1 }
    | _ => p

/-- The place at the end of a text. -/
def place (s : List Char) : Place := s.foldl Place.read Place.start

/-- A character that may not come at a place: a closing one without an opening one, or a bracket or
brace inside parentheses. -/
def Misplaced (p : Place) (c : Char) : Prop :=
  p.quote = none ∧ ((c = ')' ∧ p.par = 0) ∨ (c = ']' ∧ p.brk = 0) ∨ (c = '}' ∧ p.brc = 0) ∨
    ((c = '[' ∨ c = '{') ∧ p.par ≠ 0))

/-- A text in which everything opened is closed. -/
def Balanced (s : List Char) : Prop :=
  place s = Place.start ∧ ∀ a c b, s = a ++ c :: b → ¬ Misplaced (place a) c

/-- No comma outside quotes, parentheses, brackets and braces. -/
def NoTopComma (s : List Char) : Prop :=
  ∀ a b, s = a ++ ',' :: b → place a ≠ Place.start

/-- The text with commas between the pieces. -/
def commas : List (List Char) → List Char
  | [] => []
  | [p] => p
  | p :: q :: r => p ++ ',' :: commas (q :: r)

/-! ## A splitter that reads one character at a time -/

private theorem place_snoc (a : List Char) (c : Char) : place (a ++ [c]) = (place a).read c := by
  simp [place]

instance (p : Place) (c : Char) : Decidable (Misplaced p c) := by
  unfold Misplaced; infer_instance

/-- Splitting by place. -/
private def splitAt (p : Place) (cur : List Char) : List Char → Except Err (List (List Char))
  | [] => if p = Place.start then .ok [trim cur.reverse] else .error .throws
  | c :: r =>
    if c = ',' ∧ p = Place.start then
      match splitAt p [] r with
      | .error e => .error e
      | .ok vs => .ok (trim cur.reverse :: vs)
    else if Misplaced p c then .error .throws
    else splitAt (p.read c) (c :: cur) r

private theorem splitAt_quoted (q : Char) (n1 n2 n3 : Nat) (cur r : List Char) :
    splitAt ⟨some q, n1, n2, n3⟩ cur r =
      match findQuote q r with
      | none => .error .throws
      | some (a, b) => splitAt ⟨none, n1, n2, n3⟩ (a.reverse ++ cur) b := by
  induction r generalizing cur with
  | nil => simp [splitAt, findQuote, Place.start]
  | cons c r ih =>
    rw [splitAt, if_neg (by simp [Place.start]), if_neg (by simp [Misplaced])]
    by_cases hc : c = q
    · simp [Place.read, hc, findQuote]
    · have : Place.read ⟨some q, n1, n2, n3⟩ c = ⟨some q, n1, n2, n3⟩ := by simp [Place.read, hc]
      rw [this, ih, findQuote, if_neg hc]
      cases findQuote q r with
      | none => rfl
      | some x => simp

private theorem count_spec (n1 n2 n3 : Nat) (c : Char) (hq : isQuote c = false) :
    count ⟨n1, n2, n3⟩ c =
      if Misplaced ⟨none, n1, n2, n3⟩ c then .error .throws
      else .ok ⟨(Place.read ⟨none, n1, n2, n3⟩ c).par, (Place.read ⟨none, n1, n2, n3⟩ c).brk,
        (Place.read ⟨none, n1, n2, n3⟩ c).brc⟩ := by
  have hq' : c ≠ '\'' ∧ c ≠ '"' := by simpa [isQuote] using hq
  have done : ∀ m1 m2 m3 : Nat, ∀ x : Except Err Counts,
      x = .ok ⟨m1, m2, m3⟩ → (match x with
        | .error e => .error e
        | .ok m => if m.par < 0 ∨ m.brk < 0 ∨ m.brc < 0 then .error Err.throws else .ok m) =
        (.ok ⟨m1, m2, m3⟩ : Except Err Counts) := by
    rintro m1 m2 m3 x rfl
    simp only
    rw [if_neg (by omega)]
  by_cases h1 : c = '('
  · subst h1
    rw [if_neg (by simp [Misplaced])]
    simp only [count, if_true, Place.read]
    rw [if_neg (by simp; omega)]
    simp
  by_cases h2 : c = ')'
  · subst h2
    by_cases h : n1 = 0
    · subst h
      rw [if_pos (by simp [Misplaced])]
      simp [count]
    · rw [if_neg (by simp [Misplaced, h])]
      simp only [count, Char.reduceEq, if_false, if_true, Place.read]
      rw [if_neg (by simp; omega)]
      simp; omega
  by_cases h3 : c = '['
  · subst h3
    by_cases h : n1 = 0
    · subst h
      rw [if_neg (by simp [Misplaced])]
      simp only [count, Char.reduceEq, if_false, if_true, Place.read]
      simp; omega
    · rw [if_pos (by simp [Misplaced, h])]
      simp [count, h]
  by_cases h4 : c = ']'
  · subst h4
    by_cases h : n2 = 0
    · subst h
      rw [if_pos (by simp [Misplaced])]
      simp [count]
    · rw [if_neg (by simp [Misplaced, h])]
      simp only [count, Char.reduceEq, if_false, if_true, Place.read]
      rw [if_neg (by simp; omega)]
      simp; omega
  by_cases h5 : c = '{'
  · subst h5
    by_cases h : n1 = 0
    · subst h
      rw [if_neg (by simp [Misplaced])]
      simp only [count, Char.reduceEq, if_false, if_true, Place.read]
      simp; omega
    · rw [if_pos (by simp [Misplaced, h])]
      simp [count, h]
  by_cases h6 : c = '}'
  · subst h6
    by_cases h : n3 = 0
    · subst h
      rw [if_pos (by simp [Misplaced])]
      simp [count]
    · rw [if_neg (by simp [Misplaced, h])]
      simp only [count, Char.reduceEq, if_false, if_true, Place.read]
      rw [if_neg (by simp; omega)]
      simp; omega
  rw [if_neg (by simp [Misplaced, h2, h3, h4, h5, h6])]
  have hr : Place.read ⟨none, n1, n2, n3⟩ c = ⟨none, n1, n2, n3⟩ := by
    unfold Place.read
    simp only
    split <;> simp_all
  rw [hr]
  simp only [count, h1, h2, h3, h4, h5, h6, if_false]
  rw [if_neg (by omega)]

private theorem read_quote (n1 n2 n3 : Nat) (c : Char) (hq : isQuote c = false) :
    (Place.read ⟨none, n1, n2, n3⟩ c).quote = none := by
  have hq' : c ≠ '\'' ∧ c ≠ '"' := by simpa [isQuote] using hq
  unfold Place.read
  simp only
  split <;> simp_all

private theorem findQuote_length (q : Char) (r a b : List Char) (h : findQuote q r = some (a, b)) :
    b.length < r.length := by
  induction r generalizing a b with
  | nil => simp [findQuote] at h
  | cons c r ih =>
    unfold findQuote at h
    by_cases hc : c = q
    · simp [hc] at h; simp [← h.2]
    · rw [if_neg hc] at h
      cases hf : findQuote q r with
      | none => rw [hf] at h; simp at h
      | some x =>
        rw [hf] at h
        obtain ⟨a', b'⟩ := x
        simp at h
        have := ih a' b' hf
        simp [← h.2]; omega

private theorem splitGo_eq (fuel : Nat) (n1 n2 n3 : Nat) (cur r : List Char) (hf : r.length < fuel) :
    splitGo fuel ⟨n1, n2, n3⟩ cur r = splitAt ⟨none, n1, n2, n3⟩ cur r := by
  induction fuel generalizing n1 n2 n3 cur r with
  | zero => omega
  | succ fuel ih =>
    cases r with
    | nil =>
      rw [splitGo, splitAt]
      by_cases h : n1 = 0 ∧ n2 = 0 ∧ n3 = 0
      · obtain ⟨rfl, rfl, rfl⟩ := h
        simp [Place.start]
      · rw [if_pos (by simp; omega), if_neg (by simp [Place.start]; omega)]
    | cons c r =>
      simp only [List.length_cons] at hf
      rw [splitGo, splitAt]
      by_cases hq : isQuote c = true
      · rw [if_pos hq]
        have hq' : c = '\'' ∨ c = '"' := by simpa [isQuote] using hq
        have hc : c ≠ ',' := by rcases hq' with rfl | rfl <;> decide
        rw [if_neg (by simp [hc]), if_neg (by
          rcases hq' with rfl | rfl <;> simp [Misplaced])]
        have hr : Place.read ⟨none, n1, n2, n3⟩ c = ⟨some c, n1, n2, n3⟩ := by
          rcases hq' with rfl | rfl <;> rfl
        rw [hr, splitAt_quoted]
        cases hfq : findQuote c r with
        | none => rfl
        | some x =>
          obtain ⟨a, b⟩ := x
          have := findQuote_length c r a b hfq
          exact ih n1 n2 n3 _ b (by omega)
      · rw [if_neg hq]
        have hq : isQuote c = false := by simpa using hq
        by_cases hcm : c = ',' ∧ n1 = 0 ∧ n2 = 0 ∧ n3 = 0
        · obtain ⟨rfl, rfl, rfl, rfl⟩ := hcm
          have e := ih 0 0 0 [] r (by omega)
          simp only [Int.ofNat_eq_natCast, Nat.cast_zero] at e ⊢
          rw [if_pos (by simp), if_pos (by simp [Place.start])]
          rw [← e]
          rfl
        · rw [if_neg (by
            rintro ⟨h1, h2⟩
            have h2 : (n1 : Int) + n2 + n3 = 0 := h2
            exact hcm ⟨h1, by omega⟩), if_neg (by
            rintro ⟨h1, h2⟩
            simp only [Place.start, Place.mk.injEq, true_and] at h2
            exact hcm ⟨h1, h2⟩), count_spec n1 n2 n3 c hq]
          by_cases hm : Misplaced ⟨none, n1, n2, n3⟩ c
          · rw [if_pos hm, if_pos hm]
          · rw [if_neg hm, if_neg hm]
            simp only
            rw [ih _ _ _ _ r (by omega)]
            congr 1
            have := read_quote n1 n2 n3 c hq
            cases hp : Place.read ⟨none, n1, n2, n3⟩ c with
            | mk q a b d => rw [hp] at this; simp at this; subst this; rfl

/-! ## Soundness and completeness -/

private theorem splitAt_sound (cur r : List Char) (vs : List (List Char))
    (hv : ∀ a c b, cur.reverse = a ++ c :: b → ¬ Misplaced (place a) c)
    (hn : NoTopComma cur.reverse) (h : splitAt (place cur.reverse) cur r = .ok vs) :
    ∃ p ps, cur.reverse ++ r = commas (p :: ps) ∧ vs = (p :: ps).map trim ∧
      ∀ x ∈ p :: ps, Balanced x ∧ NoTopComma x := by
  induction r generalizing cur vs with
  | nil =>
    rw [splitAt] at h
    by_cases hp : place cur.reverse = Place.start
    · rw [if_pos hp] at h
      simp at h
      exact ⟨cur.reverse, [], by simp [commas], by simp [h], by simpa using ⟨⟨hp, hv⟩, hn⟩⟩
    · simp [hp] at h
  | cons c r ih =>
    rw [splitAt] at h
    by_cases hc : c = ',' ∧ place cur.reverse = Place.start
    · rw [if_pos hc, hc.2] at h
      cases hs : splitAt Place.start [] r with
      | error e => rw [hs] at h; simp at h
      | ok ws =>
        rw [hs] at h
        simp at h
        obtain ⟨p, ps, h1, h2, h3⟩ := ih [] ws (by simp) (by intro a b e; simp at e)
          (by simpa [place] using hs)
        refine ⟨cur.reverse, p :: ps, ?_, ?_, ?_⟩
        · rw [commas, ← h1, hc.1]; simp
        · rw [← h, h2]; simp
        · intro x hx
          rcases List.mem_cons.mp hx with rfl | hx
          · exact ⟨⟨hc.2, hv⟩, hn⟩
          · exact h3 x hx
    · rw [if_neg hc] at h
      by_cases hm : Misplaced (place cur.reverse) c
      · simp [hm] at h
      · rw [if_neg hm, ← place_snoc] at h
        have e : (c :: cur).reverse = cur.reverse ++ [c] := by simp
        have split_last : ∀ (a b : List Char) (d : Char), cur.reverse ++ [c] = a ++ d :: b →
            (a = cur.reverse ∧ d = c) ∨ ∃ b', cur.reverse = a ++ d :: b' := by
          intro a b d hab
          rcases List.eq_nil_or_concat b with rfl | ⟨b', x, rfl⟩
          · have := List.append_inj' hab (by simp)
            exact .inl ⟨this.1.symm, by simpa using this.2.symm⟩
          · refine .inr ⟨b', ?_⟩
            rw [List.concat_eq_append] at hab
            have e2 : a ++ d :: (b' ++ [x]) = (a ++ d :: b') ++ [x] := by simp
            rw [e2] at hab
            exact (List.append_inj' hab (by simp)).1
        obtain ⟨p, ps, h1, h2, h3⟩ := ih (c :: cur) vs (by
            rw [e]
            intro a d b hab
            rcases split_last a b d hab with ⟨rfl, rfl⟩ | ⟨b', hb'⟩
            · exact hm
            · exact hv a d b' hb') (by
            rw [e]
            intro a b hab
            rcases split_last a b ',' hab with ⟨rfl, rfl⟩ | ⟨b', hb'⟩
            · exact fun hp => hc ⟨rfl, hp⟩
            · exact hn a b' hb') (by rw [e]; exact h)
        exact ⟨p, ps, by rw [← h1, e]; simp, h2, h3⟩

private theorem splitAt_complete (s cur : List Char) (ps : List (List Char))
    (hp : Balanced (cur.reverse ++ s) ∧ NoTopComma (cur.reverse ++ s))
    (hps : ∀ vs, ps ≠ [] → vs = ps.map trim → splitAt Place.start [] (commas ps) = .ok vs) :
    splitAt (place cur.reverse) cur (s ++ (match ps with | [] => [] | _ => ',' :: commas ps)) =
      .ok (trim (cur.reverse ++ s) :: ps.map trim) := by
  induction s generalizing cur with
  | nil =>
    have h0 : place cur.reverse = Place.start := by simpa using hp.1.1
    cases ps with
    | nil => simp [splitAt, h0]
    | cons q qs =>
      simp only [List.nil_append]
      rw [splitAt, if_pos ⟨rfl, h0⟩, h0, hps _ (by simp) rfl]
      simp
  | cons c s ih =>
    rw [List.cons_append, splitAt, if_neg (by rintro ⟨rfl, h⟩; exact hp.2 _ _ rfl h), if_neg (hp.1.2 _ _ _ rfl), ← place_snoc]
    have e : (c :: cur).reverse = cur.reverse ++ [c] := by simp
    have e2 : cur.reverse ++ c :: s = cur.reverse ++ [c] ++ s := by simp
    have := ih (c :: cur) (by rw [e, ← e2]; exact hp)
    rw [e, ← e2] at this
    exact this

private theorem splitAt_all (ps : List (List Char)) (hne : ps ≠ [])
    (h : ∀ x ∈ ps, Balanced x ∧ NoTopComma x) :
    splitAt Place.start [] (commas ps) = .ok (ps.map trim) := by
  induction ps with
  | nil => exact absurd rfl hne
  | cons p ps ih =>
    have := splitAt_complete p [] ps (by simpa using h p (by simp)) (by
      rintro vs hn rfl
      exact ih hn fun x hx => h x (by simp [hx]))
    cases ps with
    | nil => simpa [place, commas] using this
    | cons q qs => simpa [place, commas] using this

/-! Whitespace at the start does not matter. -/

private theorem read_space (p : Place) (c : Char) (hp : p.quote = none) (hc : isSpace c = true) :
    p.read c = p := by
  simp only [isSpace, Bool.or_eq_true, beq_iff_eq] at hc
  unfold Place.read
  rw [hp]
  rcases hc with ((((rfl | rfl) | rfl) | rfl) | rfl) | rfl <;> rfl

private theorem place_space (w s : List Char) (hw : ∀ c ∈ w, isSpace c = true) :
    place (w ++ s) = place s := by
  induction w with
  | nil => rfl
  | cons c w ih =>
    have := ih fun c hc => hw c (by simp [hc])
    unfold place at this ⊢
    rw [List.cons_append, List.foldl_cons, read_space _ c rfl (hw c (by simp))]
    exact this

private theorem place_blank (w : List Char) (hw : ∀ c ∈ w, isSpace c = true) :
    place w = Place.start := by
  have := place_space w [] hw
  simpa [place] using this

private theorem split_append {α : Type} (w s a b : List α) (c : α) (h : w ++ s = a ++ c :: b) :
    (∃ w', w = a ++ c :: w') ∨ ∃ a', a = w ++ a' ∧ s = a' ++ c :: b := by
  rcases List.append_eq_append_iff.mp h with ⟨x, h1, h2⟩ | ⟨x, h1, h2⟩
  · exact .inr ⟨x, h1, h2⟩
  · cases x with
    | nil => exact .inr ⟨[], by simp_all, by simpa using h2.symm⟩
    | cons y x =>
      simp at h2
      exact .inl ⟨x, by rw [h1, h2.1]⟩

private theorem piece_space (w s : List Char) (hw : ∀ c ∈ w, isSpace c = true) :
    (Balanced (w ++ s) ∧ NoTopComma (w ++ s)) ↔ Balanced s ∧ NoTopComma s := by
  have hsp : ∀ c, isSpace c = true → c ≠ ')' ∧ c ≠ ']' ∧ c ≠ '}' ∧ c ≠ '[' ∧ c ≠ '{' ∧ c ≠ ',' := by
    intro c hc
    simp only [isSpace, Bool.or_eq_true, beq_iff_eq] at hc
    rcases hc with ((((rfl | rfl) | rfl) | rfl) | rfl) | rfl <;> decide
  constructor
  · rintro ⟨⟨h1, h2⟩, h3⟩
    refine ⟨⟨by rw [← place_space w s hw]; exact h1, ?_⟩, ?_⟩
    · intro a c b e
      rw [← place_space w a hw]
      exact h2 (w ++ a) c b (by simp [e])
    · intro a b e
      rw [← place_space w a hw]
      exact h3 (w ++ a) b (by simp [e])
  · rintro ⟨⟨h1, h2⟩, h3⟩
    refine ⟨⟨by rw [place_space w s hw]; exact h1, ?_⟩, ?_⟩
    · intro a c b e
      rcases split_append _ _ _ _ _ e with ⟨w', rfl⟩ | ⟨a', rfl, rfl⟩
      · have := hsp c (hw c (by simp))
        simp [Misplaced, this]
      · rw [place_space w a' hw]
        exact h2 a' c b rfl
    · intro a b e
      rcases split_append _ _ _ _ _ e with ⟨w', rfl⟩ | ⟨a', rfl, rfl⟩
      · exact absurd rfl (hsp ',' (hw ',' (by simp))).2.2.2.2.2
      · rw [place_space w a' hw]
        exact h3 a' b rfl

private theorem trim_space (w s : List Char) (hw : ∀ c ∈ w, isSpace c = true) :
    trim (w ++ s) = trim s := by
  unfold trim lskip
  rw [dropWhile_append_all w s hw]

private theorem commas_space (w p : List Char) (ps : List (List Char)) :
    commas ((w ++ p) :: ps) = w ++ commas (p :: ps) := by
  cases ps <;> simp [commas]

/-- C45: a text is split into given values exactly when it consists of pieces with commas between
them, where each piece is balanced and has no comma of its own at the top level, and the values are
the pieces without surrounding whitespace. A blank text gives no values; everything else throws. -/
theorem split_iff (s : List Char) (vs : List (List Char)) (hs : ∃ c ∈ s, isSpace c = false) :
    splitValue s = .ok vs ↔
      ∃ p ps, s = commas (p :: ps) ∧ vs = (p :: ps).map trim ∧
        ∀ x ∈ p :: ps, Balanced x ∧ NoTopComma x := by
  have hsplit : s.takeWhile isSpace ++ lskip s = s := List.takeWhile_append_dropWhile
  have hw : ∀ c ∈ s.takeWhile isSpace, isSpace c = true := fun c hc => mem_takeWhile _ _ hc
  have hne : lskip s ≠ [] := by
    intro e
    obtain ⟨c, hc, hsp⟩ := hs
    have : s.takeWhile isSpace = s := by
      have := List.takeWhile_append_dropWhile (p := isSpace) (l := s)
      unfold lskip at e
      rw [e] at this
      simpa using this
    rw [← this] at hc
    rw [mem_takeWhile _ _ hc] at hsp
    simp at hsp
  obtain ⟨c, r, hcr⟩ := List.exists_cons_of_ne_nil hne
  have e : splitValue s = splitAt Place.start [] (lskip s) := by
    unfold splitValue
    rw [hcr]
    exact splitGo_eq _ 0 0 0 [] (c :: r) (by simp)
  rw [e]
  constructor
  · intro h
    obtain ⟨p, ps, h1, h2, h3⟩ := splitAt_sound [] (lskip s) vs (by simp)
      (by intro a b e; simp at e) (by simpa [place] using h)
    refine ⟨s.takeWhile isSpace ++ p, ps, ?_, ?_, ?_⟩
    · rw [commas_space, ← h1]; simpa using hsplit.symm
    · rw [h2, List.map_cons, List.map_cons, trim_space _ _ hw]
    · intro x hx
      rcases List.mem_cons.mp hx with rfl | hx
      · exact (piece_space _ _ hw).mpr (h3 p (by simp))
      · exact h3 x (by simp [hx])
  · rintro ⟨p, ps, h1, rfl, h3⟩
    have hpw : p.takeWhile isSpace ++ lskip p = p := List.takeWhile_append_dropWhile
    have hpw' : ∀ c ∈ p.takeWhile isSpace, isSpace c = true := fun c hc => mem_takeWhile _ _ hc
    have h4 : lskip s = commas (lskip p :: ps) := by
      rw [h1]
      nth_rewrite 1 [← hpw]
      rw [commas_space]
      unfold lskip
      rw [dropWhile_append_all _ _ hpw']
      refine dropWhile_head _ ?_
      intro d hd
      have hhead : ∀ d, (p.dropWhile isSpace).head? = some d → isSpace d = false := by
        intro d hd
        have := List.head?_dropWhile_not isSpace p
        rw [hd] at this
        simpa using this
      cases ps with
      | nil => exact hhead d (by simpa [commas] using hd)
      | cons q qs =>
        cases hl : p.dropWhile isSpace with
        | nil => rw [hl] at hd; simp [commas] at hd; subst hd; rfl
        | cons x xs =>
          rw [hl] at hd; simp [commas] at hd; subst hd
          exact hhead x (by rw [hl]; rfl)
    rw [h4, splitAt_all _ (by simp) (by
      intro x hx
      rcases List.mem_cons.mp hx with rfl | hx
      · have := h3 p (by simp)
        rw [← hpw] at this
        exact (piece_space _ _ hpw').mp this
      · exact h3 x (by simp [hx]))]
    rw [List.map_cons, List.map_cons]
    nth_rewrite 2 [← hpw]
    rw [trim_space _ _ hpw']

/-- C45: a blank text is an empty vector. -/
theorem split_blank (s : List Char) (hs : ∀ c ∈ s, isSpace c = true) : splitValue s = .ok [] := by
  have : lskip s = [] := by
    have := dropWhile_append_all s [] hs
    simpa [lskip] using this
  simp [splitValue, this]

/-- C45: splitting never ends in anything but values or an exception. -/
theorem split_throws (s : List Char) (e : Err) (h : splitValue s = .error e) : e = .throws := by
  have key : ∀ (r : List Char) (p : Place) (cur : List Char) (e : Err),
      splitAt p cur r = .error e → e = .throws := by
    intro r
    induction r with
    | nil =>
      intro p cur e h
      rw [splitAt] at h
      split at h <;> simp_all
    | cons c r ih =>
      intro p cur e h
      rw [splitAt] at h
      split at h
      · cases hs : splitAt p [] r with
        | error e' =>
          rw [hs] at h
          simp at h; subst h
          exact ih _ _ _ hs
        | ok vs => rw [hs] at h; simp at h
      · split at h
        · simp_all
        · exact ih _ _ _ h
  unfold splitValue at h
  cases hl : lskip s with
  | nil => rw [hl] at h; simp at h
  | cons c r =>
    rw [hl] at h
    have h' : splitGo (r.length + 2) ⟨(0 : Nat), (0 : Nat), (0 : Nat)⟩ [] (c :: r) = .error e := h
    rw [splitGo_eq _ 0 0 0 [] (c :: r) (by simp)] at h'
    exact key _ _ _ _ h'

/-! ## Vectors -/

/-- C45: the vector of a bracketed list of pieces. -/
theorem vector_spec (p : List Char) (ps : List (List Char))
    (h : ∀ x ∈ p :: ps, Balanced x ∧ NoTopComma x)
    (hs : ∃ c ∈ commas (p :: ps), isSpace c = false) :
    getVector ('[' :: commas (p :: ps) ++ [']']) = .ok ((p :: ps).map trim) := by
  unfold getVector
  have h1 : ('[' :: commas (p :: ps) ++ [']']).getLast? = some ']' := List.getLast?_concat
  rw [if_neg (by simp), if_neg (by rw [h1]; simp), if_neg (by simp)]
  have h2 : ('[' :: commas (p :: ps) ++ [']']).tail.dropLast = commas (p :: ps) := by
    rw [List.cons_append, List.tail_cons, List.dropLast_concat]
  rw [h2, split_iff _ _ hs]
  exact ⟨p, ps, rfl, rfl, h⟩

/-- C45: a value that is not in brackets is a vector of one element. -/
theorem vector_single (v : List Char) (hne : v ≠ [])
    (h : v.head? ≠ some '[' ∨ v.getLast? ≠ some ']') : getVector v = .ok [v] := by
  unfold getVector
  rw [if_neg hne, if_pos (by tauto)]

/-! ## Quotes -/

/-- A text of quoted and unquoted parts. -/
inductive Part where
  | bare (s : List Char)
  | quoted (q : Char) (s : List Char)

/-- The text as written. -/
def Part.text : Part → List Char
  | .bare s => s
  | .quoted q s => q :: s ++ [q]

/-- The text as meant. -/
def Part.meaning : Part → List Char
  | .bare s => s
  | .quoted _ s => s

/-- Quotes are used as they should. -/
def Part.Ok : Part → Prop
  | .bare s => ∀ c ∈ s, isQuote c = false
  | .quoted q s => (q = '\'' ∨ q = '"') ∧ q ∉ s

private theorem string_bare (fuel : Nat) (s r cur : List Char) (h : ∀ c ∈ s, isQuote c = false) :
    getStringGo (s.length + fuel) cur (s ++ r) = getStringGo fuel (s.reverse ++ cur) r := by
  induction s generalizing cur with
  | nil => simp
  | cons c s ih =>
    have e : (c :: s).length + fuel = (s.length + fuel) + 1 := by simp; omega
    rw [e, List.cons_append, getStringGo, if_neg (by simp [h c (by simp)]),
      ih _ fun c hc => h c (by simp [hc])]
    simp

private theorem string_parts (ps : List Part) (h : ∀ p ∈ ps, p.Ok) (cur : List Char) :
    ∀ fuel, (ps.flatMap Part.text).length < fuel →
      getStringGo fuel cur (ps.flatMap Part.text) = .ok (cur.reverse ++ ps.flatMap Part.meaning) := by
  induction ps generalizing cur with
  | nil =>
    intro fuel hf
    obtain ⟨f, rfl⟩ : ∃ f, fuel = f + 1 := ⟨fuel - 1, by omega⟩
    simp [getStringGo]
  | cons p ps ih =>
    have ih := fun cur => ih (fun p hp => h p (by simp [hp])) cur
    intro fuel hf
    cases p with
    | bare s =>
      simp only [List.flatMap_cons, Part.text, Part.meaning, List.length_append] at hf ⊢
      obtain ⟨f, rfl⟩ : ∃ f, fuel = s.length + f := ⟨fuel - s.length, by omega⟩
      rw [string_bare f s _ cur (h (.bare s) (by simp)), ih _ f (by omega)]
      simp
    | quoted q s =>
      obtain ⟨hq, hs⟩ := h (.quoted q s) (by simp)
      have hq' : isQuote q = true := by rcases hq with rfl | rfl <;> rfl
      simp only [List.flatMap_cons, Part.text, Part.meaning] at hf ⊢
      have e : (q :: s ++ [q]) ++ ps.flatMap Part.text = q :: (s ++ q :: ps.flatMap Part.text) := by
        simp
      rw [e] at hf ⊢
      obtain ⟨f, rfl⟩ : ∃ f, fuel = f + 1 := ⟨fuel - 1, by omega⟩
      rw [getStringGo, if_pos hq', find_spec q s _ hs]
      simp only
      rw [ih [] f (by simp only [List.length_cons, List.length_append] at hf; omega)]
      simp

/-- C80: a string value is the text without its quotes: quoted parts are kept literally. -/
theorem string_spec (ps : List Part) (h : ∀ p ∈ ps, p.Ok) :
    getString (ps.flatMap Part.text) = .ok (ps.flatMap Part.meaning) := by
  unfold getString
  rw [string_parts ps h [] _ (by omega)]
  simp

/-- C80: a quote that is not closed is refused. -/
theorem string_unclosed (ps : List Part) (h : ∀ p ∈ ps, p.Ok) (q : Char) (s : List Char)
    (hq : q = '\'' ∨ q = '"') (hs : q ∉ s) :
    getString (ps.flatMap Part.text ++ q :: s) = .error .throws := by
  have hq' : isQuote q = true := by rcases hq with rfl | rfl <;> rfl
  have hnone : findQuote q s = none := by
    induction s with
    | nil => rfl
    | cons c s ih =>
      have hc : c ≠ q := by rintro rfl; exact hs (by simp)
      simp [findQuote, hc, ih fun hm => hs (by simp [hm])]
  have key : ∀ (ps : List Part), (∀ p ∈ ps, p.Ok) → ∀ cur fuel,
      (ps.flatMap Part.text).length < fuel →
      getStringGo fuel cur (ps.flatMap Part.text ++ q :: s) = .error .throws := by
    intro ps
    induction ps with
    | nil =>
      intro _ cur fuel hf
      obtain ⟨f, rfl⟩ : ∃ f, fuel = f + 1 := ⟨fuel - 1, by simp at hf; omega⟩
      simp [getStringGo, hq', hnone]
    | cons p ps ih =>
      intro h cur fuel hf
      have ih := ih (fun p hp => h p (by simp [hp]))
      cases p with
      | bare t =>
        simp only [List.flatMap_cons, Part.text, List.length_append, List.append_assoc] at hf ⊢
        obtain ⟨f, rfl⟩ : ∃ f, fuel = t.length + f := ⟨fuel - t.length, by omega⟩
        rw [string_bare f t _ cur (h (.bare t) (by simp)), ih _ f (by omega)]
      | quoted q' t =>
        obtain ⟨hq2, hs2⟩ := h (.quoted q' t) (by simp)
        have hq2' : isQuote q' = true := by rcases hq2 with rfl | rfl <;> rfl
        simp only [List.flatMap_cons, Part.text] at hf ⊢
        have e : (q' :: t ++ [q']) ++ ps.flatMap Part.text ++ q :: s =
            q' :: (t ++ q' :: (ps.flatMap Part.text ++ q :: s)) := by simp
        rw [e]
        obtain ⟨f, rfl⟩ : ∃ f, fuel = f + 1 := ⟨fuel - 1, by simp at hf; omega⟩
        rw [getStringGo, if_pos hq2', find_spec q' t _ hs2]
        simp only
        rw [ih [] f (by simp only [List.length_cons, List.length_append] at hf; omega)]
  unfold getString
  exact key ps h [] _ (by simp; omega)

/-! ## Vectors of integers -/

private theorem mapVector_ok {α : Type} (f : List Char → Except Err α) (vs : List (List Char))
    (xs : List α) : mapVector f vs = .ok xs ↔ List.Forall₂ (fun v x => f v = .ok x) vs xs := by
  induction vs generalizing xs with
  | nil => cases xs <;> simp [mapVector]
  | cons v vs ih =>
    rw [mapVector]
    cases hf : f v with
    | error e =>
      simp only [reduceCtorEq, false_iff]
      intro h
      cases h with
      | cons h _ => rw [hf] at h; simp at h
    | ok x =>
      cases hm : mapVector f vs with
      | error e =>
        simp only [reduceCtorEq, false_iff]
        intro h
        cases h with
        | cons _ h => rw [← ih] at h; rw [hm] at h; simp at h
      | ok ys =>
        simp only [Except.ok.injEq]
        constructor
        · rintro rfl
          exact .cons hf ((ih ys).mp hm)
        · intro h
          cases h with
          | cons h1 h2 =>
            rw [hf] at h1
            rw [← ih, hm] at h2
            simp at h1 h2
            rw [h1, h2]

/-- C79: a vector of integers has, for each piece, the integer that is written there. -/
theorem intVector_spec (einval : Bool) (p : List Char) (ps : List (List Char))
    (h : ∀ x ∈ p :: ps, Balanced x ∧ NoTopComma x)
    (hs : ∃ c ∈ commas (p :: ps), isSpace c = false) (vs : List Int) :
    getIntVector einval ('[' :: commas (p :: ps) ++ [']']) = .ok vs ↔
      List.Forall₂ (fun x v => Reads einval (trim x) v ∧ -2 ^ 31 ≤ v ∧ v < 2 ^ 31) (p :: ps) vs := by
  unfold getIntVector
  rw [vector_spec p ps h hs]
  simp only
  rw [mapVector_ok, List.forall₂_map_left_iff]
  simp only [strToInt_spec]

/-! ## Examples -/

example : getVector "[a, 'x,y', [1,2],(3,4) ]".toList =
    .ok ["a".toList, "'x,y'".toList, "[1,2]".toList, "(3,4)".toList] := by decide +kernel
example : Balanced "'x,(y'".toList ∧ NoTopComma " f(1,2)".toList := by
  constructor
  · refine ⟨by decide, ?_⟩
    intro a c b e
    have hl : a.length < 6 := by
      have := congrArg List.length e; simp at this; omega
    have ha : a = "'x,(y'".toList.take a.length := by rw [e]; simp
    have hc : ("'x,(y'".toList)[a.length]? = some c := by rw [e]; simp
    generalize a.length = n at *
    subst ha
    interval_cases n <;> (simp at hc; subst hc; decide)
  · intro a b e
    have hl : a.length < 7 := by
      have := congrArg List.length e; simp at this; omega
    have ha : a = " f(1,2)".toList.take a.length := by rw [e]; simp
    have hc : (" f(1,2)".toList)[a.length]? = some ',' := by rw [e]; simp
    generalize a.length = n at *
    subst ha
    interval_cases n <;> first | (simp at hc; done) | decide
example : getVector "[a]b]".toList = .error .throws := by decide +kernel
/-- Interleaved brackets and parentheses are accepted in one order. -/
example : getVector "[[(])]".toList = .ok ["[(])".toList] ∧
    getVector "[([)]]".toList = .error .throws := by decide +kernel
/-- A missing element counts as zero with glibc. -/
theorem missing_element : getIntVector false "[1,,2]".toList = .ok [1, 0, 2] := by decide +kernel
example : getString "a'b c'\"d'e\"".toList = .ok "ab cd'e".toList := by decide +kernel
example : Part.Ok (.quoted '\'' "b c".toList) := ⟨.inl rfl, by decide⟩

end DP3.ParamValue
