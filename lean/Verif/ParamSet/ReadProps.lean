import Verif.ParamSet.MapProps
import Verif.ParamValue.Props

/-!
# C81: a parset file means what is written
-/

namespace DP3.ParamSet

open DP3.StringTools DP3.ParamValue

set_option linter.unusedSimpArgs false

/-! ## Files as they are meant to be written -/

/-- What follows on a line after the equal sign, or all of a continuation line: a value, possibly a
backslash (with whitespace before it), whitespace, and possibly a comment. -/
structure Rest where
  w1 : List Char
  val : List Part
  backslash : Option (List Char)
  w2 : List Char
  comment : Option (List Char)

/-- A line of a file. -/
inductive Line where
  /-- Nothing but whitespace and a comment. -/
  | skip (w : List Char) (comment : Option (List Char))
  /-- `key = value`. -/
  | assign (w : List Char) (key : List Part) (w' : List Char) (rest : Rest)
  /-- More of the value. -/
  | more (w : List Char) (rest : Rest)

/-- The text of parts. -/
def partsText (ps : List Part) : List Char := ps.flatMap Part.text

/-- The text of a comment. -/
def commentText : Option (List Char) → List Char
  | none => []
  | some c => '#' :: c

/-- The text of the value, with the backslash. -/
def Rest.core (r : Rest) : List Char :=
  r.w1 ++ partsText r.val ++ match r.backslash with
    | none => []
    | some w => w ++ ['\\']

/-- The text of a line. -/
def Line.text : Line → List Char
  | .skip w c => w ++ commentText c
  | .assign w key w' r => w ++ partsText key ++ w' ++ '=' :: (r.core ++ r.w2 ++ commentText r.comment)
  | .more w r => w ++ (r.core ++ r.w2 ++ commentText r.comment)

/-- Whitespace. -/
def White (w : List Char) : Prop := ∀ c ∈ w, isSpace c = true

/-- A part of a key or value: properly quoted, or without quotes, equal signs and comments. -/
def GoodPart : Part → Prop
  | .bare s => ∀ c ∈ s, isQuote c = false ∧ c ≠ '=' ∧ c ≠ '#'
  | .quoted q s => (q = '\'' ∨ q = '"') ∧ q ∉ s

/-- A text that has no whitespace around it. -/
def Trimmed (s : List Char) : Prop :=
  (∀ c, s.head? = some c → isSpace c = false) ∧ (∀ c, s.getLast? = some c → isSpace c = false)

/-- What a line may have after the equal sign. -/
def Rest.WF (r : Rest) : Prop :=
  White r.w1 ∧ White r.w2 ∧ (∀ p ∈ r.val, GoodPart p) ∧ Trimmed (partsText r.val) ∧
  match r.backslash with
  | none => (partsText r.val).getLast? ≠ some '\\' ∧ (partsText r.val = [] → r.w1 = [])
  | some w => White w

/-- Lines as they should be. -/
def Line.WF : Line → Prop
  | .skip w _ => White w
  | .assign w key w' r =>
    White w ∧ (∀ p ∈ key, GoodPart p) ∧ Trimmed (partsText key) ∧ key.flatMap Part.meaning ≠ [] ∧
    (∀ c ∈ w', c = ' ' ∨ c = '\t') ∧ r.WF
  | .more w r => White w ∧ r.WF ∧ r.w1 = [] ∧ (partsText r.val = [] → r.backslash = some [])

/-- A value with a continuation: a blank comes between them unless the continuation is quoted. -/
def continued (v t : List Char) : List Char :=
  if t = [] then v else if v = [] then t
  else if t.head? = some '\'' ∨ t.head? = some '"' then v ++ t else v ++ ' ' :: t

/-- The keys and values that a file gives, in order. The second argument is the assignment of which
the value may be continued. -/
def denote : Option (List Char × List Char) → List Line → List (List Char × List Char)
  | cur, [] => cur.toList
  | cur, .skip _ _ :: ls => denote cur ls
  | cur, .assign _ key _ r :: ls =>
    cur.toList ++ denote (some (key.flatMap Part.meaning, partsText r.val)) ls
  | cur, .more _ r :: ls => denote (cur.map fun e => (e.1, continued e.2 (partsText r.val))) ls

/-- The first line that is not skipped is an assignment. -/
def StartsOk : List Line → Prop
  | [] => True
  | .skip _ _ :: ls => StartsOk ls
  | .assign _ _ _ _ :: _ => True
  | .more _ _ :: _ => False

/-- The text of a file. -/
def fileText (ls : List Line) : List Char := ls.flatMap fun l => l.text ++ ['\n']

/-! ## Positions -/

private theorem at_append (P R : List Char) (c : Char) : at' (P ++ c :: R) P.length = c := by
  simp [at']

private theorem at_eq (line P R : List Char) (c : Char) (n : Nat) (h : line = P ++ c :: R)
    (hn : n = P.length) : at' line n = c := by
  subst h hn; exact at_append P R c

private theorem at_end (line : List Char) : at' line line.length = '\x00' := by simp [at']

private theorem lskip_pos (line P w R : List Char) (n st : Nat) (h : line = P ++ w ++ R)
    (hst : st = P.length) (hw : White w)
    (hn : n = w.length ∨ (w.length ≤ n ∧ ∀ c, R.head? = some c → isSpace c = false)) :
    lskipPos line n st = P.length + w.length := by
  subst hst
  induction w generalizing P n with
  | nil =>
    cases n with
    | zero => simp [lskipPos]
    | succ n =>
      rcases hn with hn | ⟨_, hn⟩
      · simp at hn
      rw [lskipPos, if_neg]
      · simp
      · cases R with
        | nil =>
          have : line = P := by simpa using h
          rw [this, at_end]; decide
        | cons c R =>
          rw [at_eq line P R c _ (by simpa using h) rfl, hn c rfl]; simp
  | cons c w ih =>
    cases n with
    | zero => simp at hn
    | succ n =>
      rw [lskipPos, at_eq line P (w ++ R) c _ (by simpa using h) rfl, if_pos (hw c (by simp))]
      have := ih (P ++ [c]) n (by simpa using h) (fun c hc => hw c (by simp [hc])) (by
        rcases hn with hn | ⟨h1, h2⟩
        · left; simpa using hn
        · right; exact ⟨by simpa using h1, h2⟩)
      simp only [List.length_append, List.length_cons, List.length_nil] at this ⊢
      rw [this]; omega

private theorem rskip_pos (line P w R : List Char) (st e : Nat) (h : line = P ++ w ++ R)
    (he : e = P.length + w.length) (hw : White w) (hst : st ≤ P.length)
    (hP : st = P.length ∨ ∀ c, P.getLast? = some c → isSpace c = false) :
    rskipPos line st e = P.length := by
  subst he
  induction w using List.reverseRecOn generalizing R with
  | nil =>
    rcases List.eq_nil_or_concat P with rfl | ⟨Q, c, rfl⟩
    · simp [rskipPos]
    · rw [List.concat_eq_append] at *
      have hl : (Q ++ [c]).length + ([] : List Char).length = Q.length + 1 := by simp
      rw [hl, rskipPos, if_neg]
      · simp
      · rintro ⟨h1, h2⟩
        rw [at_eq line Q R c _ (by simpa using h) rfl] at h2
        rcases hP with hP | hP
        · simp at hP; omega
        · rw [hP c List.getLast?_concat] at h2; simp at h2
  | append_singleton w c ih =>
    have hl : P.length + (w ++ [c]).length = (P.length + w.length) + 1 := by simp; omega
    rw [hl, rskipPos, if_pos]
    · exact ih (c :: R) (by simpa using h) fun x hx => hw x (by simp [hx])
    · refine ⟨by omega, ?_⟩
      rw [at_eq line (P ++ w) R c _ (by simpa using h) (by simp)]
      exact hw c (by simp)

private theorem rskip_ge (line : List Char) (st p e : Nat) (hp : isSpace (at' line p) = false)
    (he : p < e) : p + 1 ≤ rskipPos line st e := by
  induction e with
  | zero => omega
  | succ e ih =>
    rw [rskipPos]
    split_ifs with h
    · refine ih ?_
      by_contra hh
      have : p = e := by omega
      rw [this] at hp
      rw [hp] at h
      simp at h
    · omega

/-! ## Scanning -/

/-- Several iterations of the loop. -/
private def Goes (m : Mode) (pfx line : List Char) (n st stop nb sv : Nat) (r : Reader)
    (st' nb' sv' : Nat) (r' : Reader) : Prop :=
  ∀ fuel, scanLine m pfx line (n + fuel) st stop nb sv r =
    scanLine m pfx line fuel st' stop nb' sv' r'

private theorem Goes.trans {m : Mode} {pfx line : List Char} {n k st stop nb sv : Nat} {r : Reader}
    {st1 nb1 sv1 : Nat} {r1 : Reader} {st2 nb2 sv2 : Nat} {r2 : Reader}
    (h1 : Goes m pfx line n st stop nb sv r st1 nb1 sv1 r1)
    (h2 : Goes m pfx line k st1 stop nb1 sv1 r1 st2 nb2 sv2 r2) :
    Goes m pfx line (n + k) st stop nb sv r st2 nb2 sv2 r2 := by
  intro fuel
  rw [Nat.add_assoc, h1, h2]

/-- The last position that is not a blank. -/
private def lastNb : Nat → List Char → Nat → Nat
  | _, [], nb => nb
  | i, c :: s, nb => lastNb (i + 1) s (if c ≠ ' ' ∧ c ≠ '\t' then i else nb)

private theorem lastNb_snoc (i : Nat) (s : List Char) (c : Char) (nb : Nat) :
    lastNb i (s ++ [c]) nb = if c ≠ ' ' ∧ c ≠ '\t' then i + s.length else lastNb i s nb := by
  induction s generalizing i nb with
  | nil => simp [lastNb]
  | cons d s ih =>
    rw [List.cons_append, lastNb, ih, lastNb]
    simp only [List.length_cons]
    split_ifs <;> first | rfl | omega

private theorem goes_bare (m : Mode) (pfx line P s R : List Char) (stop nb sv : Nat) (r : Reader)
    (h : line = P ++ s ++ R) (hs : ∀ c ∈ s, isQuote c = false ∧ c ≠ '=' ∧ c ≠ '#')
    (hstop : P.length + s.length ≤ stop) :
    Goes m pfx line s.length P.length stop nb sv r (P.length + s.length) (lastNb P.length s nb) sv r := by
  induction s generalizing P nb with
  | nil => intro fuel; simp [lastNb]
  | cons c s ih =>
    intro fuel
    obtain ⟨h1, h2, h3⟩ := hs c (by simp)
    have hat : at' line P.length = c := at_eq line P (s ++ R) c _ (by simpa using h) rfl
    simp only [List.length_cons] at hstop
    have e : (c :: s).length + fuel = (s.length + fuel) + 1 := by simp; omega
    have := fun nb => ih (P ++ [c]) nb (by simpa using h) (fun x hx => hs x (by simp [hx]))
      (by simp; omega)
    simp only [List.length_append, List.length_cons, List.length_nil, Nat.zero_add] at this
    rw [e, scanLine, if_pos (by omega), hat, if_neg (by simp [h1]), if_neg h3, if_neg h2, lastNb]
    have e2 : P.length + (c :: s).length = P.length + 1 + s.length := by simp; omega
    rw [e2]
    split_ifs with hb
    · exact this _ fuel
    · exact this _ fuel

private theorem goes_quoted (m : Mode) (pfx line P s R : List Char) (q : Char) (stop nb sv : Nat)
    (r : Reader) (h : line = P ++ (q :: s ++ [q]) ++ R) (hq : q = '\'' ∨ q = '"') (hs : q ∉ s)
    (hstop : P.length < stop) :
    Goes m pfx line 1 P.length stop nb sv r (P.length + s.length + 2) (P.length + s.length + 1) sv r := by
  intro fuel
  have hat : at' line P.length = q := at_eq line P (s ++ [q] ++ R) q _ (by simpa using h) rfl
  have hq' : isQuote q = true := by rcases hq with rfl | rfl <;> rfl
  have hdrop : line.drop (P.length + 1) = s ++ q :: R := by
    rw [h]
    have : P ++ (q :: s ++ [q]) ++ R = (P ++ [q]) ++ (s ++ q :: R) := by simp
    rw [this, List.drop_left' (by simp)]
  rw [Nat.add_comm, scanLine, if_pos hstop, hat, if_pos hq']
  simp only [skipQuotedPos]
  rw [hat, hdrop, find_spec q s R hs]
  simp only [List.length_append, List.length_cons, List.length_nil]
  have e1 : P.length + 1 + (s.length + 1) = P.length + s.length + 2 := by omega
  simp only [e1]
  congr 1

private theorem goes_parts (m : Mode) (pfx line P R : List Char) (ps : List Part) (stop nb sv : Nat)
    (r : Reader) (h : line = P ++ partsText ps ++ R) (hp : ∀ p ∈ ps, GoodPart p)
    (hstop : P.length + (partsText ps).length ≤ stop) :
    ∃ n nb', n ≤ (partsText ps).length ∧
      Goes m pfx line n P.length stop nb sv r (P.length + (partsText ps).length) nb' sv r ∧
      (partsText ps = [] → nb' = nb) ∧
      (∀ c, (partsText ps).getLast? = some c → c ≠ ' ' → c ≠ '\t' →
        nb' + 1 = P.length + (partsText ps).length) := by
  induction ps generalizing P nb with
  | nil => exact ⟨0, nb, by simp [partsText], fun fuel => by simp [partsText], fun _ => rfl, by simp [partsText]⟩
  | cons p ps ih =>
    have ht : partsText (p :: ps) = p.text ++ partsText ps := by simp [partsText]
    rw [ht] at h hstop ⊢
    simp only [List.length_append] at hstop ⊢
    -- the first part
    have first : ∃ n nb1, n ≤ p.text.length ∧
        Goes m pfx line n P.length stop nb sv r (P.length + p.text.length) nb1 sv r ∧
        (p.text = [] → nb1 = nb) ∧
        (∀ c, p.text.getLast? = some c → c ≠ ' ' → c ≠ '\t' → nb1 + 1 = P.length + p.text.length) := by
      cases p with
      | bare s =>
        simp only [Part.text] at h hstop ⊢
        refine ⟨s.length, lastNb P.length s nb, le_refl _,
          goes_bare m pfx line P s (partsText ps ++ R) stop nb sv r (by simpa using h)
            (hp (.bare s) (by simp)) (by omega), ?_, ?_⟩
        · rintro rfl; rfl
        · intro c hc h1 h2
          rcases List.eq_nil_or_concat s with rfl | ⟨s', x, rfl⟩
          · simp at hc
          · rw [List.concat_eq_append] at hc ⊢
            rw [List.getLast?_concat] at hc
            simp only [Option.some.injEq] at hc
            subst hc
            rw [lastNb_snoc, if_pos ⟨h1, h2⟩]
            simp; omega
      | quoted q s =>
        obtain ⟨hq, hs⟩ := hp (.quoted q s) (by simp)
        have hlen : (Part.quoted q s).text.length = s.length + 2 := by simp [Part.text]
        rw [hlen] at hstop ⊢
        refine ⟨1, P.length + s.length + 1, by omega, ?_, ?_, ?_⟩
        · have := goes_quoted m pfx line P s (partsText ps ++ R) q stop nb sv r
            (by rw [h]; simp [Part.text]) hq hs (by omega)
          exact this
        · intro e; simp [Part.text] at e
        · intro c _ _ _; omega
    obtain ⟨n1, nb1, hn1, hg1, he1, hl1⟩ := first
    obtain ⟨n2, nb2, hn2, hg2, he2, hl2⟩ := ih (P ++ p.text) nb1 (by rw [h]; simp)
      (fun q hq => hp q (by simp [hq])) (by simp; omega)
    rw [List.length_append] at hg2 hl2
    refine ⟨n1 + n2, nb2, by omega, ?_, ?_, ?_⟩
    · have := hg1.trans hg2
      rw [Nat.add_assoc] at this
      exact this
    · intro e
      have e := List.append_eq_nil_iff.mp e
      rw [he2 e.2, he1 e.1]
    · intro c hc h1 h2
      by_cases hnil : partsText ps = []
      · rw [hnil, List.append_nil] at hc
        rw [he2 hnil, hl1 c hc h1 h2, hnil]; simp
      · have := hl2 c (by
          rw [List.getLast?_append_of_ne_nil _ hnil] at hc; exact hc) h1 h2
        omega

/-! ## Lines -/

private theorem white_good {w : List Char} (h : White w) :
    ∀ c ∈ w, isQuote c = false ∧ c ≠ '=' ∧ c ≠ '#' := by
  intro c hc
  have := h c hc
  simp only [isSpace, Bool.or_eq_true, beq_iff_eq] at this
  rcases this with ((((rfl | rfl) | rfl) | rfl) | rfl) | rfl <;> decide

private theorem good_ok (p : Part) (h : GoodPart p) : p.Ok := by
  cases p with
  | bare s => exact fun c hc => (h c hc).1
  | quoted q s => exact h

/-- The core of a line as parts. -/
private def coreParts (q : Rest) : List Part :=
  .bare q.w1 :: q.val ++ match q.backslash with
    | none => []
    | some w => [.bare (w ++ ['\\'])]

private theorem coreParts_text (q : Rest) : partsText (coreParts q) = q.core := by
  unfold coreParts Rest.core
  cases q.backslash <;> simp [partsText, Part.text]

private theorem coreParts_good (q : Rest) (h : q.WF) : ∀ p ∈ coreParts q, GoodPart p := by
  obtain ⟨h1, h2, h3, h4, h5⟩ := h
  intro p hp
  unfold coreParts at hp
  rw [List.cons_append, List.mem_cons, List.mem_append] at hp
  rcases hp with rfl | hp | hp
  · exact white_good h1
  · exact h3 p hp
  · cases hb : q.backslash with
    | none => rw [hb] at hp; simp at hp
    | some w =>
      rw [hb] at hp h5
      simp only [List.mem_singleton] at hp
      subst hp
      intro c hc
      rcases List.mem_append.mp hc with hc | hc
      · exact white_good h5 c hc
      · simp at hc; subst hc; decide

private theorem core_last (q : Rest) (h : q.WF) (c : Char) (hc : q.core.getLast? = some c) :
    isSpace c = false ∧ (c = '\\' ↔ q.backslash.isSome = true) := by
  obtain ⟨h1, h2, h3, h4, h5⟩ := h
  unfold Rest.core at hc
  cases hb : q.backslash with
  | none =>
    rw [hb] at hc h5
    simp only [List.append_nil] at hc h5
    by_cases hv : partsText q.val = []
    · rw [hv, h5.2 hv] at hc
      simp at hc
    · rw [List.getLast?_append_of_ne_nil _ hv] at hc
      refine ⟨h4.2 c hc, ?_⟩
      simp only [Option.isSome_none, Bool.false_eq_true, iff_false]
      rintro rfl
      exact h5.1 hc
  | some w =>
    rw [hb] at hc
    rw [← List.append_assoc, List.getLast?_concat] at hc
    simp only [Option.some.injEq] at hc
    subst hc
    exact ⟨by decide, by simp⟩

private theorem scan_rest (m : Mode) (pfx line A : List Char) (q : Rest) (hq : q.WF)
    (h : line = A ++ (q.core ++ q.w2 ++ commentText q.comment)) (stop : Nat)
    (hn : q.comment = none → stop = A.length + q.core.length)
    (hc : ∀ c, q.comment = some c → A.length + q.core.length + q.w2.length < stop)
    (nb : Nat) (r : Reader) (fuel : Nat) (hf : q.core.length + q.w2.length + 2 ≤ fuel) :
    scanLine m pfx line fuel A.length stop nb A.length r =
      .ok (A.length + q.core.length, A.length, r) := by
  have hstop : A.length + q.core.length ≤ stop := by
    cases hcm : q.comment with
    | none => rw [hn hcm]
    | some c => have := hc c hcm; omega
  obtain ⟨n1, nb1, hn1, hg1, -, -⟩ := goes_parts m pfx line A (q.w2 ++ commentText q.comment)
    (coreParts q) stop nb A.length r (by rw [coreParts_text, h]; simp) (coreParts_good q hq)
    (by rw [coreParts_text]; exact hstop)
  rw [coreParts_text] at hn1 hg1
  cases hcm : q.comment with
  | none =>
    obtain ⟨f, rfl⟩ : ∃ f, fuel = n1 + (f + 1) := ⟨fuel - n1 - 1, by omega⟩
    rw [hg1, scanLine, if_neg (by rw [hn hcm]; omega), hn hcm]
  | some c =>
    have hc := hc c hcm
    have hg2 := goes_bare m pfx line (A ++ q.core) q.w2 ('#' :: c) stop nb1 A.length r
      (by rw [h, hcm]; simp [commentText]) (white_good hq.2.1) (by simp; omega)
    simp only [List.length_append] at hg2
    have hg := hg1.trans hg2
    obtain ⟨f, rfl⟩ : ∃ f, fuel = (n1 + q.w2.length) + (f + 1 + 1) :=
      ⟨fuel - n1 - q.w2.length - 2, by omega⟩
    have hat : at' line (A.length + q.core.length + q.w2.length) = '#' :=
      at_eq line (A ++ q.core ++ q.w2) c '#' _ (by rw [h, hcm]; simp [commentText]) (by simp; omega)
    rw [hg, scanLine, if_pos hc, hat, if_neg (by decide), if_pos rfl]
    have hr : rskipPos line A.length (A.length + q.core.length + q.w2.length) =
        A.length + q.core.length := by
      have := rskip_pos line (A ++ q.core) q.w2 ('#' :: c) A.length
        (A.length + q.core.length + q.w2.length) (by rw [h, hcm]; simp [commentText]) (by simp)
        hq.2.1 (by simp) (by
          by_cases hcore : q.core = []
          · left; simp [hcore]
          · right
            intro x hx
            rw [List.getLast?_append_of_ne_nil _ hcore] at hx
            exact (core_last q hq x hx).1)
      simpa using this
    rw [hr, scanLine, if_neg (by omega)]

private theorem take_mid (line P t R : List Char) (n : Nat) (h : line = P ++ t ++ R) (hn : n = P.length) :
    (line.drop n).take t.length = t := by
  subst hn h
  rw [List.append_assoc, List.drop_left' rfl, List.take_left' rfl]

private theorem takeValue_text (line P t R : List Char) (r : Reader) (stop sv : Nat)
    (h : line = P ++ t ++ R) (hstop : stop = P.length + t.length) (hsv : sv = P.length) :
    (if sv < stop then
      (if r.value = [] then { r with value := (line.drop sv).take (stop - sv) }
      else if isQuote (at' line sv) then { r with value := r.value ++ (line.drop sv).take (stop - sv) }
      else { r with value := r.value ++ ' ' :: (line.drop sv).take (stop - sv) })
    else r) = { r with value := continued r.value t } := by
  subst hstop hsv
  have e : P.length + t.length - P.length = t.length := by omega
  rw [e, take_mid line P t R _ h rfl]
  unfold continued
  cases t with
  | nil => simp
  | cons c t =>
    have hlt : P.length < P.length + (c :: t).length := by simp
    have hne : ¬ (c :: t = []) := by simp
    have hat := at_eq line P (t ++ R) c P.length (by simpa using h) rfl
    by_cases hv : r.value = []
    · rw [if_pos hlt, if_pos hv, if_neg hne, if_pos hv]
    · rw [if_pos hlt, if_neg hv, if_neg hne, if_neg hv, hat]
      have hiff : isQuote c = true ↔ ((c :: t).head? = some '\'' ∨ (c :: t).head? = some '"') := by
        simp [isQuote, or_comm]
      by_cases hq : isQuote c = true
      · rw [if_pos hq, if_pos (hiff.mp hq)]
      · rw [if_neg hq, if_neg (fun e => hq (hiff.mpr e))]

private theorem takeValue_rest (line A : List Char) (q : Rest) (hq : q.WF)
    (h : line = A ++ (q.core ++ q.w2 ++ commentText q.comment)) (r : Reader)
    (hA : q.core = [] → ∃ B c, A = B ++ [c] ∧ c ≠ '\\') :
    takeValue line (A.length + q.core.length) A.length r =
      { r with value := continued r.value (partsText q.val) } := by
  have hq' := hq
  obtain ⟨h1, h2, h3, h4, h5⟩ := hq
  have hlast : at' line (A.length + q.core.length - 1) = '\\' ↔ q.backslash.isSome = true := by
    rcases List.eq_nil_or_concat q.core with hcore | ⟨C, c, hcore⟩
    · obtain ⟨B, c, rfl, hc⟩ := hA hcore
      have hb : q.backslash.isSome = false := by
        cases hb : q.backslash with
        | none => rfl
        | some w => simp [Rest.core, hb] at hcore
      rw [at_eq line B (q.w2 ++ commentText q.comment) c _ (by rw [h, hcore]; simp)
        (by rw [hcore]; simp), hb]
      simp [hc]
    · rw [List.concat_eq_append] at hcore
      rw [at_eq line (A ++ C) (q.w2 ++ commentText q.comment) c _ (by rw [h, hcore]; simp)
        (by rw [hcore]; simp)]
      exact (core_last q hq' c (by rw [hcore, List.getLast?_concat])).2
  cases hb : q.backslash with
  | none =>
    rw [hb] at h5 hlast
    have hcore : q.core = q.w1 ++ partsText q.val := by simp [Rest.core, hb]
    have hl : lskipPos line (A.length + q.core.length - A.length) A.length = A.length + q.w1.length := by
      refine lskip_pos line A q.w1 (partsText q.val ++ q.w2 ++ commentText q.comment) _ _
        (by rw [h, hcore]; simp) rfl h1 ?_
      by_cases hv : partsText q.val = []
      · left; rw [hcore, hv]; simp
      · right
        refine ⟨by rw [hcore]; simp, ?_⟩
        intro c hc
        refine h4.1 c ?_
        cases hp : partsText q.val with
        | nil => exact absurd hp hv
        | cons x t => rw [hp] at hc; simpa using hc
    have hl0 : ¬ at' line (A.length + q.core.length - 1) = '\\' := by simpa using hlast
    simp only [takeValue]
    rw [if_neg hl0, hl]
    exact takeValue_text line (A ++ q.w1) (partsText q.val) (q.w2 ++ commentText q.comment) r _ _
      (by rw [h, hcore]; simp) (by rw [hcore]; simp; omega) (by simp)
  | some w =>
    rw [hb] at h5 hlast
    have h5 : White w := h5
    have hcore : q.core = q.w1 ++ partsText q.val ++ (w ++ ['\\']) := by simp [Rest.core, hb]
    have hl0 : at' line (A.length + q.core.length - 1) = '\\' := by simpa using hlast
    simp only [takeValue]
    rw [if_pos hl0]
    by_cases hv : partsText q.val = []
    · have hr : rskipPos line A.length (A.length + q.core.length - 1) = A.length := by
        refine rskip_pos line A (q.w1 ++ w) ('\\' :: (q.w2 ++ commentText q.comment)) _ _
          (by rw [h, hcore, hv]; simp) (by rw [hcore, hv]; simp; omega) ?_ (le_refl _) (.inl rfl)
        intro c hc
        rcases List.mem_append.mp hc with hc | hc
        · exact h1 c hc
        · exact h5 c hc
      rw [hr, Nat.sub_self, lskipPos, if_neg (by omega), hv]
      simp [continued]
    · have hr : rskipPos line A.length (A.length + q.core.length - 1) =
          A.length + q.w1.length + (partsText q.val).length := by
        have := rskip_pos line (A ++ q.w1 ++ partsText q.val) w ('\\' :: (q.w2 ++ commentText q.comment))
          A.length (A.length + q.core.length - 1)
          (by rw [h, hcore]; simp) (by rw [hcore]; simp; omega) h5 (by simp) (by
            right
            intro c hc
            rw [List.getLast?_append_of_ne_nil _ hv] at hc
            exact h4.2 c hc)
        rw [this]; simp; omega
      have hl : lskipPos line (A.length + q.w1.length + (partsText q.val).length - A.length) A.length =
          A.length + q.w1.length := by
        refine lskip_pos line A q.w1 (partsText q.val ++ (w ++ ['\\']) ++ q.w2 ++ commentText q.comment) _ _
          (by rw [h, hcore]; simp) rfl h1 (.inr ⟨by omega, ?_⟩)
        intro c hc
        refine h4.1 c ?_
        cases hp : partsText q.val with
        | nil => exact absurd hp hv
        | cons x t => rw [hp] at hc; simpa using hc
      rw [hr, hl]
      exact takeValue_text line (A ++ q.w1) (partsText q.val)
        ((w ++ ['\\']) ++ q.w2 ++ commentText q.comment) r _ _
        (by rw [h, hcore]; simp) (by simp) (by simp)

private theorem parts_head (ps : List Part) (h : ∀ p ∈ ps, GoodPart p) (c : Char)
    (hc : (partsText ps).head? = some c) : c ≠ '#' := by
  induction ps with
  | nil => simp [partsText] at hc
  | cons p ps ih =>
    have ih := ih fun p hp => h p (by simp [hp])
    have e : partsText (p :: ps) = p.text ++ partsText ps := by simp [partsText]
    rw [e] at hc
    cases p with
    | bare s =>
      cases s with
      | nil => exact ih (by simpa [Part.text] using hc)
      | cons x s =>
        simp [Part.text] at hc
        subst hc
        exact (h (.bare (x :: s)) (by simp) x (by simp)).2.2
    | quoted q s =>
      simp [Part.text] at hc
      subst hc
      rcases (h (.quoted q s) (by simp)).1 with rfl | rfl <;> decide

/-- The end of the text that is scanned. -/
private theorem first_stop (line A : List Char) (q : Rest) (hq : q.WF)
    (h : line = A ++ (q.core ++ q.w2 ++ commentText q.comment)) (st : Nat) (hst : st ≤ A.length)
    (hA : q.core = [] → ∀ c, A.getLast? = some c → isSpace c = false) :
    (q.comment = none → rskipPos line st line.length = A.length + q.core.length) ∧
    (∀ c, q.comment = some c →
      A.length + q.core.length + q.w2.length < rskipPos line st line.length) := by
  constructor
  · intro hc
    have := rskip_pos line (A ++ q.core) q.w2 [] st line.length
      (by rw [h, hc]; simp [commentText]) (by rw [h, hc]; simp [commentText]; omega)
      hq.2.1 (by simp; omega) (by
        right
        intro c hc
        by_cases hcore : q.core = []
        · rw [hcore, List.append_nil] at hc
          exact hA hcore c hc
        · rw [List.getLast?_append_of_ne_nil _ hcore] at hc
          exact (core_last q hq c hc).1)
    simpa using this
  · intro c hc
    have hat : at' line (A.length + q.core.length + q.w2.length) = '#' :=
      at_eq line (A ++ q.core ++ q.w2) c '#' _ (by rw [h, hc]; simp [commentText]) (by simp; omega)
    refine rskip_ge line st _ _ (by rw [hat]; decide) ?_
    rw [h, hc]; simp [commentText]; omega

private theorem read_skip (m : Mode) (pfx w : List Char) (c : Option (List Char)) (r : Reader)
    (hw : White w) : readLine m pfx r (w ++ commentText c) = .ok r := by
  have hl : lskipPos (w ++ commentText c) (w ++ commentText c).length 0 = w.length := by
    have := lskip_pos (w ++ commentText c) [] w (commentText c) (w ++ commentText c).length 0
      (by simp) rfl hw (.inr ⟨by simp, by cases c <;> simp [commentText]; decide⟩)
    simpa using this
  simp only [readLine]
  rw [hl]
  cases c with
  | none =>
    have e : w ++ commentText none = w := by simp [commentText]
    rw [e, at_end, if_neg (by decide)]
    have hr := rskip_pos w w [] [] w.length w.length (by simp) (by simp) (by simp [White]) (le_refl _) (.inl rfl)
    rw [hr, if_neg (by omega)]
  | some c =>
    rw [if_pos]
    exact at_eq _ w c '#' _ rfl rfl

private theorem read_more (m : Mode) (pfx w : List Char) (q : Rest) (r : Reader)
    (h : (Line.more w q).WF) :
    readLine m pfx r (Line.more w q).text =
      .ok { r with value := continued r.value (partsText q.val) } := by
  obtain ⟨hw, hq, hw1, hne⟩ := h
  generalize hline : (Line.more w q).text = line
  have hline' : line = w ++ (q.core ++ q.w2 ++ commentText q.comment) := by
    rw [← hline]; rfl
  have hcore : ∃ c t, q.core = c :: t ∧ isSpace c = false ∧ c ≠ '#' := by
    have e : q.core = partsText q.val ++ (match q.backslash with
      | none => []
      | some w => w ++ ['\\']) := by unfold Rest.core; rw [hw1]; rfl
    by_cases hv : partsText q.val = []
    · rw [hv, hne hv] at e
      exact ⟨'\\', [], by simpa using e, by decide, by decide⟩
    · cases hp : partsText q.val with
      | nil => exact absurd hp hv
      | cons c t =>
        rw [hp, List.cons_append] at e
        exact ⟨c, _, e, hq.2.2.2.1.1 c (by rw [hp]; rfl),
          parts_head q.val hq.2.2.1 c (by rw [hp]; rfl)⟩
  obtain ⟨c, t, hct, hcs, hch⟩ := hcore
  have hne' : q.core ≠ [] := by rw [hct]; simp
  have hl : lskipPos line line.length 0 = w.length := by
    have := lskip_pos line [] w (q.core ++ q.w2 ++ commentText q.comment) line.length 0
      (by rw [hline']; simp) rfl hw (.inr ⟨by rw [hline']; simp, by
        intro x hx; rw [hct] at hx; simp at hx; rw [← hx]; exact hcs⟩)
    simpa using this
  have hat : at' line w.length = c := at_eq line w (t ++ q.w2 ++ commentText q.comment) c _
    (by rw [hline', hct]; simp) rfl
  obtain ⟨hs1, hs2⟩ := first_stop line w q hq hline' w.length (le_refl _) (fun e => absurd e hne')
  have hpos : w.length < rskipPos line w.length line.length := by
    cases hcm : q.comment with
    | none => rw [hs1 hcm, hct]; simp
    | some x => have := hs2 x hcm; omega
  simp only [readLine]
  rw [hl, hat, if_neg hch, if_pos hpos, scan_rest m pfx line w q hq hline' _ hs1 hs2 _ r _ (by
    rw [hline']; simp; omega)]
  simp only
  rw [takeValue_rest line w q hq hline' r (fun e => absurd e hne')]

/-- A new key: the assignment before is stored. -/
private def newKey (m : Mode) (k : List Char) (r : Reader) : Reader :=
  if r.key ≠ [] then ⟨addMerge m r.key r.value r.map, k, []⟩ else { r with key := k }

private theorem read_assign (m : Mode) (pfx w w' : List Char) (key : List Part) (q : Rest) (r : Reader)
    (h : (Line.assign w key w' q).WF) :
    readLine m pfx r (Line.assign w key w' q).text =
      .ok { newKey m (pfx ++ key.flatMap Part.meaning) r with
        value := continued (newKey m (pfx ++ key.flatMap Part.meaning) r).value (partsText q.val) } := by
  obtain ⟨hw, hk, hkt, hkne, hw', hq⟩ := h
  generalize hline : (Line.assign w key w' q).text = line
  have hA : line = (w ++ partsText key ++ w' ++ ['=']) ++ (q.core ++ q.w2 ++ commentText q.comment) := by
    rw [← hline]; simp [Line.text]
  have hKne : partsText key ≠ [] := by
    intro e
    refine hkne ?_
    have : ∀ p ∈ key, p.text = [] := by simpa [partsText] using e
    rw [List.flatMap_eq_nil_iff]
    intro p hp
    have := this p hp
    cases p with
    | bare s => exact this
    | quoted x s => simp [Part.text] at this
  obtain ⟨c, t, hct⟩ := List.exists_cons_of_ne_nil hKne
  have hl : lskipPos line line.length 0 = w.length := by
    have := lskip_pos line [] w (partsText key ++ w' ++ ['='] ++ (q.core ++ q.w2 ++ commentText q.comment))
      line.length 0
      (by rw [hA]; simp) rfl hw (.inr ⟨by rw [hA]; simp, by
        intro x hx; rw [hct] at hx; simp at hx; rw [← hx]; exact hkt.1 c (by rw [hct]; rfl)⟩)
    simpa using this
  have hat : at' line w.length = c :=
    at_eq line w (t ++ w' ++ ['='] ++ (q.core ++ q.w2 ++ commentText q.comment)) c _
      (by rw [hA, hct]; simp) rfl
  have hch : c ≠ '#' := parts_head key hk c (by rw [hct]; rfl)
  obtain ⟨hs1, hs2⟩ := first_stop line _ q hq hA w.length (by simp) (by
    intro _ x hx
    rw [List.getLast?_concat] at hx
    simp at hx; subst hx; decide)
  have hAlen : (w ++ partsText key ++ w' ++ ['=']).length =
      w.length + (partsText key).length + w'.length + 1 := by simp; omega
  have hpos : w.length + (partsText key).length + w'.length + 1 ≤ rskipPos line w.length line.length := by
    rw [hAlen] at hs1 hs2
    cases hcm : q.comment with
    | none => rw [hs1 hcm]; omega
    | some x => have := hs2 x hcm; omega
  generalize hstop : rskipPos line w.length line.length = stop at *
  -- the key
  obtain ⟨n1, nb1, hn1, hg1, -, hnb⟩ := goes_parts m pfx line w
    (w' ++ ['='] ++ (q.core ++ q.w2 ++ commentText q.comment)) key stop w.length w.length r
    (by rw [hA]; simp) hk (by omega)
  obtain ⟨T, x, hTx⟩ : ∃ T x, partsText key = T ++ [x] := by
    rcases List.eq_nil_or_concat (partsText key) with e | ⟨T, x, e⟩
    · exact absurd e hKne
    · exact ⟨T, x, by rw [e, List.concat_eq_append]⟩
  have hxs : isSpace x = false := hkt.2 x (by rw [hTx, List.getLast?_concat])
  have hnb := hnb x (by rw [hTx, List.getLast?_concat]) (by rintro rfl; simp [isSpace] at hxs)
    (by rintro rfl; simp [isSpace] at hxs)
  have hg2 := goes_bare m pfx line (w ++ partsText key) w'
    (['='] ++ (q.core ++ q.w2 ++ commentText q.comment)) stop nb1 w.length r
    (by rw [hA]; simp) (by
      intro y hy
      rcases hw' y hy with rfl | rfl <;> decide) (by simp; omega)
  have hlast : ∀ (i : Nat) (v : List Char), (∀ y ∈ v, y = ' ' ∨ y = '\t') → lastNb i v nb1 = nb1 := by
    intro i v
    induction v generalizing i with
    | nil => intro _; rfl
    | cons y v ih =>
      intro hv
      rw [lastNb, if_neg (by rcases hv y (by simp) with rfl | rfl <;> decide)]
      exact ih _ fun z hz => hv z (by simp [hz])
  rw [hlast _ w' hw'] at hg2
  simp only [List.length_append] at hg2
  have hg := hg1.trans hg2
  have hateq : at' line (w.length + (partsText key).length + w'.length) = '=' :=
    at_eq line (w ++ partsText key ++ w') (q.core ++ q.w2 ++ commentText q.comment) '=' _
      (by rw [hA]; simp) (by simp; omega)
  have hkey : keyText line w.length nb1 = partsText key := by
    unfold keyText
    rw [if_neg (by omega)]
    have : nb1 + 1 - w.length = (partsText key).length := by omega
    rw [this]
    exact take_mid line w (partsText key) (w' ++ ['='] ++ (q.core ++ q.w2 ++ commentText q.comment)) _
      (by rw [hA]; simp) rfl
  have htk : takeKey m pfx line w.length nb1 r = .ok (newKey m (pfx ++ key.flatMap Part.meaning) r) := by
    simp only [takeKey]
    rw [hkey]
    have : getString (partsText key) = .ok (key.flatMap Part.meaning) :=
      string_spec key fun p hp => good_ok p (hk p hp)
    rw [this]
    simp only
    rw [if_neg hkne]
    unfold newKey
    by_cases hr : r.key = [] <;> simp [hr]
  simp only [readLine]
  rw [hl, hat, if_neg hch, hstop, if_pos (by omega)]
  obtain ⟨f, hf, hf2⟩ : ∃ f, line.length + 2 = (n1 + w'.length) + (f + 1) ∧
      q.core.length + q.w2.length + 2 ≤ f := by
    refine ⟨line.length + 2 - (n1 + w'.length) - 1, ?_, ?_⟩ <;>
    · rw [hA]; simp only [List.length_append, List.length_cons, List.length_nil]; omega
  rw [hf, hg, scanLine, if_pos (by omega), hateq, if_neg (by decide), if_neg (by decide), if_pos rfl, htk]
  simp only
  have := scan_rest m pfx line (w ++ partsText key ++ w' ++ ['=']) q hq hA stop hs1 hs2 nb1
    (newKey m (pfx ++ key.flatMap Part.meaning) r) f hf2
  have hv := takeValue_rest line (w ++ partsText key ++ w' ++ ['=']) q hq hA
    (newKey m (pfx ++ key.flatMap Part.meaning) r) (fun _ => ⟨_, '=', rfl, by decide⟩)
  rw [hAlen] at this hv
  rw [this]
  simp only
  rw [hv]

/-! ## Files -/

/-- What has been read so far. -/
private def Inv (pfx : List Char) (cur : Option (List Char × List Char)) (r : Reader) : Prop :=
  match cur with
  | none => r.key = [] ∧ r.value = []
  | some e => r.key = pfx ++ e.1 ∧ r.key ≠ [] ∧ r.value = e.2

/-- The map after the last line. -/
private def finish (m : Mode) (r : Reader) : KV :=
  if r.key ≠ [] then addMerge m r.key r.value r.map else r.map

private theorem read_lines (m : Mode) (pfx : List Char) (ls : List Line) (hw : ∀ l ∈ ls, l.WF)
    (cur : Option (List Char × List Char)) (r : Reader) (hi : Inv pfx cur r)
    (hs : cur = none → StartsOk ls) :
    ∃ r', readLines m pfx r (ls.map Line.text) = .ok r' ∧
      finish m r' = (denote cur ls).foldl (fun t e => addMerge m (pfx ++ e.1) e.2 t) r.map := by
  induction ls generalizing cur r with
  | nil =>
    refine ⟨r, rfl, ?_⟩
    cases cur with
    | none => simp [finish, hi.1, denote]
    | some e =>
      obtain ⟨h1, h2, h3⟩ := hi
      rw [finish, if_pos h2, h1, h3]
      simp [denote]
  | cons l ls ih =>
    have ih := ih fun x hx => hw x (by simp [hx])
    have hl := hw l (by simp)
    rw [List.map_cons, readLines]
    cases l with
    | skip w c =>
      have e : readLine m pfx r (Line.skip w c).text = .ok r := read_skip m pfx w c r hl
      rw [e]
      exact ih cur r hi hs
    | assign w key w' q =>
      rw [read_assign m pfx w w' key q r hl]
      simp only
      have hkne : key.flatMap Part.meaning ≠ [] := hl.2.2.2.1
      cases cur with
      | none =>
        obtain ⟨h1, h2⟩ := hi
        have e : newKey m (pfx ++ key.flatMap Part.meaning) r =
            { r with key := pfx ++ key.flatMap Part.meaning } := by simp [newKey, h1]
        rw [e]
        obtain ⟨r', h3, h4⟩ := ih (some (key.flatMap Part.meaning, partsText q.val))
          { r with key := pfx ++ key.flatMap Part.meaning, value := continued r.value (partsText q.val) }
          ⟨rfl, by simpa using fun _ => by simpa using hkne, by
            unfold continued; by_cases h : partsText q.val = [] <;> simp [h, h2]⟩ (by simp)
        exact ⟨r', h3, by rw [h4]; rfl⟩
      | some x =>
        obtain ⟨h1, h2, h3⟩ := hi
        have e : newKey m (pfx ++ key.flatMap Part.meaning) r =
            ⟨addMerge m r.key r.value r.map, pfx ++ key.flatMap Part.meaning, []⟩ := by simp [newKey, h2]
        rw [e]
        obtain ⟨r', h4, h5⟩ := ih (some (key.flatMap Part.meaning, partsText q.val))
          ⟨addMerge m r.key r.value r.map, pfx ++ key.flatMap Part.meaning, continued [] (partsText q.val)⟩
          ⟨rfl, by simpa using fun _ => by simpa using hkne, by
            unfold continued; by_cases h : partsText q.val = [] <;> simp [h]⟩ (by simp)
        exact ⟨r', h4, by rw [h5, h1, h3]; rfl⟩
    | more w q =>
      cases cur with
      | none => exact absurd (hs rfl) (by simp [StartsOk])
      | some x =>
        rw [read_more m pfx w q r hl]
        obtain ⟨h1, h2, h3⟩ := hi
        obtain ⟨r', h4, h5⟩ := ih (some (x.1, continued x.2 (partsText q.val)))
          { r with value := continued r.value (partsText q.val) }
          ⟨h1, h2, by rw [h3]⟩ (by simp)
        exact ⟨r', h4, by rw [h5]; rfl⟩

private theorem split_one (cur l rest : List Char) (h : '\n' ∉ l) :
    splitLines cur (l ++ '\n' :: rest) = (cur.reverse ++ l) :: splitLines [] rest := by
  induction l generalizing cur with
  | nil => simp [splitLines]
  | cons c l ih =>
    rw [List.cons_append, splitLines, if_neg (by rintro rfl; simp at h), ih _ (by simp at h; exact h.2)]
    simp

private theorem split_file (ls : List Line) (h : ∀ l ∈ ls, '\n' ∉ l.text) :
    splitLines [] (fileText ls) = ls.map Line.text := by
  induction ls with
  | nil => rfl
  | cons l ls ih =>
    have e : fileText (l :: ls) = l.text ++ '\n' :: fileText ls := by simp [fileText]
    rw [e, split_one _ _ _ (h l (by simp)), ih fun x hx => h x (by simp [hx])]
    rfl

private theorem split_newline (cur t : List Char) (h : t ≠ [] → t.getLast? ≠ some '\n')
    (h0 : t = [] → cur ≠ []) : splitLines cur (t ++ ['\n']) = splitLines cur t := by
  induction t generalizing cur with
  | nil => simp [splitLines, h0 rfl]
  | cons c t ih =>
    rw [List.cons_append, splitLines, splitLines]
    by_cases hc : c = '\n'
    · subst hc
      rw [if_pos rfl, if_pos rfl]
      cases t with
      | nil => simp at h
      | cons d t => rw [ih [] (by simpa using h) (by simp)]
    · rw [if_neg hc, if_neg hc]
      refine ih _ (fun ht => ?_) (by simp)
      have := h (by simp)
      rwa [List.getLast?_cons_of_ne_nil ht] at this

/-- C81: it does not matter whether the last line ends with a newline. -/
theorem final_newline (pfx t : List Char) (s : PSet) (ht : t ≠ []) (h : t.getLast? ≠ some '\n') :
    readStream pfx (t ++ ['\n']) s = readStream pfx t s := by
  unfold readStream
  rw [split_newline [] t (fun _ => h) (fun e => absurd e ht)]

private theorem read_file (pfx : List Char) (ls : List Line) (s : PSet) (hw : ∀ l ∈ ls, l.WF)
    (hn : ∀ l ∈ ls, '\n' ∉ l.text) (hs : StartsOk ls) :
    readStream pfx (fileText ls) s =
      .ok { s with map := (denote none ls).foldl (fun t e => addMerge s.mode (pfx ++ e.1) e.2 t) s.map } := by
  obtain ⟨r', h1, h2⟩ := read_lines s.mode pfx ls hw none ⟨s.map, [], []⟩ ⟨rfl, rfl⟩ fun _ => hs
  unfold readStream
  rw [split_file ls hn, h1]
  simp only
  rw [← h2]; rfl

private theorem continued_trimmed (v t : List Char) (hv : Trimmed v) (ht : Trimmed t) :
    Trimmed (continued v t) := by
  unfold continued
  by_cases h1 : t = []
  · rw [if_pos h1]; exact hv
  rw [if_neg h1]
  by_cases h2 : v = []
  · rw [if_pos h2]; exact ht
  rw [if_neg h2]
  have h3 : ∀ w, (v ++ w).head? = v.head? := by
    intro w; cases v with
    | nil => exact absurd rfl h2
    | cons x v => rfl
  split_ifs
  · refine ⟨fun c hc => hv.1 c (by rwa [h3] at hc), fun c hc => ht.2 c ?_⟩
    rwa [List.getLast?_append_of_ne_nil _ h1] at hc
  · refine ⟨fun c hc => hv.1 c (by rwa [h3] at hc), fun c hc => ht.2 c ?_⟩
    rwa [List.getLast?_append_of_ne_nil _ (by simp), List.getLast?_cons_of_ne_nil h1] at hc

private theorem rest_trimmed (q : Rest) (h : q.WF) : Trimmed (partsText q.val) := h.2.2.2.1

private theorem denote_trimmed (ls : List Line) (hw : ∀ l ∈ ls, l.WF)
    (cur : Option (List Char × List Char)) (hc : ∀ e ∈ cur, Trimmed e.2) :
    ∀ e ∈ denote cur ls, Trimmed e.2 := by
  induction ls generalizing cur with
  | nil => simpa [denote] using hc
  | cons l ls ih =>
    have ih := ih fun x hx => hw x (by simp [hx])
    have hl := hw l (by simp)
    cases l with
    | skip w c => exact ih cur hc
    | assign w key w' q =>
      intro e he
      rw [denote, List.mem_append] at he
      rcases he with he | he
      · exact hc e (by simpa using he)
      · exact ih _ (by simpa using rest_trimmed q hl.2.2.2.2.2) e he
    | more w q =>
      refine ih _ ?_
      intro e he
      simp only [Option.mem_def, Option.map_eq_some_iff] at he
      obtain ⟨x, hx, rfl⟩ := he
      exact continued_trimmed _ _ (hc x hx) (rest_trimmed q hl.2.1)

private theorem trimmed_trim (v : List Char) (h : Trimmed v) : trim v = v := by
  have := trim_eq [] v [] (by simp) (by simp) h.1 h.2
  simpa using this

private theorem merges_sorted (m : Mode) (es t : KV) (ht : Sorted m t) (pfx : List Char) :
    Sorted m (es.foldl (fun t e => addMerge m (pfx ++ e.1) e.2 t) t) := by
  induction es generalizing t with
  | nil => exact ht
  | cons e es ih => exact ih _ (addMerge_sorted _ _ _ _ ht)

private theorem merges_keep (pfx : List Char) (es : KV) (s : PSet) (hs : Sorted s.mode s.map)
    (k : List Char) (h : ∀ e ∈ es, ¬ SameKey s.mode k (pfx ++ e.1)) :
    value { s with map := es.foldl (fun t e => addMerge s.mode (pfx ++ e.1) e.2 t) s.map } k =
      value s k := by
  induction es generalizing s with
  | nil => rfl
  | cons e es ih =>
    have := ih { s with map := addMerge s.mode (pfx ++ e.1) e.2 s.map } (addMerge_sorted _ _ _ _ hs)
      fun x hx => h x (by simp [hx])
    rw [List.foldl_cons]
    refine this.trans ?_
    rw [addMerge_value s hs, if_neg (h e (by simp))]

/-- C81: reading a file keeps the set in order (so that the theorems on sets apply to it). -/
theorem read_sorted (pfx : List Char) (ls : List Line) (s : PSet) (hw : ∀ l ∈ ls, l.WF)
    (hn : ∀ l ∈ ls, '\n' ∉ l.text) (hst : StartsOk ls) (hs : Sorted s.mode s.map) :
    ∃ s', readStream pfx (fileText ls) s = .ok s' ∧ s'.mode = s.mode ∧ s'.asked = s.asked ∧
      Sorted s'.mode s'.map :=
  ⟨_, read_file pfx ls s hw hn hst, rfl, rfl, merges_sorted _ _ _ hs _⟩

/-- C81: of the assignments in a file to a key the last one counts; its value is the text after the
equal sign with all lines that continue it, without comments, without backslashes at the end of lines and
without the whitespace around. -/
theorem read_last (pfx : List Char) (ls : List Line) (s : PSet) (hw : ∀ l ∈ ls, l.WF)
    (hn : ∀ l ∈ ls, '\n' ∉ l.text) (hst : StartsOk ls) (hs : Sorted s.mode s.map)
    (pre post : List (List Char × List Char)) (k v k' : List Char)
    (hd : denote none ls = pre ++ (k, v) :: post) (hk : SameKey s.mode k' (pfx ++ k))
    (hpost : ∀ e ∈ post, ¬ SameKey s.mode k' (pfx ++ e.1)) :
    ∃ s', readStream pfx (fileText ls) s = .ok s' ∧ value s' k' = some v := by
  refine ⟨_, read_file pfx ls s hw hn hst, ?_⟩
  have hv : Trimmed v := denote_trimmed ls hw none (by simp) (k, v) (by rw [hd]; simp)
  rw [hd, List.foldl_append, List.foldl_cons]
  have h1 := merges_sorted s.mode pre s.map hs pfx
  have h2 := merges_keep pfx post
    ⟨s.mode, addMerge s.mode (pfx ++ k) v
        (pre.foldl (fun t e => addMerge s.mode (pfx ++ e.1) e.2 t) s.map), s.asked⟩
    (addMerge_sorted _ _ _ _ h1) k' hpost
  refine h2.trans ?_
  have h3 := addMerge_value { s with map := pre.foldl (fun t e => addMerge s.mode (pfx ++ e.1) e.2 t) s.map }
    h1 (pfx ++ k) v k'
  refine h3.trans ?_
  rw [if_pos hk, trimmed_trim v hv]

/-- C81: a key to which nothing is assigned in the file keeps its value. -/
theorem read_other (pfx : List Char) (ls : List Line) (s : PSet) (hw : ∀ l ∈ ls, l.WF)
    (hn : ∀ l ∈ ls, '\n' ∉ l.text) (hst : StartsOk ls) (hs : Sorted s.mode s.map) (k' : List Char)
    (h : ∀ e ∈ denote none ls, ¬ SameKey s.mode k' (pfx ++ e.1)) :
    ∃ s', readStream pfx (fileText ls) s = .ok s' ∧ value s' k' = value s k' :=
  ⟨_, read_file pfx ls s hw hn hst, merges_keep pfx _ s hs k' h⟩

/-! ## Writing and reading again -/

/-- Entries that a file can hold. -/
def Writable (e : List Char × List Char) : Prop :=
  e.1 ≠ [] ∧ Trimmed e.1 ∧ (∀ c ∈ e.1, isQuote c = false ∧ c ≠ '=' ∧ c ≠ '#' ∧ c ≠ '\n') ∧
  (∃ ps : List Part, e.2 = partsText ps ∧ ∀ p ∈ ps, GoodPart p) ∧ Trimmed e.2 ∧ '\n' ∉ e.2 ∧
  e.2.getLast? ≠ some '\\'

private theorem write_lines (s : KV) (h : ∀ e ∈ s, Writable e) :
    ∃ ls : List Line, s.flatMap (fun e => e.1 ++ '=' :: e.2 ++ ['\n']) = fileText ls ∧
      (∀ l ∈ ls, l.WF) ∧ (∀ l ∈ ls, '\n' ∉ l.text) ∧ StartsOk ls ∧
      ∀ cur, denote cur ls = cur.toList ++ s := by
  induction s with
  | nil => exact ⟨[], rfl, by simp, by simp, trivial, by simp [denote]⟩
  | cons e s ih =>
    obtain ⟨ls, h1, h2, h3, -, h4⟩ := ih fun x hx => h x (by simp [hx])
    obtain ⟨hk0, hkt, hkc, ⟨ps, hps, hpg⟩, hvt, hvn, hvb⟩ := h e (by simp)
    have ht : (Line.assign [] [.bare e.1] [] ⟨[], ps, none, [], none⟩).text = e.1 ++ '=' :: e.2 := by
      simp [Line.text, partsText, Part.text, Rest.core, commentText, hps]
    refine ⟨.assign [] [.bare e.1] [] ⟨[], ps, none, [], none⟩ :: ls, ?_, ?_, ?_, trivial, ?_⟩
    · rw [List.flatMap_cons, h1]
      have : fileText (.assign [] [.bare e.1] [] ⟨[], ps, none, [], none⟩ :: ls) =
        (Line.assign [] [.bare e.1] [] ⟨[], ps, none, [], none⟩).text ++ ['\n'] ++ fileText ls := rfl
      rw [this, ht]
    · intro l hl
      rcases List.mem_cons.mp hl with rfl | hl
      · refine ⟨by simp [White], ?_, by simpa [partsText, Part.text] using hkt,
          by simpa [Part.meaning] using hk0, by simp, by simp [White], by simp [White], hpg,
          by rw [← hps]; exact hvt, by rw [← hps]; exact hvb, fun _ => rfl⟩
        intro p hp
        simp only [List.mem_singleton] at hp
        subst hp
        exact fun c hc => ⟨(hkc c hc).1, (hkc c hc).2.1, (hkc c hc).2.2.1⟩
      · exact h2 l hl
    · intro l hl
      rcases List.mem_cons.mp hl with rfl | hl
      · rw [ht]
        simp only [List.mem_append, List.mem_cons, not_or]
        exact ⟨fun hc => (hkc _ hc).2.2.2 rfl, by decide, hvn⟩
      · exact h3 l hl
    · intro cur
      rw [denote, h4]
      simp [Part.meaning, ← hps]

/-- C81: a set that is written and read again has the same keys and values. -/
theorem write_read (s : PSet) (hs : Sorted s.mode s.map) (h : ∀ e ∈ s.map, Writable e) :
    readStream [] (writeStream s) ⟨s.mode, [], []⟩ = .ok ⟨s.mode, s.map, []⟩ := by
  obtain ⟨ls, h1, h2, h3, h4, h5⟩ := write_lines s.map h
  have e : writeStream s = fileText ls := h1
  rw [e, read_file [] ls _ h2 h3 h4, h5]
  have := addMerge_rebuild s.mode s.map hs fun e he => trimmed_trim _ (h e he).2.2.2.2.1
  simpa using this

/-! ## Texts that are not read as one might think -/

/-- C81: a value with an equal sign that is not quoted becomes two assignments in a file; as an argument
of the command line it is one. -/
theorem equal_in_value :
    (readStream [] "a=b=c\n".toList ⟨.normal, [], []⟩).toOption.map PSet.map =
      some [("a".toList, []), ("b".toList, "c".toList)] ∧
    (adoptArguments ["a=b=c".toList] ⟨.normal, [], []⟩).map = [("a".toList, "b=c".toList)] := by
  decide +kernel

/-- C81: with a double equal sign the second key is the rest of the line. -/
theorem double_equal :
    (readStream [] "a==b\n".toList ⟨.normal, [], []⟩).toOption.map PSet.map =
      some [("=b".toList, "b".toList), ("a".toList, [])] := by decide +kernel

/-- C81: an equal sign without a key is not refused, the key is the equal sign itself. -/
theorem missing_key :
    (readStream [] "=5\n".toList ⟨.normal, [], []⟩).toOption.map PSet.map =
      some [("=".toList, "5".toList)] := by decide +kernel

/-- C81: text before the first key becomes part of its value. -/
theorem leading_text :
    (readStream [] "hello\na=1\n".toList ⟨.normal, [], []⟩).toOption.map PSet.map =
      some [("a".toList, "hello 1".toList)] := by decide +kernel

/-! ## Examples -/

/-- A file with a comment, a value over three lines, and a key that is given twice. -/
def sampleFile : List Line :=
  [.skip "  ".toList (some " a file".toList),
   .assign [] [.bare "steps".toList] " ".toList
     ⟨" ".toList, [.bare "[a,".toList], some " ".toList, [], none⟩,
   .more "   ".toList ⟨[], [.bare "b, ".toList, .quoted '"' "c#=d".toList], none, " ".toList, some "note".toList⟩,
   .skip [] none,
   .more [] ⟨[], [.quoted '\'' "e".toList, .bare "]".toList], none, [], none⟩,
   .assign [] [.quoted '"' "x y".toList] [] ⟨[], [.bare "1".toList], none, [], none⟩,
   .assign [] [.bare "x y".toList] [] ⟨[], [.bare "2".toList], none, [], none⟩]

example : fileText sampleFile =
    "  # a file\nsteps = [a, \\\n   b, \"c#=d\" #note\n\n'e']\n\"x y\"=1\nx y=2\n".toList := by decide +kernel
example : denote none sampleFile = [("steps".toList, "[a, b, \"c#=d\"'e']".toList),
    ("x y".toList, "1".toList), ("x y".toList, "2".toList)] := by decide +kernel
example : (readStream "p.".toList (fileText sampleFile) ⟨.normal, [], []⟩).toOption.map PSet.map =
    some [("p.steps".toList, "[a, b, \"c#=d\"'e']".toList), ("p.x y".toList, "2".toList)] := by
  decide +kernel
example : ∀ l ∈ sampleFile, '\n' ∉ l.text := by decide +kernel
example : StartsOk sampleFile := trivial
example : ∀ l ∈ sampleFile, l.WF := by
  simp [sampleFile, Line.WF, Rest.WF, White, GoodPart, Trimmed, partsText, Part.text, Part.meaning, isSpace,
    isQuote]
example : Writable ("msin.datacolumn".toList, "[a, \"b c\"]".toList) :=
  ⟨by decide, by simp [Trimmed, isSpace], by simp [isQuote],
    ⟨[.bare "[a, ".toList, .quoted '"' "b c".toList, .bare "]".toList], by decide +kernel,
      by simp [GoodPart, isQuote]⟩, by simp [Trimmed, isSpace], by decide, by decide⟩
example : writeStream ⟨.normal, [("a".toList, "1".toList), ("b".toList, [])], []⟩ = "a=1\nb=\n".toList := by
  decide +kernel

end DP3.ParamSet
