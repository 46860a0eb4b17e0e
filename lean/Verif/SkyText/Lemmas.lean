import Verif.SkyText.Spec

/-!
# Lemmas on scanning
-/

namespace DP3.SkyText

set_option linter.unusedSimpArgs false

/-- A text in front of a result. -/
def prepend (p : List Char) (r : Except Err (List Char × List Char)) : Except Err (List Char × List Char) :=
  match r with
  | .ok (v, r) => .ok (p ++ v, r)
  | .error e => .error e

theorem prepend_nil (r : Except Err (List Char × List Char)) : prepend [] r = r := by
  unfold prepend
  cases r <;> rfl

theorem push_eq (c : Char) (r : Except Err (List Char × List Char)) : push c r = prepend [c] r := by
  unfold push prepend
  cases r <;> rfl

theorem prepend_append (p q : List Char) (r : Except Err (List Char × List Char)) : prepend p (prepend q r) = prepend (p ++ q) r := by
  unfold prepend
  cases r
  · rfl
  · simp

theorem scan_cons (sep : Char) (n : Nat) (c : Char) (cs : List Char) : scan sep none n (c :: cs) =
    (if c = '\'' || c = '"' then push c (scan sep (some c) n cs)
    else if c = '[' then push c (scan sep none (n + 1) cs)
    else if c = ']' then (if n = 0 then .error .unbalanced else push c (scan sep none (n - 1) cs))
    else if n = 0 && c = sep then .ok ([], c :: cs)
    else push c (scan sep none n cs)) := by
  rw [scan]

theorem scan_quoted (sep q : Char) (n : Nat) (inner s : List Char) (hi : q ∉ inner) :
    scan sep (some q) n (inner ++ q :: s) = prepend (inner ++ [q]) (scan sep none n s) := by
  induction inner with
  | nil =>
    show push q (scan sep (if q = q then none else some q) n s) = _
    rw [if_pos rfl, push_eq]
    rfl
  | cons c cs ih =>
    have hc : c ≠ q := fun h => hi (by rw [h]; simp)
    show push c (scan sep (if c = q then none else some q) n (cs ++ q :: s)) = _
    rw [if_neg hc, ih (fun h => hi (List.mem_cons_of_mem _ h)), push_eq, prepend_append]
    rfl

theorem scan_text_inner {o : Option Char} {v : List Char} (hv : Text o v) (sep : Char) (n : Nat) (hn : 0 < n ∨ o = some sep) (s : List Char) :
    scan sep none n (v ++ s) = prepend v (scan sep none n s) := by
  induction hv generalizing n s with
  | nil => exact (prepend_nil _).symm
  | @char o c v hc hs _ ih =>
    unfold special at hc
    simp only [Bool.or_eq_false_iff, decide_eq_false_iff_not] at hc
    obtain ⟨⟨⟨h1, h2⟩, h3⟩, h4⟩ := hc
    rw [List.cons_append]
    rw [scan_cons]
    have hsep : ¬ (n = 0 ∧ c = sep) := by
      rintro ⟨rfl, rfl⟩
      rcases hn with hn | hn
      · omega
      · exact hs hn.symm
    simp only [h1, h2, h3, h4, decide_false, Bool.or_self, Bool.false_eq_true, if_false]
    rw [if_neg (by simpa using hsep), ih n hn, push_eq, prepend_append]
    rfl
  | @quoted o q inner v hq hi _ ih =>
    rw [List.append_assoc, List.cons_append, List.cons_append]
    rw [scan_cons]
    rw [if_pos (by rcases hq with rfl | rfl <;> simp), scan_quoted _ _ _ _ _ hi, ih n hn, push_eq, prepend_append, prepend_append]
    simp
  | @bracket o inner v _ _ ih1 ih2 =>
    rw [List.append_assoc, List.cons_append, List.cons_append]
    rw [scan_cons]
    rw [if_neg (by decide), if_pos rfl, ih1 (n + 1) (Or.inl (by omega))]
    rw [scan_cons]
    rw [if_neg (by decide), if_neg (by decide), if_pos rfl, if_neg (by omega)]
    rw [Nat.add_sub_cancel, ih2 n hn, push_eq, push_eq, prepend_append, prepend_append, prepend_append]
    simp

theorem scan_text {sep : Char} {v : List Char} (hv : Text (some sep) v) (s : List Char) :
    scan sep none 0 (v ++ s) = prepend v (scan sep none 0 s) := scan_text_inner hv sep 0 (Or.inr rfl) s

theorem scan_nil (sep : Char) : scan sep none 0 [] = .ok ([], []) := by simp [scan]

theorem scan_sep {sep : Char} (hs : special sep = false) (s : List Char) : scan sep none 0 (sep :: s) = .ok ([], sep :: s) := by
  unfold special at hs
  simp only [Bool.or_eq_false_iff, decide_eq_false_iff_not] at hs
  obtain ⟨⟨⟨h1, h2⟩, h3⟩, h4⟩ := hs
  unfold scan
  simp [h1, h2, h3, h4]

/-! ## The result of a scan is a text -/

private theorem scan_quote_sound {sep q : Char} {n : Nat} {s v r : List Char} (h : scan sep (some q) n s = .ok (v, r)) :
    ∃ inner s' v', q ∉ inner ∧ s = inner ++ q :: s' ∧ v = inner ++ q :: v' ∧ scan sep none n s' = .ok (v', r) := by
  induction s generalizing v with
  | nil => exact absurd h (by simp [scan])
  | cons c cs ih =>
    unfold scan at h
    by_cases hc : c = q
    · subst hc
      rw [if_pos rfl] at h
      cases hs : scan sep none n cs with
      | error e => rw [hs] at h; exact absurd h (by simp [push])
      | ok p =>
        obtain ⟨v', r'⟩ := p
        rw [hs] at h
        simp only [push, Except.ok.injEq, Prod.mk.injEq] at h
        exact ⟨[], cs, v', by simp, rfl, h.1.symm, by rw [hs, h.2]⟩
    · rw [if_neg hc] at h
      cases hs : scan sep (some q) n cs with
      | error e => rw [hs] at h; exact absurd h (by simp [push])
      | ok p =>
        obtain ⟨v', r'⟩ := p
        rw [hs] at h
        simp only [push, Except.ok.injEq, Prod.mk.injEq] at h
        rw [h.2] at hs
        obtain ⟨inner, s', v'', e1, e2, e3, e4⟩ := ih hs
        refine ⟨c :: inner, s', v'', ?_, by rw [e2]; rfl, by rw [← h.1, e3]; rfl, e4⟩
        simp only [List.mem_cons, not_or]
        exact ⟨fun h => hc h.symm, e1⟩

/-- A text with `n` closing brackets of brackets that were opened before it. -/
inductive Open (sep : Char) : Nat → List Char → Prop
  | top {v : List Char} (h : Text (some sep) v) : Open sep 0 v
  | close {n : Nat} {inner v : List Char} (hi : Text none inner) (h : Open sep n v) : Open sep (n + 1) (inner ++ ']' :: v)

private theorem Text.append {o : Option Char} {a b : List Char} (ha : Text o a) (hb : Text o b) : Text o (a ++ b) := by
  induction ha with
  | nil => exact hb
  | char hc hs _ ih => exact .char hc hs (ih hb)
  | quoted hq hi _ ih =>
    rw [List.append_assoc]
    exact .quoted hq hi (ih hb)
  | bracket hi _ _ ih =>
    rw [List.append_assoc]
    exact .bracket hi (ih hb)

theorem text_append {o : Option Char} {a b : List Char} (ha : Text o a) (hb : Text o b) : Text o (a ++ b) := ha.append hb

private theorem Open.front {sep : Char} {n : Nat} {a v : List Char} (ha : Text (if n = 0 then some sep else none) a) (h : Open sep n v) :
    Open sep n (a ++ v) := by
  cases h with
  | top h => exact .top (ha.append h)
  | @close n inner v hi h =>
    rw [← List.append_assoc]
    exact .close ((show Text none a from ha).append hi) h

private theorem Open.bracket {sep : Char} {n : Nat} {v : List Char} (h : Open sep (n + 1) v) : Open sep n ('[' :: v) := by
  cases h with
  | close hi h =>
    cases h with
    | top h => exact .top (.bracket hi h)
    | @close n inner2 v2 hi2 h2 =>
      have e : ∀ inner : List Char, '[' :: (inner ++ ']' :: (inner2 ++ ']' :: v2)) = ('[' :: inner ++ ']' :: inner2) ++ ']' :: v2 := by simp
      rw [e]
      exact .close (.bracket hi hi2) h2

theorem scan_sound {sep : Char} {n : Nat} {s v r : List Char} (h : scan sep none n s = .ok (v, r)) :
    s = v ++ r ∧ Open sep n v ∧ (r = [] ∨ r.head? = some sep) := by
  generalize hl : s.length = l
  induction l using Nat.strong_induction_on generalizing n s v with
  | _ l ih =>
    cases s with
    | nil =>
      unfold scan at h
      split at h
      · rename_i hn
        simp only [Except.ok.injEq, Prod.mk.injEq] at h
        rw [← h.1, ← h.2, hn]
        exact ⟨rfl, .top (.nil _), Or.inl rfl⟩
      · exact absurd h (by simp)
    | cons c cs =>
      unfold scan at h
      have cut : ∀ {n' : Nat} {w : List Char} {x : Except Err (List Char × List Char)}, push c x = .ok (w, r) →
          ∃ w', w = c :: w' ∧ x = .ok (w', r) := by
        intro n' w x hx
        cases x with
        | error e => exact absurd hx (by simp [push])
        | ok p =>
          obtain ⟨a, b⟩ := p
          simp only [push, Except.ok.injEq, Prod.mk.injEq] at hx
          exact ⟨a, hx.1.symm, by rw [hx.2]⟩
      simp only [List.length_cons] at hl
      split at h
      · rename_i hq
        obtain ⟨w, rfl, hx⟩ := cut (n' := n) h
        obtain ⟨inner, s', v', e1, e2, e3, e4⟩ := scan_quote_sound hx
        have hlen : s'.length < l := by
          rw [← hl, e2]
          simp
          omega
        obtain ⟨f1, f2, f3⟩ := ih _ hlen e4 rfl
        refine ⟨by rw [e2, e3, f1]; simp, ?_, f3⟩
        rw [e3]
        have hq' : c = '\'' ∨ c = '"' := by simpa using hq
        have : c :: (inner ++ c :: v') = (c :: inner ++ c :: []) ++ v' := by simp
        rw [this]
        exact f2.front (.quoted hq' e1 (.nil _))
      · rename_i hq
        split at h
        · rename_i hb
          obtain ⟨w, rfl, hx⟩ := cut (n' := n) h
          obtain ⟨f1, f2, f3⟩ := ih _ (by omega) hx rfl
          refine ⟨by rw [f1]; rfl, ?_, f3⟩
          rw [hb]
          exact f2.bracket
        · rename_i hb
          split at h
          · rename_i hb'
            split at h
            · exact absurd h (by simp)
            · rename_i hn
              obtain ⟨w, rfl, hx⟩ := cut (n' := n) h
              obtain ⟨f1, f2, f3⟩ := ih _ (by omega) hx rfl
              refine ⟨by rw [f1]; rfl, ?_, f3⟩
              obtain ⟨k, rfl⟩ : ∃ k, n = k + 1 := ⟨n - 1, by omega⟩
              rw [hb']
              exact Open.close (inner := []) (.nil _) f2
          · rename_i hb'
            have hsp : special c = false := by
              unfold special
              simp only [Bool.or_eq_true, decide_eq_true_eq, not_or] at hq
              simp [hq, hb, hb']
            split at h
            · rename_i hs
              simp only [Except.ok.injEq, Prod.mk.injEq] at h
              simp only [Bool.and_eq_true, decide_eq_true_eq] at hs
              rw [← h.1, ← h.2, hs.1, hs.2]
              exact ⟨rfl, .top (.nil _), Or.inr rfl⟩
            · rename_i hs
              obtain ⟨w, rfl, hx⟩ := cut (n' := n) h
              obtain ⟨f1, f2, f3⟩ := ih _ (by omega) hx rfl
              refine ⟨by rw [f1]; rfl, ?_, f3⟩
              refine f2.front (a := [c]) ?_
              refine .char hsp ?_ (.nil _)
              simp only [Bool.and_eq_true, decide_eq_true_eq, not_and] at hs
              split
              · rename_i hn
                intro e
                injection e with e
                exact hs hn e
              · simp

/-! ## Blanks -/

theorem ltrim_blank {b s : List Char} (hb : Blank b) : ltrim (b ++ s) = ltrim s := by
  induction b with
  | nil => rfl
  | cons c cs ih =>
    rw [List.cons_append]
    unfold ltrim
    rw [List.dropWhile_cons_of_pos (hb c (by simp))]
    exact ih (fun x hx => hb x (List.mem_cons_of_mem _ hx))

theorem rtrim_blank {b s : List Char} (hb : Blank b) : rtrim (s ++ b) = rtrim s := by
  unfold rtrim List.rdropWhile
  rw [List.reverse_append]
  have := ltrim_blank (b := b.reverse) (s := s.reverse) (fun c hc => hb c (by simpa using hc))
  unfold ltrim at this
  rw [this]

theorem ltrim_cons {c : Char} (hc : isBlank c = false) (s : List Char) : ltrim (c :: s) = c :: s := by
  unfold ltrim
  rw [List.dropWhile_cons_of_neg (by simp [hc])]

theorem head_of_trimmed {c : Char} {s : List Char} (h : ltrim (c :: s) = c :: s) : isBlank c = false := by
  by_contra hc
  have hc : isBlank c = true := by simpa using hc
  unfold ltrim at h
  rw [List.dropWhile_cons_of_pos hc] at h
  have := congrArg List.length h
  have h2 := (List.dropWhile_sublist (p := isBlank) (l := s)).length_le
  simp at this
  omega

theorem ltrim_append {v : List Char} (hv : v ≠ []) (ht : ltrim v = v) (s : List Char) : ltrim (v ++ s) = v ++ s := by
  cases v with
  | nil => exact absurd rfl hv
  | cons c cs => exact ltrim_cons (head_of_trimmed ht) _

theorem blank_special {c : Char} (h : isBlank c = true) : special c = false := by
  unfold isBlank at h
  simp only [Bool.or_eq_true, decide_eq_true_eq] at h
  rcases h with rfl | rfl <;> rfl

theorem blank_text {sep : Char} {b : List Char} (hb : Blank b) (hs : sep ∉ b) : Text (some sep) b := by
  induction b with
  | nil => exact .nil _
  | cons c cs ih =>
    refine .char (blank_special (hb c (by simp))) ?_ (ih (fun x hx => hb x (List.mem_cons_of_mem _ hx)) (fun h => hs (List.mem_cons_of_mem _ h)))
    intro e
    injection e with e
    exact hs (by rw [e]; simp)

/-- Blanks up to the first separator. -/
private theorem split_first {sep : Char} (b : List Char) (h : sep ∈ b) : ∃ b1 b2, b = b1 ++ sep :: b2 ∧ sep ∉ b1 := by
  induction b with
  | nil => exact absurd h (by simp)
  | cons c cs ih =>
    by_cases hc : c = sep
    · exact ⟨[], cs, by rw [hc]; rfl, by simp⟩
    · have : sep ∈ cs := by
        rcases List.mem_cons.mp h with h | h
        · exact absurd h.symm hc
        · exact h
      obtain ⟨b1, b2, e1, e2⟩ := ih this
      refine ⟨c :: b1, b2, by rw [e1]; rfl, ?_⟩
      simp only [List.mem_cons, not_or]
      exact ⟨fun h => hc h.symm, e2⟩

/-- A value with blanks after it, up to something that stops the scan. -/
private theorem scan_cell {sep : Char} {v trail t : List Char} (hs : special sep = false) (hv : Text (some sep) v) (ht : Blank trail)
    (htr : rtrim v = v) (hstop : ∃ q, scan sep none 0 t = .ok ([], q) ∧ t = q) :
    ∃ p q, scan sep none 0 (v ++ trail ++ t) = .ok (p, q) ∧ rtrim p = v ∧
      (q = t ∨ isBlank sep = true ∧ ∃ b, Blank b ∧ ltrim (q.drop 1) = ltrim (b ++ t)) := by
  by_cases hmem : sep ∈ trail
  · obtain ⟨b1, b2, rfl, hb1⟩ := split_first trail hmem
    have hB1 : Blank b1 := fun c hc => ht c (List.mem_append_left _ hc)
    have hB2 : Blank b2 := fun c hc => ht c (List.mem_append_right _ (List.mem_cons_of_mem _ hc))
    refine ⟨v ++ b1, sep :: b2 ++ t, ?_, ?_, Or.inr ⟨ht sep hmem, b2, hB2, rfl⟩⟩
    · have e : v ++ (b1 ++ sep :: b2) ++ t = (v ++ b1) ++ (sep :: (b2 ++ t)) := by simp
      rw [e, scan_text (text_append hv (blank_text hB1 hb1)), scan_sep hs]
      simp [prepend]
    · rw [rtrim_blank hB1, htr]
  · obtain ⟨q, hq, rfl⟩ := hstop
    refine ⟨v ++ trail, t, ?_, ?_, Or.inl rfl⟩
    · rw [scan_text (text_append hv (blank_text ht hmem)), hq]
      simp [prepend]
    · rw [rtrim_blank ht, htr]

theorem cell_sep {sep : Char} {c : Cell} (hs : special sep = false) (hf : Fits sep c) (t : List Char) :
    ltrim (c.lead ++ c.value ++ c.trail ++ sep :: t) ≠ [] ∧
    ∃ p q, scan sep none 0 (ltrim (c.lead ++ c.value ++ c.trail ++ sep :: t)) = .ok (p, q) ∧ rtrim p = c.value ∧ ltrim (q.drop 1) = ltrim t := by
  have hstop : ∃ q, scan sep none 0 (sep :: t) = .ok ([], q) ∧ sep :: t = q := ⟨_, scan_sep hs t, rfl⟩
  by_cases hv : c.value = []
  · have hsep : isBlank sep = false := hf.filled.resolve_right (fun h => h hv)
    rw [hv, List.append_nil, List.append_assoc, ltrim_blank hf.lead, ltrim_blank hf.trail, ltrim_cons hsep]
    exact ⟨by simp, [], sep :: t, scan_sep hs t, rfl, rfl⟩
  · have e : c.lead ++ c.value ++ c.trail ++ sep :: t = c.lead ++ (c.value ++ (c.trail ++ sep :: t)) := by simp
    rw [e, ltrim_blank hf.lead, ltrim_append hv hf.trimmed.1, ← List.append_assoc]
    refine ⟨by simp [hv], ?_⟩
    obtain ⟨p, q, h1, h2, h3⟩ := scan_cell hs hf.text hf.trail hf.trimmed.2 hstop
    refine ⟨p, q, h1, h2, ?_⟩
    rcases h3 with rfl | ⟨hsep, b, hb, h3⟩
    · rfl
    · rw [h3, ltrim_blank hb]
      exact ltrim_blank (b := [sep]) (by intro x hx; rw [List.mem_singleton] at hx; rw [hx]; exact hsep)

theorem cell_end {sep : Char} {c : Cell} (hs : special sep = false) (hf : Fits sep c) (hne : ltrim (c.lead ++ c.value ++ c.trail) ≠ []) :
    ∃ p q, scan sep none 0 (ltrim (c.lead ++ c.value ++ c.trail)) = .ok (p, q) ∧ rtrim p = c.value ∧ ltrim (q.drop 1) = [] := by
  by_cases hv : c.value = []
  · exfalso
    apply hne
    rw [hv, List.append_nil, ltrim_blank hf.lead]
    have := ltrim_blank (b := c.trail) (s := []) hf.trail
    rw [List.append_nil] at this
    rw [this]
    rfl
  · rw [List.append_assoc, ltrim_blank hf.lead, ltrim_append hv hf.trimmed.1]
    obtain ⟨p, q, h1, h2, h3⟩ := scan_cell hs hf.text hf.trail hf.trimmed.2 (t := []) ⟨[], scan_nil sep, rfl⟩
    rw [List.append_nil] at h1
    refine ⟨p, q, h1, h2, ?_⟩
    rcases h3 with rfl | ⟨_, b, hb, h3⟩
    · rfl
    · rw [h3, ltrim_blank hb]
      rfl

end DP3.SkyText
