import Verif.StationValues.Model
import Mathlib.Data.List.Induction

/-!
# Properties of station values and patterns (C52, C78)
-/

namespace DP3.StationValues

set_option linter.unusedSectionVars false

/-! ## C78: patterns -/

/-- The meaning of a pattern: `*` is any string, `?` is any character, and all others are
themselves. -/
inductive Glob : List Char → List Char → Prop
  | nil : Glob [] []
  | star (p s t : List Char) : Glob p t → Glob ('*' :: p) (s ++ t)
  | question (p s : List Char) (x : Char) : Glob p s → Glob ('?' :: p) (x :: s)
  | char (p s : List Char) (c : Char) : c ≠ '*' → c ≠ '?' → Glob p s → Glob (c :: p) (c :: s)

/-- The characters a pattern may have: those without a meaning in regular expressions, and dot,
star and question mark. -/
def plain (c : Char) : Bool := !special c || c == '.' || c == '*' || c == '?'

/-- The regular expression for one character of a pattern. -/
def one (c : Char) : List Char :=
  if c = '.' then ['\\', '.'] else if c = '*' then ['.', '*'] else if c = '?' then ['.'] else [c]

private theorem regex_cons (c : Char) (p : List Char) :
    patternToRegex (c :: p) = one c ++ patternToRegex p := by
  unfold patternToRegex replaceAll one
  rw [List.flatMap_cons, List.flatMap_append, List.flatMap_append]
  congr 1
  by_cases h1 : c = '.'
  · subst h1; decide
  · by_cases h2 : c = '*'
    · subst h2; decide
    · by_cases h3 : c = '?'
      · subst h3; decide
      · simp [h1, h2, h3]

/-- The atom for one character of a pattern. -/
def atomOf (c : Char) : Atom × Bool :=
  if c = '*' then (.any, true) else if c = '?' then (.any, false) else (.lit c, false)

/-- The tokens for one character of a pattern. -/
def toksOf (c : Char) : List Tok :=
  if c = '*' then [.atom .any, .star] else if c = '?' then [.atom .any] else [.atom (.lit c)]

private theorem tokens_pattern (p : List Char) (hp : ∀ c ∈ p, plain c = true) :
    tokens (patternToRegex p) = some (p.flatMap toksOf) := by
  induction p with
  | nil => simp [patternToRegex, replaceAll, tokens]
  | cons c p ih =>
    have ih := ih fun x hx => hp x (by simp [hx])
    have hc := hp c (by simp)
    rw [regex_cons, List.flatMap_cons]
    generalize patternToRegex p = r at *
    have e1 : toksOf c = if c = '*' then [.atom .any, .star] else if c = '?' then [.atom .any]
        else [.atom (.lit c)] := rfl
    rw [e1]
    unfold one
    by_cases h1 : c = '.'
    · subst h1
      simp [tokens, ih]
    · by_cases h2 : c = '*'
      · subst h2
        simp [tokens, ih]
      · by_cases h3 : c = '?'
        · subst h3
          simp [tokens, ih]
        · simp only [if_false, List.cons_append, List.nil_append, h1, h2, h3]
          have hsp : special c = false := by
            simpa [plain, h1, h2, h3] using hc
          have hbs : c ≠ '\\' := by
            rintro rfl
            simp [special] at hsp
          rw [tokens]
          · simp [hsp, ih]
          · intro c' rest' h _; exact hbs h
          · exact h1
          · exact h2

private theorem group_pattern (p : List Char) :
    groupStars (p.flatMap toksOf) = some (p.map atomOf) := by
  induction p with
  | nil => simp [groupStars]
  | cons c p ih =>
    rw [List.flatMap_cons, List.map_cons]
    have hns : ∀ rest, p.flatMap toksOf ≠ .star :: rest := by
      intro rest
      cases p with
      | nil => simp
      | cons d p =>
        rw [List.flatMap_cons]
        unfold toksOf
        split_ifs <;> simp
    generalize p.flatMap toksOf = r at *
    have e1 : toksOf c = if c = '*' then [.atom .any, .star] else if c = '?' then [.atom .any]
        else [.atom (.lit c)] := rfl
    have e2 : atomOf c = if c = '*' then (.any, true) else if c = '?' then (.any, false)
        else (.lit c, false) := rfl
    rw [e1, e2]
    by_cases h2 : c = '*'
    · simp [h2, groupStars, ih]
    · have : ∀ a, groupStars (.atom a :: r) = some ((a, false) :: p.map atomOf) := by
        intro a
        rw [groupStars]
        · simp [ih]
        · intro rest h; exact hns rest h
      by_cases h3 : c = '?'
      · simp [h3, this]
      · simp [h2, h3, this]

private theorem parse_pattern (p : List Char) (hp : ∀ c ∈ p, plain c = true) :
    parseRegex (patternToRegex p) = some (p.map atomOf) := by
  unfold parseRegex
  rw [tokens_pattern p hp, Option.bind_some, group_pattern]

private theorem star_spec (ok : Char → Bool) (next : List Char → Bool) (s : List Char)
    (hok : ∀ x ∈ s, ok x = true) :
    matchStar ok next s = true ↔ ∃ a b, s = a ++ b ∧ next b = true := by
  induction s with
  | nil => simp [matchStar]
  | cons x xs ih =>
    have ih := ih fun y hy => hok y (by simp [hy])
    have hx := hok x (by simp)
    rw [matchStar, hx, Bool.true_and, Bool.or_eq_true, ih]
    constructor
    · rintro (h | ⟨a, b, h, hb⟩)
      · exact ⟨[], x :: xs, rfl, h⟩
      · exact ⟨x :: a, b, by simp [h], hb⟩
    · rintro ⟨a, b, h, hb⟩
      cases a with
      | nil =>
        left
        rw [h]
        exact hb
      | cons y a =>
        right
        simp only [List.cons_append, List.cons.injEq] at h
        exact ⟨a, b, h.2, hb⟩

private theorem match_glob (p s : List Char) (hs : ∀ x ∈ s, x ≠ '\n' ∧ x ≠ '\r') :
    matchRegex (p.map atomOf) s = true ↔ Glob p s := by
  induction p generalizing s with
  | nil =>
    simp only [List.map_nil, matchRegex, List.isEmpty_iff]
    constructor
    · rintro rfl; exact Glob.nil
    · intro h; cases h; rfl
  | cons c p ih =>
    have e2 : atomOf c = if c = '*' then (.any, true) else if c = '?' then (.any, false)
        else (.lit c, false) := rfl
    rw [List.map_cons, e2]
    have hany : ∀ x ∈ s, Atom.any.ok x = true := by
      intro x hx
      have := hs x hx
      simp [Atom.ok, this.1, this.2]
    by_cases h2 : c = '*'
    · subst h2
      rw [if_pos rfl, matchRegex, star_spec _ _ _ hany]
      constructor
      · rintro ⟨a, b, rfl, hb⟩
        exact Glob.star p a b ((ih b fun x hx => hs x (by simp [hx])).mp hb)
      · intro h
        cases h with
        | star _ a b hb => exact ⟨a, b, rfl, (ih b fun x hx => hs x (by simp [hx])).mpr hb⟩
        | char _ _ _ h1 _ _ => exact absurd rfl h1
    · rw [if_neg h2]
      by_cases h3 : c = '?'
      · subst h3
        rw [if_pos rfl]
        cases s with
        | nil =>
          simp only [matchRegex, Bool.false_eq_true, false_iff]
          intro h; cases h
        | cons x xs =>
          rw [matchRegex, hany x (by simp), Bool.true_and, ih xs fun y hy => hs y (by simp [hy])]
          constructor
          · exact Glob.question p xs x
          · intro h
            cases h with
            | question _ _ _ h => exact h
            | char _ _ _ _ h1 _ => exact absurd rfl h1
      · rw [if_neg h3]
        cases s with
        | nil =>
          simp only [matchRegex, Bool.false_eq_true, false_iff]
          intro h
          generalize hq : c :: p = q at h
          generalize ht : ([] : List Char) = t at h
          cases h with
          | nil => simp at hq
          | star _ _ _ _ => simp only [List.cons.injEq] at hq; exact h2 hq.1
          | question => simp at ht
          | char => simp at ht
        | cons x xs =>
          rw [matchRegex, Bool.and_eq_true, ih xs fun y hy => hs y (by simp [hy])]
          constructor
          · rintro ⟨h, hg⟩
            have : c = x := by simpa [Atom.ok] using h
            subst this
            exact Glob.char p xs c h2 h3 hg
          · intro h
            generalize hq : c :: p = q at h
            generalize ht : x :: xs = t at h
            cases h with
            | nil => simp at hq
            | star _ _ _ _ => simp only [List.cons.injEq] at hq; exact absurd hq.1 h2
            | question => simp only [List.cons.injEq] at hq; exact absurd hq.1 h3
            | char p' s' c' _ _ hg =>
              simp only [List.cons.injEq] at hq ht
              obtain ⟨rfl, rfl⟩ := hq
              obtain ⟨rfl, rfl⟩ := ht
              exact ⟨by simp [Atom.ok], hg⟩

/-- C78: the regular expression of a pattern of plain characters matches exactly the names that the
pattern means. -/
theorem pattern_means_glob (p s : List Char) (hp : ∀ c ∈ p, plain c = true)
    (hs : ∀ x ∈ s, x ≠ '\n' ∧ x ≠ '\r') :
    ∃ r, parseRegex (patternToRegex p) = some r ∧ (matchRegex r s = true ↔ Glob p s) :=
  ⟨_, parse_pattern p hp, match_glob p s hs⟩

/-! ## C52: values -/

section
variable {V : Type}

/-- The pattern after an exclamation mark or caret, if there is something after it. -/
def negated : List Char → Option (List Char)
  | c :: d :: rest => if c = '!' ∨ c = '^' then some (d :: rest) else none
  | _ => none

/-- A pattern is about a station: the pattern, or what is negated, matches its name. -/
def about (isMatch : List Char → List Char → Bool) (name p : List Char) : Bool :=
  match negated p with
  | some q => isMatch q name
  | none => isMatch p name

private theorem isNegated_spec (p : List Char) :
    isNegated p = (negated p).isSome ∧ body p = (negated p).getD p := by
  match p with
  | [] => simp [isNegated, negated, body]
  | [c] => simp [isNegated, negated, body]
  | c :: d :: rest =>
    have : isNegated (c :: d :: rest) = (negated (c :: d :: rest)).isSome := by
      unfold isNegated negated
      by_cases h : c = '!' ∨ c = '^'
      · rcases h with rfl | rfl <;> simp
      · have h' := not_or.mp h
        simp [h'.1, h'.2]
    refine ⟨this, ?_⟩
    unfold body
    rw [this]
    unfold negated
    by_cases h : c = '!' ∨ c = '^' <;> simp [h]

private theorem about_spec (isMatch : List Char → List Char → Bool) (name p : List Char) :
    isMatch (body p) name = about isMatch name p := by
  rw [(isNegated_spec p).2]
  unfold about
  cases negated p <;> rfl

/-- A station is selected when the last pattern about it is not negated. -/
def selectedBy (isMatch : List Char → List Char → Bool) (patterns : List (List Char))
    (name : List Char) : Bool :=
  match (patterns.filter (about isMatch name)).getLast? with
  | none => false
  | some p => (negated p).isNone

private theorem selected_spec (isMatch : List Char → List Char → Bool) (names : List (List Char))
    (patterns : List (List Char)) :
    patterns.foldl (select isMatch names) (names.map fun _ => false) =
      names.map (selectedBy isMatch patterns) := by
  induction patterns using List.reverseRecOn with
  | nil => simp [selectedBy]
  | append_singleton ps p ih =>
    rw [List.foldl_append, List.foldl_cons, List.foldl_nil, ih]
    unfold select
    apply List.ext_getElem
    · simp
    · intro i h1 h2
      simp only [List.getElem_zipWith, List.getElem_map, selectedBy, List.filter_append, about_spec,
        (isNegated_spec p).1]
      by_cases hm : about isMatch (names[i]'(by simpa using h2)) p = true
      · simp [hm]
      · simp [hm]

/-- C52: exactly the stations whose last matching pattern is not negated get the value. -/
theorem assign_spec (isMatch : List Char → List Char → Bool) (names : List (List Char))
    (result : List V) (hl : result.length = names.length) (value : V)
    (patterns : List (List Char)) :
    (assign isMatch names result value patterns).length = names.length ∧
      ∀ (i : Nat) (name : List Char) (old : V), names[i]? = some name → result[i]? = some old →
        (assign isMatch names result value patterns)[i]? =
          some (if selectedBy isMatch patterns name then value else old) := by
  unfold assign
  simp only [selected_spec]
  refine ⟨by simp [hl], ?_⟩
  intro i name old h1 h2
  simp [List.getElem?_zipWith, h1, h2]

/-- The value that a station gets from a list of (patterns, value): of the last one that selects
it. -/
def valueFor (isMatch : List Char → List Char → Bool) (items : List (List (List Char) × V))
    (name : List Char) (old : V) : V :=
  match (items.filter fun x => selectedBy isMatch x.1 name).getLast? with
  | none => old
  | some x => x.2

private theorem valueFor_cons (isMatch : List Char → List Char → Bool)
    (x : List (List Char) × V) (items : List (List (List Char) × V)) (name : List Char) (old : V) :
    valueFor isMatch (x :: items) name old =
      valueFor isMatch items name (if selectedBy isMatch x.1 name then x.2 else old) := by
  unfold valueFor
  rw [List.filter_cons]
  by_cases h : selectedBy isMatch x.1 name = true
  · simp only [h, if_true, List.getLast?_cons]
    cases (items.filter fun x => selectedBy isMatch x.1 name).getLast? <;> simp
  · simp only [h, Bool.false_eq_true, if_false]

private theorem splitColon_spec (p v : List Char) (h : ':' ∉ p) :
    splitColon (p ++ ':' :: v) = some (p, v) := by
  induction p with
  | nil => simp [splitColon]
  | cons c p ih =>
    have hc : ¬ c = ':' := fun e => h (by simp [e])
    have hp : ':' ∉ p := fun e => h (by simp [e])
    simp [splitColon, hc, ih hp]

/-- C52: parsing items of the form patterns:value gives each station the value of the last item that
selects it; the first colon separates them. -/
theorem parse_spec (isMatch : List Char → List Char → Bool)
    (vectorOf : List Char → List (List Char)) (valueOf : List Char → V)
    (names : List (List Char)) (items : List (List Char × List Char))
    (hcolon : ∀ x ∈ items, ':' ∉ x.1) (result : List V) (hl : result.length = names.length) :
    ∃ out, parseValues isMatch vectorOf valueOf names (items.map fun x => x.1 ++ ':' :: x.2) result =
        some out ∧ out.length = names.length ∧
      ∀ (i : Nat) (name : List Char) (old : V), names[i]? = some name → result[i]? = some old →
        out[i]? = some (valueFor isMatch (items.map fun x => (vectorOf x.1, valueOf x.2))
          name old) := by
  induction items generalizing result with
  | nil =>
    refine ⟨result, rfl, hl, ?_⟩
    intro i name old _ h2
    simpa [valueFor] using h2
  | cons item items ih =>
    obtain ⟨p, v⟩ := item
    have hc := splitColon_spec p v (hcolon (p, v) (by simp))
    obtain ⟨hal, has⟩ := assign_spec isMatch names result hl (valueOf v) (vectorOf p)
    obtain ⟨out, h0, h1, h2⟩ := ih (fun x hx => hcolon x (by simp [hx]))
      (assign isMatch names result (valueOf v) (vectorOf p)) hal
    refine ⟨out, ?_, h1, ?_⟩
    · rw [List.map_cons, parseValues, hc]
      exact h0
    · intro i name old hn ho
      rw [h2 i name _ hn (has i name old hn ho), List.map_cons, valueFor_cons]

/-- C52: an item without a colon is refused. -/
theorem parse_missing_colon (isMatch : List Char → List Char → Bool)
    (vectorOf : List Char → List (List Char)) (valueOf : List Char → V)
    (names : List (List Char)) (items : List (List Char)) (result : List V)
    (h : ∃ item ∈ items, ':' ∉ item) :
    parseValues isMatch vectorOf valueOf names items result = none := by
  have hnone : ∀ item : List Char, ':' ∉ item → splitColon item = none := by
    intro item
    induction item with
    | nil => simp [splitColon]
    | cons c rest ih =>
      intro hn
      have hc : ¬ c = ':' := fun e => hn (by simp [e])
      have hr : ':' ∉ rest := fun e => hn (by simp [e])
      simp [splitColon, hc, ih hr]
  induction items generalizing result with
  | nil => simp at h
  | cons item items ih =>
    unfold parseValues
    by_cases hi : ':' ∈ item
    · cases splitColon item with
      | none => rfl
      | some pv =>
        obtain ⟨x, hx, hxn⟩ := h
        rcases List.mem_cons.mp hx with rfl | hx
        · exact absurd hi hxn
        · exact ih _ ⟨x, hx, hxn⟩
    · rw [hnone item hi]

end

/-- The example in the documentation of `ParseValuePerStation`. -/
example : parseValues (fun p s => ((parseRegex (patternToRegex p)).map (matchRegex · s)) == some true) (fun s => if s = "A".toList then
      ["RS_017".toList, "CS*".toList, "^CS_001".toList] else [s]) (fun v => v.length)
    ["RS_017".toList, "CS_001".toList, "CS_002".toList, "RS_018".toList]
    ["A:***".toList, "RS_018:*".toList] [0, 0, 0, 0] = some [3, 0, 3, 1] := by decide +kernel
example : ∀ c ∈ "CS0?.*".toList, plain c = true := by decide
example : Glob "CS?*".toList "CS01".toList :=
  .char _ _ 'C' (by decide) (by decide) (.char _ _ 'S' (by decide) (by decide)
    (.question _ _ _ (.star [] ['1'] [] .nil)))
example : patternToRegex "CS0?.*".toList = "CS0.\\..*".toList := by decide

end DP3.StationValues
