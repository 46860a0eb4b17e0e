import Verif.Aartfaac.Config
import Mathlib.Algebra.Order.Ring.Rat
import Mathlib.Tactic.Ring
import Mathlib.Tactic.Linarith

/-!
# Properties of the antenna configuration
-/

namespace DP3.Aartfaac
set_option linter.unusedSimpArgs false
set_option linter.unusedSectionVars false

section
variable {K : Type} [CommRing K]

/-! ## What a well-formed file is -/

/-- A list of numbers with its dimensions as in the file: "4 x 2 x 3 [ ... ]". The numbers are tokens. -/
structure Part (K : Type) where
  first : Nat
  others : List Nat
  values : List (Tok K)

/-- An array of the file: a name, a band, which may be absent, one part and maybe a second one. -/
structure Entry (K : Type) where
  name : String
  band : Option String
  part1 : Part K
  part2 : Option (Part K)

/-- A dimension as token. -/
def dimTok (n : Nat) : Tok K := .num true n (n : K)

/-- The tokens of a part. -/
def Part.tokens (p : Part K) : List (Tok K) :=
  dimTok p.first :: (p.others.flatMap fun n => [.times, dimTok n]) ++ [.open] ++ p.values ++ [.close]

/-- The tokens of the second part. -/
def secondTokens : Option (Part K) → List (Tok K)
  | some p => p.tokens
  | none => []

/-- The tokens of the band. -/
def bandTokens : Option String → List (Tok K)
  | some b => [.word b]
  | none => []

/-- The tokens of an array. -/
def Entry.tokens (e : Entry K) : List (Tok K) :=
  .word e.name :: bandTokens e.band ++ e.part1.tokens ++ secondTokens e.part2

/-- The number of values is the product of the dimensions. -/
def Part.Fits (p : Part K) : Prop := p.values.length = p.first * p.others.prod

/-- A part has as many values as its dimensions tell; a band is not empty; offsets are there when there are positions. -/
def Entry.Fits (e : Entry K) : Prop :=
  e.part1.Fits ∧ (∀ p, e.part2 = some p → p.Fits ∧ 0 < e.part1.values.length) ∧ e.band ≠ some ""

/-- The values of an array: the sum of the second part and the first one, which is repeated as often as needed. -/
def Entry.meaning (e : Entry K) : List K :=
  match e.part2 with
  | none => e.part1.values.map Tok.value
  | some p => p.values.mapIdx fun i t => t.value + ((e.part1.values.map Tok.value).getD (i % e.part1.values.length) 0)

/-- The name by which an array is found: "BAND_NAME", or the name when there is no band. -/
def Entry.key (e : Entry K) : String :=
  match e.band with
  | none => e.name
  | some b => b ++ "_" ++ e.name

/-! ## The parser -/

theorem dimensionLoop_tokens (dims : List Int) (others : List Nat) (rest : List (Tok K)) :
    dimensionLoop dims ((others.flatMap fun n => [.times, dimTok n]) ++ .open :: rest) =
      .ok (dims ++ others.map fun (n : Nat) => (n : Int), .open :: rest) := by
  induction others generalizing dims with
  | nil => simp [dimensionLoop]
  | cons n ns ih =>
    simp only [List.flatMap_cons, List.cons_append, List.nil_append, dimensionLoop]
    have h1 : (dimTok n : Tok K).isOpen = false := rfl
    have h2 : (dimTok n : Tok K).int = (n : Int) := rfl
    rw [h1, h2]
    simp only [Bool.false_eq_true, if_false]
    rw [ih]
    simp

theorem readDimensions_tokens (p : Part K) (rest : List (Tok K)) :
    readDimensions (p.tokens ++ rest) =
      .ok ((p.first : Int) :: p.others.map fun (n : Nat) => (n : Int), .open :: (p.values ++ .close :: rest)) := by
  have h : p.tokens ++ rest = dimTok p.first :: ((p.others.flatMap fun n => [.times, dimTok n]) ++
      .open :: (p.values ++ .close :: rest)) := by
    simp [Part.tokens]
  rw [h]
  simp only [readDimensions, List.tail_cons, intHead, List.head?_cons, Option.map_some, Option.getD_some]
  rw [dimensionLoop_tokens]
  rfl

theorem readValues_tokens (values : List (Tok K)) (t : Tok K) (rest : List (Tok K)) :
    readValues values.length (t :: (values ++ rest)) = .ok (values.map Tok.value, rest) := by
  induction values generalizing t with
  | nil => simp [readValues]
  | cons v vs ih =>
    simp only [List.length_cons, readValues, List.tail_cons, List.cons_append]
    rw [ih]
    rfl

theorem product (a : Int) (l : List Nat) :
    (l.map fun (n : Nat) => (n : Int)).foldl (fun a b => a * b) a = a * (l.prod : Nat) := by
  induction l generalizing a with
  | nil => simp
  | cons n ns ih =>
    simp only [List.map_cons, List.foldl_cons, List.prod_cons]
    rw [ih]
    push_cast
    ring

theorem readData_tokens (p : Part K) (hp : p.Fits) (rest : List (Tok K)) :
    readData ((p.first : Int) :: p.others.map fun (n : Nat) => (n : Int)) (.open :: (p.values ++ .close :: rest)) =
      .ok (p.values.map Tok.value, .close :: rest) := by
  have hc : (((p.first : Int) :: p.others.map fun (n : Nat) => (n : Int)).foldl (fun a b => a * b) 1) =
      ((p.values.length : Nat) : Int) := by
    rw [List.foldl_cons, product, hp]; push_cast; ring
  simp only [readData, hc]
  rw [if_neg (by omega), Int.toNat_natCast]
  exact readValues_tokens _ _ _

/-- What follows an array: nothing or a token that is no number. -/
def Follows : List (Tok K) → Prop
  | [] => True
  | t :: _ => t.isDigit = false

theorem readSecond_none (data1 : List K) (rest : List (Tok K)) (hr : Follows rest) :
    readSecond data1 (.close :: rest) = .ok (data1, rest) := by
  cases rest with
  | nil => simp [readSecond]
  | cons t r =>
    simp only [Follows] at hr
    simp [readSecond, hr]

theorem readSecond_some (data1 : List K) (p : Part K) (hp : p.Fits) (h1 : data1 ≠ []) (rest : List (Tok K)) :
    readSecond data1 (.close :: (p.tokens ++ rest)) =
      .ok (p.values.mapIdx fun i t => t.value + data1.getD (i % data1.length) 0, rest) := by
  have hd := readDimensions_tokens p rest
  obtain ⟨tl, htl⟩ : ∃ tl, p.tokens ++ rest = dimTok p.first :: tl := ⟨_, by simp [Part.tokens]; rfl⟩
  rw [htl] at hd ⊢
  simp only [readSecond, List.tail_cons]
  have hdig : (dimTok p.first : Tok K).isDigit = true := rfl
  rw [if_pos hdig, hd]
  simp only [bind, Except.bind]
  rw [readData_tokens p hp]
  simp only [addOffsets]
  by_cases hv : p.values = []
  · simp [hv]
  · rw [if_neg (by simpa using hv), if_neg h1]
    simp only [List.tail_cons, Except.ok.injEq, Prod.mk.injEq, and_true]
    apply List.ext_getElem <;> simp

theorem readBody_tokens (e : Entry K) (he : e.Fits) (rest : List (Tok K)) (hr : Follows rest) :
    readBody (e.tokens.tail ++ rest) = .ok (e.band.getD "", e.meaning, rest) := by
  obtain ⟨name, band, p1, p2⟩ := e
  obtain ⟨h1, h2, h3⟩ := he
  simp only at h1 h2 h3
  have hsecond : readSecond (p1.values.map Tok.value) (.close :: (secondTokens p2 ++ rest)) =
      .ok ((⟨name, band, p1, p2⟩ : Entry K).meaning, rest) := by
    cases p2 with
    | none => simpa [Entry.meaning, secondTokens] using readSecond_none _ rest hr
    | some p =>
      obtain ⟨ha, hb⟩ := h2 p rfl
      have := readSecond_some (p1.values.map Tok.value) p ha (by intro h; simp at h; simp [h] at hb) rest
      simpa [Entry.meaning, secondTokens] using this
  have hpart : ∀ b : String, (do
      let (dims, toks2) ← readDimensions (p1.tokens ++ (secondTokens p2 ++ rest))
      let (data1, toks3) ← readData dims toks2
      let (values, toks4) ← readSecond data1 toks3
      .ok (b, values, toks4) : Except Fault (String × List K × List (Tok K))) =
      .ok (b, (⟨name, band, p1, p2⟩ : Entry K).meaning, rest) := by
    intro b
    rw [readDimensions_tokens]
    simp only [bind, Except.bind]
    rw [readData_tokens p1 h1]
    simp only
    rw [hsecond]
  cases band with
  | none =>
    have hh : ((p1.tokens ++ (secondTokens p2 ++ rest)).head?.bind Tok.alpha) = none := by
      simp [Part.tokens, dimTok, Tok.alpha]
    have := hpart ""
    simp only [Entry.tokens, bandTokens, readBody, List.nil_append, List.cons_append, List.tail_cons, List.append_assoc]
    rw [hh]
    exact this
  | some b =>
    have := hpart b
    simp only [Entry.tokens, bandTokens, readBody, List.nil_append, List.cons_append, List.tail_cons, List.append_assoc, List.head?_cons,
      Option.bind_some, Tok.alpha]
    exact this

theorem follows_entries (es : List (Entry K)) : Follows (es.flatMap Entry.tokens) := by
  cases es with
  | nil => simp [Follows]
  | cons e es => simp [Follows, Entry.tokens, Tok.isDigit]

theorem parseLoop_tokens (es : List (Entry K)) (he : ∀ e ∈ es, e.Fits) (fuel : Nat) (hf : es.length < fuel) :
    parseLoop fuel (es.flatMap Entry.tokens) = .ok (es.map fun e => (e.key, e.meaning)) := by
  induction es generalizing fuel with
  | nil =>
    obtain ⟨n, rfl⟩ : ∃ n, fuel = n + 1 := ⟨fuel - 1, by simp at hf; omega⟩
    simp [parseLoop]
  | cons e es ih =>
    obtain ⟨n, rfl⟩ : ∃ n, fuel = n + 1 := ⟨fuel - 1, by simp at hf; omega⟩
    have hb := readBody_tokens e (he e (by simp)) (es.flatMap Entry.tokens) (follows_entries es)
    have hi := ih (fun x hx => he x (by simp [hx])) n (by simpa using hf)
    have hhead : ((List.flatMap Entry.tokens (e :: es)).head?.bind Tok.alpha) = some e.name := by
      simp [Entry.tokens, Tok.alpha]
    have htail : (List.flatMap Entry.tokens (e :: es)).tail = e.tokens.tail ++ es.flatMap Entry.tokens := by
      simp [Entry.tokens]
    simp only [parseLoop, hhead, htail, hb, bind, Except.bind, hi, List.map_cons, Except.ok.injEq, List.cons.injEq,
      Prod.mk.injEq, and_true]
    have hne := (he e (by simp)).2.2
    cases hbnd : e.band with
    | none => simp [arrayKey, Entry.key, hbnd]
    | some b =>
      rw [hbnd] at hne
      have : b ≠ "" := fun h => hne (by rw [h])
      simp [arrayKey, Entry.key, hbnd, this]

/-- C243: the arrays of a well-formed file are found with their names and values, however many there are and whatever their
dimensions. -/
theorem parse_file (es : List (Entry K)) (he : ∀ e ∈ es, e.Fits) :
    parseFile (es.flatMap Entry.tokens) = .ok (es.map fun e => (e.key, e.meaning)) := by
  apply parseLoop_tokens es he
  have : es.length ≤ (es.flatMap Entry.tokens).length := by
    clear he
    induction es with
    | nil => simp
    | cons e es ih =>
      simp only [List.flatMap_cons, List.length_append, List.length_cons]
      have : 1 ≤ e.tokens.length := by simp [Entry.tokens]
      omega
  omega

/-! ## Positions -/

/-- C243: of `n` antennas with two positions of three coordinates each, the position is the first one. -/
theorem positions (l : List K) (n : Nat) (hl : l.length = 6 * n) :
    positionLoop l = .ok ((List.range n).map fun (k : Nat) => (l.getD (6 * k) 0, l.getD (6 * k + 1) 0, l.getD (6 * k + 2) 0)) := by
  induction n generalizing l with
  | zero =>
    have : l = [] := List.length_eq_zero_iff.mp (by omega)
    simp [this, positionLoop]
  | succ n ih =>
    match l, hl with
    | x :: y :: z :: a :: b :: c :: more, hl =>
      have hm : more.length = 6 * n := by simp only [List.length_cons] at hl; omega
      simp only [positionLoop, ih more hm, Except.map, List.range_succ_eq_map, List.map_cons, List.map_map, Except.ok.injEq,
        List.cons.injEq]
      refine ⟨rfl, ?_⟩
      apply List.map_congr_left
      intro k _
      have e0 : 6 * (k + 1) = 6 * k + 6 := by ring
      simp only [Function.comp_apply, Nat.succ_eq_add_one, e0]
      rfl
    | [], hl => simp at hl
    | [_], hl => simp only [List.length_cons, List.length_nil] at hl; omega
    | [_, _], hl => simp only [List.length_cons, List.length_nil] at hl; omega
    | [_, _, _], hl => simp only [List.length_cons, List.length_nil] at hl; omega
    | [_, _, _, _], hl => simp only [List.length_cons, List.length_nil] at hl; omega
    | [_, _, _, _, _], hl => simp only [List.length_cons, List.length_nil] at hl; omega

/-- The antenna field of a mode: "LBA" for modes 1 to 4, "HBA" for modes 5 to 7. -/
def fieldOf (mode : Nat) : String := if mode ≤ 4 then "LBA" else "HBA"

/-- C243: with a well-formed file the antennas get the sum of the offset and the first position of the antenna in the first array with
the name of the field; a number of antennas that is not that of the header is refused. -/
theorem antenna_positions (es : List (Entry K)) (he : ∀ e ∈ es, e.Fits) (mode receivers n : Nat) (hm : 1 ≤ mode) (hm7 : mode ≤ 7)
    (e : Entry K) (hfind : es.find? (fun a => a.key = fieldOf mode) = some e) (hl : e.meaning.length = 6 * n) :
    (parseFile (es.flatMap Entry.tokens) >>= fun file => antennaPositions file mode receivers) =
      if n = receivers then
        .ok ((List.range n).map fun (k : Nat) => (e.meaning.getD (6 * k) 0, e.meaning.getD (6 * k + 1) 0, e.meaning.getD (6 * k + 2) 0))
      else .error .refused := by
  rw [parse_file es he]
  simp only [bind, Except.bind, antennaPositions]
  rw [if_neg (by omega)]
  have hfm : (es.map fun e => (e.key, e.meaning)).find? (fun a => a.1 = fieldOf mode) = some (e.key, e.meaning) := by
    rw [List.find?_map]
    have : ((fun a : String × List K => decide (a.1 = fieldOf mode)) ∘ fun e : Entry K => (e.key, e.meaning)) =
        fun a : Entry K => decide (a.key = fieldOf mode) := rfl
    rw [this, hfind]
    rfl
  have hg : getArrayFromMode (es.map fun e => (e.key, e.meaning)) mode =
      getPositions (es.map fun e => (e.key, e.meaning)) (fieldOf mode) := by
    simp only [getArrayFromMode, fieldOf]
    by_cases h4 : mode ≤ 4
    · rw [if_pos (by omega), if_pos h4]
    · rw [if_neg (by omega), if_pos (by omega), if_neg h4]
  rw [hg]
  simp only [getPositions, getArray, hfm, bind, Except.bind, positions _ n hl]
  by_cases hn : n = receivers
  · rw [if_neg (by simpa using hn), if_pos hn]
  · rw [if_pos (by simpa using hn), if_neg hn]

/-- A file with a normal vector, and two antennas. -/
def sampleFile : List (Entry ℚ) :=
  [⟨"NORMAL_VECTOR", some "LBA", ⟨3, [], [dimTok 1, dimTok 2, dimTok 3]⟩, none⟩,
   ⟨"LBA", none, ⟨3, [], [dimTok 10, dimTok 20, dimTok 30]⟩,
     some ⟨2, [2, 3], (List.range 12).map fun i => .num false (-(i : Int)) (-(i : ℚ))⟩⟩]

example : (∀ e ∈ sampleFile, e.Fits) ∧ sampleFile.map Entry.key = ["LBA_NORMAL_VECTOR", "LBA"] ∧
    (match parseFile (sampleFile.flatMap Entry.tokens) with
      | .ok file => (match antennaPositions file 3 2 with | .ok p => p | .error _ => [])
      | .error _ => []) = [(10, 19, 28), (4, 13, 22)] := by
  refine ⟨?_, by decide +kernel, by decide +kernel⟩
  intro e he
  simp only [sampleFile, List.mem_cons, List.not_mem_nil, or_false] at he
  rcases he with rfl | rfl <;> simp [Entry.Fits, Part.Fits]

/-! ## Files that are not well-formed -/

/-- C244, for the number of antennas: when positions are returned, their number is that of the header. -/
theorem count_checked_partial (file : List (String × List K)) (mode receivers : Nat) (p : List (K × K × K))
    (h : antennaPositions file mode receivers = .ok p) : p.length = receivers := by
  simp only [antennaPositions] at h
  split at h
  · simp at h
  · cases hg : getArrayFromMode file mode with
    | error e => simp [hg, bind, Except.bind] at h
    | ok q =>
      simp only [hg, bind, Except.bind] at h
      split at h
      · simp at h
      · rename_i hq
        simp only [Except.ok.injEq] at h
        rw [← h]
        simpa using hq

/-- C244: modes that do not exist, and mode 0, are refused whatever the file. -/
theorem mode_refused (file : List (String × List K)) (mode receivers : Nat) (h : mode = 0 ∨ 7 < mode) :
    antennaPositions file mode receivers = .error .refused := by
  simp [antennaPositions, h]

/-- C244 is false: when the file has no array for the antenna field of the mode, the behaviour is undefined. -/
theorem missing_undefined (file : List (String × List K)) (mode receivers : Nat) (hm : 1 ≤ mode) (hm7 : mode ≤ 7)
    (h : ∀ a ∈ file, a.1 ≠ fieldOf mode) : antennaPositions file mode receivers = .error .ub := by
  have hf : file.find? (fun a => a.1 = fieldOf mode) = none := by
    rw [List.find?_eq_none]; intro a ha; simpa using h a ha
  simp only [antennaPositions]
  rw [if_neg (by omega)]
  have hg : getArrayFromMode file mode = getPositions file (fieldOf mode) := by
    simp only [getArrayFromMode, fieldOf]
    by_cases h4 : mode ≤ 4
    · rw [if_pos (by omega), if_pos h4]
    · rw [if_neg (by omega), if_pos (by omega), if_neg h4]
  rw [hg]
  simp [getPositions, getArray, hf, bind, Except.bind]

/-- C244 is false: an empty file is accepted by the parser. -/
theorem empty_accepted : parseFile ([] : List (Tok K)) = .ok [] := by simp [parseFile, parseLoop]

/-- C244: values are read past the end exactly when the number of values has remainder 1 or 2 when divided by 6. -/
theorem position_undefined_iff (l : List K) :
    positionLoop l = .error .ub ↔ l.length % 6 = 1 ∨ l.length % 6 = 2 := by
  induction hn : l.length using Nat.strong_induction_on generalizing l with
  | _ n ih =>
    match l, hn with
    | [], hn => simp [positionLoop]; simp at hn; omega
    | [_], hn => simp [positionLoop]; simp at hn; omega
    | [_, _], hn => simp [positionLoop]; simp at hn; omega
    | [_, _, _], hn => simp [positionLoop]; simp at hn; omega
    | [_, _, _, _], hn => simp [positionLoop]; simp at hn; omega
    | [_, _, _, _, _], hn => simp [positionLoop]; simp at hn; omega
    | x :: y :: z :: a :: b :: c :: more, hn =>
      simp only [List.length_cons] at hn
      have := ih more.length (by omega) more rfl
      have h6 : n % 6 = more.length % 6 := by omega
      rw [h6, ← this]
      simp only [positionLoop]
      cases positionLoop more <;> simp [Except.map]

example : positionLoop ([1, 2, 3, 4, 5, 6, 7] : List ℚ) = .error .ub ∧
    positionLoop ([1, 2, 3, 4, 5, 6, 7, 8, 9] : List ℚ) = .ok [(1, 2, 3), (7, 8, 9)] := by
  constructor <;> rfl

end

end DP3.Aartfaac
