/-!
# Values per station, and station patterns

Model of common/ValuePerStationParsing.h and of `PatternToRegex` in common/StringTools.cc.
Strings are lists of characters.
-/

namespace DP3.StationValues

/-! ## Patterns -/

/-- The replacement of one character by a string in all of a string (`std::regex_replace` with a
pattern that is one escaped character): StringTools.cc:552, 555, 557. -/
def replaceAll (c : Char) (by_ : List Char) (s : List Char) : List Char :=
  s.flatMap fun x => if x = c then by_ else [x]

/-- `PatternToRegex`: StringTools.cc:548-560. -/
def patternToRegex (pattern : List Char) : List Char :=
  replaceAll '?' ['.'] (replaceAll '*' ['.', '*'] (replaceAll '.' ['\\', '.'] pattern))

/-- The part of regular expressions that is modelled: a character or any character, possibly
repeated. -/
inductive Atom
  | lit (c : Char)
  | any
deriving DecidableEq, Repr

/-- Characters with a meaning in a regular expression. -/
def special (c : Char) : Bool :=
  ['\\', '^', '$', '.', '|', '?', '*', '+', '(', ')', '[', ']', '{', '}'].contains c

/-- An atom or a star. -/
inductive Tok
  | atom (a : Atom)
  | star
deriving DecidableEq, Repr

/-- How `std::regex` reads the characters of a string, as far as modelled; `none` for other
expressions (trusted: ECMAScript grammar, used by ValuePerStationParsing.h:40). -/
def tokens : List Char → Option (List Tok)
  | [] => some []
  | '\\' :: c :: rest => (tokens rest).map (.atom (.lit c) :: ·)
  | '.' :: rest => (tokens rest).map (.atom .any :: ·)
  | '*' :: rest => (tokens rest).map (.star :: ·)
  | c :: rest => if special c then none else (tokens rest).map (.atom (.lit c) :: ·)

/-- A star belongs to the atom before it (trusted, as above). -/
def groupStars : List Tok → Option (List (Atom × Bool))
  | [] => some []
  | .atom a :: .star :: rest => (groupStars rest).map ((a, true) :: ·)
  | .atom a :: rest => (groupStars rest).map ((a, false) :: ·)
  | .star :: _ => none

/-- How `std::regex` reads a string, as far as modelled (trusted, as above). -/
def parseRegex (s : List Char) : Option (List (Atom × Bool)) := (tokens s).bind groupStars

/-- Does an atom match a character?  A dot does not match a line terminator. -/
def Atom.ok : Atom → Char → Bool
  | .lit c, x => c == x
  | .any, x => !(x == '\n' || x == '\r')

/-- A repeated atom followed by something that matches when `next` says so. -/
def matchStar (ok : Char → Bool) (next : List Char → Bool) : List Char → Bool
  | [] => next []
  | x :: xs => next (x :: xs) || (ok x && matchStar ok next xs)

/-- `std::regex_match`: the whole string (trusted: the meaning of regular expressions, used by
ValuePerStationParsing.h:42). -/
def matchRegex : List (Atom × Bool) → List Char → Bool
  | [], s => s.isEmpty
  | (a, true) :: r, s => matchStar a.ok (matchRegex r) s
  | (_, false) :: _, [] => false
  | (a, false) :: r, x :: xs => a.ok x && matchRegex r xs

/-! ## AssignStationValues -/

section
variable {V : Type}

/-- The test for a negated pattern: ValuePerStationParsing.h:48. -/
def isNegated (pattern : List Char) : Bool :=
  decide (1 < pattern.length) && (pattern.head? == some '!' || pattern.head? == some '^')

/-- The pattern without negation: ValuePerStationParsing.h:49-51. -/
def body (pattern : List Char) : List Char := if isNegated pattern then pattern.drop 1 else pattern

/-- One pattern: ValuePerStationParsing.h:39-52.  `isMatch` is `regex_match` with the expression of
`PatternToRegex`. -/
def select (isMatch : List Char → List Char → Bool) (names : List (List Char)) (selected : List Bool)
    (pattern : List Char) : List Bool :=
  List.zipWith (fun name old => if isMatch (body pattern) name then !isNegated pattern else old)
    names selected

/-- `AssignStationValues`, given the vector of patterns: ValuePerStationParsing.h:28-61. -/
def assign (isMatch : List Char → List Char → Bool) (names : List (List Char)) (result : List V)
    (value : V) (patterns : List (List Char)) : List V :=
  let selected := patterns.foldl (select isMatch names) (names.map fun _ => false)
  List.zipWith (fun (s : Bool) old => if s then value else old) selected result

/-- `stations_value.find(':')` and the two parts: ValuePerStationParsing.h:85-96. -/
def splitColon : List Char → Option (List Char × List Char)
  | [] => none
  | c :: rest =>
    if c = ':' then some ([], rest) else (splitColon rest).map fun r => (c :: r.1, r.2)

/-- `ParseValuePerStation`.  `vectorOf` is `ParameterValue::getStringVector` and `valueOf` reads a
value from a stream; `none` is the exception for a missing colon: ValuePerStationParsing.h:79-99. -/
def parseValues (isMatch : List Char → List Char → Bool) (vectorOf : List Char → List (List Char))
    (valueOf : List Char → V) (names : List (List Char)) :
    List (List Char) → List V → Option (List V)
  | [], result => some result
  | item :: items, result =>
    match splitColon item with
    | none => none
    | some (p, v) =>
      parseValues isMatch vectorOf valueOf names items
        (assign isMatch names result (valueOf v) (vectorOf p))

end

end DP3.StationValues
