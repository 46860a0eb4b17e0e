import Verif.SkyText.Model

/-!
# Text as a user writes it

None of this is in the code.
-/

namespace DP3.SkyText

/-- Characters with a meaning. -/
def special (c : Char) : Bool := c = '\'' || c = '"' || c = '[' || c = ']'

/-- A text in which quotes and brackets match, and without the separator outside of them. Without a separator: any. -/
inductive Text : Option Char → List Char → Prop
  | nil (sep : Option Char) : Text sep []
  | char {sep : Option Char} {c : Char} {s : List Char} (hc : special c = false) (hs : some c ≠ sep) (h : Text sep s) : Text sep (c :: s)
  | quoted {sep : Option Char} {q : Char} {inner s : List Char} (hq : q = '\'' ∨ q = '"') (hi : q ∉ inner) (h : Text sep s) :
      Text sep (q :: inner ++ q :: s)
  | bracket {sep : Option Char} {inner s : List Char} (hi : Text none inner) (h : Text sep s) : Text sep ('[' :: inner ++ ']' :: s)

/-- Nothing but spaces and tabs. -/
def Blank (s : List Char) : Prop := ∀ c ∈ s, isBlank c = true

/-- No spaces or tabs at the start and the end. -/
def Trimmed (s : List Char) : Prop := ltrim s = s ∧ rtrim s = s

/-- A value in a line with the blanks around it. -/
structure Cell where
  lead : List Char
  value : List Char
  trail : List Char

/-- A value that fits in a column. A column that ends at a blank cannot be empty. -/
structure Fits (sep : Char) (c : Cell) : Prop where
  lead : Blank c.lead
  trail : Blank c.trail
  trimmed : Trimmed c.value
  text : Text (some sep) c.value
  filled : isBlank sep = false ∨ c.value ≠ []

/-- A line with values for the columns that have no fixed value; there may be fewer values than columns. -/
def render : List Field → List Cell → List Char
  | [], _ => []
  | f :: fs, cells =>
    match f.given with
    | .fixed _ => render fs cells
    | _ =>
      match cells with
      | [] => []
      | [c] => c.lead ++ c.value ++ c.trail
      | c :: cs => c.lead ++ c.value ++ c.trail ++ f.sep :: render fs cs

/-- The values that these columns have. -/
def expected : List Field → List Cell → List (List Char)
  | [], _ => []
  | f :: fs, cells =>
    match f.given, cells with
    | .fixed v, cells => v :: expected fs cells
    | g, [] => orDefault g [] :: expected fs []
    | g, c :: cs => orDefault g c.value :: expected fs cs

/-- The values fit in their columns. -/
def AllFit : List Field → List Cell → Prop
  | [], _ => True
  | f :: fs, cells =>
    match f.given with
    | .fixed _ => AllFit fs cells
    | _ =>
      match cells with
      | [] => True
      | c :: cs => Fits f.sep c ∧ AllFit fs cs

/-! ## Columns with their values -/

/-- The value of a column with its text: the text of a fixed value is not used. -/
def valueOf (p : Field × Cell) : List Char :=
  match p.1.given with
  | .fixed v => v
  | .default d => if p.2.value = [] then d else p.2.value
  | .nothing => p.2.value

/-- A column that takes text. -/
def takes (p : Field × Cell) : Bool :=
  match p.1.given with
  | .fixed _ => false
  | _ => true

/-- The line for these columns. -/
def lineOf (ps : List (Field × Cell)) : List Char := render (ps.map Prod.fst) ((ps.filter takes).map Prod.snd)

/-- A line that can be split: separators that are not quotes or brackets, values that fit. -/
def Good (ps : List (Field × Cell)) : Prop := ∀ p ∈ ps, special p.1.sep = false ∧ (takes p = true → Fits p.1.sep p.2)

/-! ## The format as text -/

/-- A name: letters, digits, underscores, and colons beyond the first character. -/
def IsName (s : List Char) : Prop := (∃ c cs, s = c :: cs ∧ isWord c = true) ∧ ∀ c ∈ s, isWord c = true ∨ c = ':'

/-- A column as written in a format, with its blanks. -/
structure Col where
  name : List Char
  given : Given
  quote : Char
  b1 : List Char
  b2 : List Char
  b3 : List Char
  sep : Char
  b4 : List Char

/-- The value in a format. -/
def givenText (c : Col) : List Char :=
  match c.given with
  | .nothing => []
  | .default v => '=' :: c.b2 ++ c.quote :: v ++ [c.quote]
  | .fixed v => '=' :: c.b2 ++ "fixed".toList ++ c.quote :: v ++ [c.quote]

/-- The part before the separator. -/
def colText (c : Col) : List Char := c.name ++ c.b1 ++ givenText c

/-- The separator with the blanks around it. A space is a separator without more. -/
def sepText (c : Col) : List Char := if c.sep = ' ' then c.b3 else c.b3 ++ c.sep :: c.b4

/-- A format: some columns and the last one, which has no separator. -/
def formatText : List Col → Col → List Char
  | [], last => colText last
  | c :: cs, last => colText c ++ sepText c ++ formatText cs last

/-- The value contains no quote of its kind. -/
def GoodGiven (c : Col) : Prop :=
  (c.quote = '\'' ∨ c.quote = '"') ∧
  match c.given with
  | .nothing => True
  | .default v => c.quote ∉ v
  | .fixed v => c.quote ∉ v

/-- A column that can be written in a format. -/
structure GoodCol (c : Col) : Prop where
  name : IsName c.name
  degree : lower c.name ≠ "spectralindexdegree".toList
  given : GoodGiven c
  b1 : Blank c.b1
  b2 : Blank c.b2
  b3 : Blank c.b3
  b4 : Blank c.b4
  word : isWord c.sep = false
  sep : c.sep ≠ '=' ∧ c.sep ≠ ':' ∧ c.sep ≠ '\'' ∧ c.sep ≠ '"' ∧ c.sep ≠ '\t'
  /-- A space has to be there, unless a value ends the column. -/
  space : c.sep = ' ' → c.b1 ++ c.b3 ≠ [] ∨ c.given ≠ .nothing

/-- A last column. -/
structure GoodLast (c : Col) : Prop where
  name : IsName c.name
  degree : c.given ≠ .nothing → lower c.name ≠ "spectralindexdegree".toList
  given : GoodGiven c
  b1 : Blank c.b1
  b2 : Blank c.b2
  blank : c.given = .nothing → c.b1 = []

/-- The last column: its separator is a space, and after a value what is behind the text. -/
def lastSep (c : Col) (beyond : Char) : Char := if c.given = .nothing then ' ' else beyond

/-- The columns of a format. -/
def columnsOf (beyond : Char) : List Col → Col → List Field
  | [], last => [column last.name last.given (lastSep last beyond)]
  | c :: cs, last => column c.name c.given c.sep :: columnsOf beyond cs last

/-- A field has a column. -/
def Has (fields : List Field) (k : Nat) : Prop := ∃ f ∈ fields, f.known = some k

/-- A coordinate is given as a whole or in parts, by hours or degrees. -/
def Given1 (fields : List Field) (whole h d m s : Nat) : Prop :=
  (Has fields whole ∧ ¬ Has fields h ∧ ¬ Has fields d ∧ ¬ Has fields m ∧ ¬ Has fields s) ∨
  (¬ Has fields whole ∧ (Has fields h ∨ Has fields d ∨ Has fields m ∨ Has fields s) ∧ ¬ (Has fields h ∧ Has fields d))

/-- Ra with rah, rad, ram, ras, and Dec with dech, decd, decm, decs. -/
def HasPosition (fields : List Field) : Prop := Given1 fields 3 26 27 28 29 ∧ Given1 fields 4 30 31 32 33

/-! ## Vectors -/

/-- Values with commas between them. -/
def joined : List Cell → List Char
  | [] => []
  | [c] => c.lead ++ c.value ++ c.trail
  | c :: cs => c.lead ++ c.value ++ c.trail ++ ',' :: joined cs

/-! ## Positions -/

/-- The position that is meant: the sign before the hours or degrees is that of the whole. -/
def meant (hasHours : Bool) (first : Number) (m s : Rat) : Rat :=
  (if hasHours then 15 else 1) * (if first.negative then -1 else 1) * (first.size + m / 60 + s / 3600)

end DP3.SkyText
