import Verif.StringTools.IntProps

/-!
# The notation of array strings

An abstract syntax for the array strings a user writes, how it is written down, and which list it
denotes.
-/

namespace DP3.StringTools

/-- How a range repeats its prefix: `x1..3`, `x1..x3` or `x{1..3}`. -/
inductive Form where
  | once
  | again
  | braces
  deriving DecidableEq

/-- The elements of an array, each with blanks in front of it. -/
inductive Items where
  | nil
  /-- Text without special meaning. -/
  | text (ws s : List Char) (next : Items)
  /-- A quoted text. -/
  | quoted (ws : List Char) (q : Char) (s : List Char) (next : Items)
  /-- A range from `lo` to `hi`, with blanks around the dots. -/
  | range (ws pfx lo hi sfx : List Char) (form : Form) (w1 w2 : List Char) (next : Items)
  /-- An array as element. -/
  | list (ws : List Char) (inner next : Items)
  /-- A repeated element or, in parentheses, a repeated list of elements. -/
  | rep (ws n : List Char) (parens : Bool) (inner next : Items)

namespace Items

/-- What separates an element from the rest. -/
def sepWith : Items → List Char → List Char
  | nil, _ => []
  | _, body => ',' :: body

/-- The text of a range. -/
def rangeText (pfx lo hi sfx : List Char) (form : Form) (w1 w2 : List Char) : List Char :=
  match form with
  | .once => pfx ++ lo ++ w1 ++ '.' :: '.' :: w2 ++ hi ++ sfx
  | .again => pfx ++ lo ++ w1 ++ '.' :: '.' :: w2 ++ pfx ++ hi ++ sfx
  | .braces => pfx ++ '{' :: lo ++ w1 ++ '.' :: '.' :: w2 ++ hi ++ '}' :: sfx

/-- How the elements are written, with commas between them. -/
def body : Items → List Char
  | nil => []
  | text ws s next => ws ++ s ++ sepWith next (body next)
  | quoted ws q s next => ws ++ (q :: s ++ [q]) ++ sepWith next (body next)
  | range ws pfx lo hi sfx form w1 w2 next =>
    ws ++ rangeText pfx lo hi sfx form w1 w2 ++ sepWith next (body next)
  | list ws inner next => ws ++ ('[' :: body inner ++ [']']) ++ sepWith next (body next)
  | rep ws n parens inner next =>
    ws ++ (n ++ '*' :: (if parens then '(' :: body inner ++ [')'] else body inner)) ++
      sepWith next (body next)

/-- One list of elements after another. -/
def append : Items → Items → Items
  | nil, b => b
  | text ws s next, b => text ws s (append next b)
  | quoted ws q s next, b => quoted ws q s (append next b)
  | range ws pfx lo hi sfx form w1 w2 next, b =>
    range ws pfx lo hi sfx form w1 w2 (append next b)
  | list ws inner next, b => list ws inner (append next b)
  | rep ws n parens inner next, b => rep ws n parens inner (append next b)

/-- More blanks before the first element. -/
def addWs (w : List Char) : Items → Items
  | nil => nil
  | text ws s next => text (w ++ ws) s next
  | quoted ws q s next => quoted (w ++ ws) q s next
  | range ws pfx lo hi sfx form w1 w2 next => range (w ++ ws) pfx lo hi sfx form w1 w2 next
  | list ws inner next => list (w ++ ws) inner next
  | rep ws n parens inner next => rep (w ++ ws) n parens inner next

/-- A list of elements `n` times. -/
def times : Nat → Items → Items
  | 0, _ => nil
  | n + 1, xs => append xs (times n xs)

/-- Text elements. -/
def texts : List (List Char) → Items
  | [] => nil
  | s :: r => text [] s (texts r)

/-- The numbers between two numbers, in the order in which they were written. -/
def between (a b : Nat) : List Nat :=
  if a ≤ b then (List.range (b - a + 1)).map (a + ·) else (List.range (a - b + 1)).map (a - ·)

/-- A number with leading zeros, to the length of the first number of the range. -/
def withZeros (w n : Nat) : List Char :=
  let ds := (toString n).toList
  List.replicate (w - ds.length) '0' ++ ds

/-- The list that the notation denotes. Blanks in front are kept at the first element. -/
def denote : Items → Items
  | nil => nil
  | text ws s next => text ws s (denote next)
  | quoted ws q s next => quoted ws q s (denote next)
  | range ws pfx lo hi sfx _ _ _ next =>
    append (addWs ws (texts ((between (number false lo) (number false hi)).map fun k =>
      pfx ++ withZeros lo.length k ++ sfx))) (denote next)
  | list ws inner next => list ws (denote inner) (denote next)
  | rep ws n _ inner next =>
    append (addWs ws (times (number false n) (denote inner))) (denote next)

/-- Blanks. -/
def Blank (ws : List Char) : Prop := ∀ c ∈ ws, c = ' ' ∨ c = '\t'

/-- A text without special characters. -/
def Plain (s : List Char) : Prop :=
  ∀ c ∈ s, isSpace c = false ∧ c ∉ ['\'', '"', '[', ']', '(', ')', ',', ';', '*']

/-- A text without two dots in sequence. -/
def NoDots (s : List Char) : Prop := ∀ a b, s ≠ a ++ '.' :: '.' :: b

/-- A number that fits in an `int`. -/
def Number (ds : List Char) : Prop :=
  ds ≠ [] ∧ (∀ c ∈ ds, isDigit c = true) ∧ number false ds < 2 ^ 31

/-- A single element without blanks in front. -/
def Single : Items → Prop
  | nil => False
  | text ws _ next | quoted ws _ _ next | range ws _ _ _ _ _ _ _ next | list ws _ next
  | rep ws _ _ _ next => ws = [] ∧ next = nil

/-- Array strings of the notation. In a range the largest `int` may not be the last and larger
number; a prefix does not begin or end with a digit; a suffix does not begin with one. -/
def WF : Items → Prop
  | nil => True
  | text ws s next => Blank ws ∧ Plain s ∧ NoDots s ∧ WF next
  | quoted ws q s next => Blank ws ∧ (q = '\'' ∨ q = '"') ∧ q ∉ s ∧ WF next
  | range ws pfx lo hi sfx form w1 w2 next =>
    Blank ws ∧ Plain pfx ∧ NoDots pfx ∧ Plain sfx ∧ NoDots sfx ∧ Number lo ∧ Number hi ∧
    Blank w1 ∧ Blank w2 ∧ (∀ c, pfx.head? = some c → isDigit c = false) ∧
    (number false lo < number false hi → number false hi ≠ 2147483647) ∧
    (form ≠ .braces → (∀ c, pfx.getLast? = some c → isDigit c = false) ∧
      (∀ c, sfx.head? = some c → isDigit c = false) ∧
      ¬ (pfx.getLast? = some '{' ∧ sfx.head? = some '}')) ∧ WF next
  | list ws inner next => Blank ws ∧ WF inner ∧ WF next
  | rep ws n parens inner next =>
    Blank ws ∧ Number n ∧ 0 < number false n ∧ WF inner ∧ inner ≠ nil ∧
    (parens = false → Single inner) ∧ WF next

end Items
end DP3.StringTools
