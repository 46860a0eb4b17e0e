import Verif.StringTools.Model

/-!
# Parameter values

Model of `common/ParameterValue.cc`: splitting of vectors, removal of quotes and vectors of integers.
-/

namespace DP3.ParamValue

open DP3.StringTools

/-- The counters of open parentheses, brackets and braces, common/ParameterValue.cc:43-45. -/
structure Counts where
  par : Int
  brk : Int
  brc : Int
  deriving DecidableEq

/-- The counters after a character outside quotes, common/ParameterValue.cc:51-72 without the comma. -/
def count (n : Counts) (c : Char) : Except Err Counts :=
  let r : Except Err Counts :=
    if c = '(' then .ok { n with par := n.par + 1 }
    else if c = ')' then .ok { n with par := n.par - 1 }
    else if c = '[' then
      if n.par ≠ 0 then .error .throws else .ok { n with brk := n.brk + 1 }
    else if c = ']' then .ok { n with brk := n.brk - 1 }
    else if c = '{' then
      if n.par ≠ 0 then .error .throws else .ok { n with brc := n.brc + 1 }
    else if c = '}' then .ok { n with brc := n.brc - 1 }
    else .ok n
  match r with
  | .error e => .error e
  | .ok m => if m.par < 0 ∨ m.brk < 0 ∨ m.brc < 0 then .error .throws else .ok m

/-- The loop of common/ParameterValue.cc:46-81: `cur` is the reversed text from `st` to `i`. A comma at
the top level leaves all counters zero, so the check at 72-73 cannot fail there. -/
def splitGo : Nat → Counts → List Char → List Char → Except Err (List (List Char))
  | 0, _, _, _ => .error .fuel
  | _ + 1, n, cur, [] =>
    if n.par ≠ 0 ∨ n.brk ≠ 0 ∨ n.brc ≠ 0 then .error .throws else .ok [trim cur.reverse]
  | fuel + 1, n, cur, c :: r =>
    if isQuote c then
      match findQuote c r with
      | none => .error .throws
      | some (a, b) => splitGo fuel n (a.reverse ++ c :: cur) b
    else if c = ',' ∧ n.par + n.brk + n.brc = 0 then
      match splitGo fuel n [] r with
      | .error e => .error e
      | .ok vs => .ok (trim cur.reverse :: vs)
    else
      match count n c with
      | .error e => .error e
      | .ok m => splitGo fuel m (c :: cur) r

/-- common/ParameterValue.cc:32-82 splitValue, for the text between the enclosing characters. The
character after it is not a quote, so that `skipQuoted` does not look beyond the text. -/
def splitValue (s : List Char) : Except Err (List (List Char)) :=
  match lskip s with
  | [] => .ok []
  | c :: r => splitGo (r.length + 2) ⟨0, 0, 0⟩ [] (c :: r)

/-- common/ParameterValue.cc:84-99 getVector, for a trimmed value. -/
def getVector (v : List Char) : Except Err (List (List Char)) :=
  if v = [] then .ok []
  else if ¬ (v.head? = some '[' ∧ v.getLast? = some ']') then .ok [v]
  else if v.length < 2 then .error .throws
  else splitValue (v.tail.dropLast)

/-- common/ParameterValue.cc:131-157 getString: `cur` is the reversed unquoted text from `stv` on. -/
def getStringGo : Nat → List Char → List Char → Except Err (List Char)
  | 0, _, _ => .error .fuel
  | _ + 1, cur, [] => .ok cur.reverse
  | fuel + 1, cur, c :: r =>
    if isQuote c then
      match findQuote c r with
      | none => .error .throws
      | some (a, b) =>
        match getStringGo fuel [] b with
        | .error e => .error e
        | .ok s => .ok (cur.reverse ++ a.dropLast ++ s)
    else getStringGo fuel (c :: cur) r

/-- common/ParameterValue.cc:131-157 getString. -/
def getString (v : List Char) : Except Err (List Char) := getStringGo (v.length + 1) [] v

/-- The conversion of every element of a vector, e.g. common/ParameterValue.cc:170-179. -/
def mapVector (f : List Char → Except Err α) : List (List Char) → Except Err (List α)
  | [] => .ok []
  | v :: r =>
    match f v with
    | .error e => .error e
    | .ok x =>
      match mapVector f r with
      | .error e => .error e
      | .ok xs => .ok (x :: xs)

/-- common/ParameterValue.cc:170-179 getIntVector. -/
def getIntVector (einval : Bool) (v : List Char) : Except Err (List Int) :=
  match getVector v with
  | .error e => .error e
  | .ok vs => mapVector (strToInt einval) vs

/-- common/ParameterValue.cc:280-289 getStringVector. -/
def getStringVector (v : List Char) : Except Err (List (List Char)) :=
  match getVector v with
  | .error e => .error e
  | .ok vs => mapVector getString vs

end DP3.ParamValue
