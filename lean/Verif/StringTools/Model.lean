/-!
# Parsing of parset values: integers and array strings

Model of `common/StringTools.cc`. A string is a list of characters without NUL. An index into a
string is modelled by a pair of lists: the reversed part before the index and the part from the
index on. Reading `str[size]` gives NUL in C++, which is none of the characters tested for.
-/

namespace DP3.StringTools

/-- How a call ends when it does not return: an exception, undefined behaviour, or (only in the
model) running out of fuel. -/
inductive Err where
  | throws
  | ub
  | fuel
  deriving DecidableEq, Repr

deriving instance DecidableEq for Except

/-- `isspace` in the C locale (used in common/StringTools.cc:61-75). -/
def isSpace (c : Char) : Bool :=
  c == ' ' || c == '\t' || c == '\n' || c == '\x0b' || c == '\x0c' || c == '\r'

/-- `isdigit`. -/
def isDigit (c : Char) : Bool := decide ('0' ≤ c ∧ c ≤ '9')

/-- common/StringTools.cc:61-67 lskipws. -/
def lskip (s : List Char) : List Char := s.dropWhile isSpace

/-- common/StringTools.cc:69-75 rskipws. -/
def rskip (s : List Char) : List Char := (s.reverse.dropWhile isSpace).reverse

/-- Both, as at common/StringTools.cc:92-93 and in the constructor of `ParameterValue`
(common/ParameterValue.cc:17-26). -/
def trim (s : List Char) : List Char := rskip (lskip s)

/-! ## Integers -/

/-- The value of a digit in base 10 or 16. -/
def digitVal (hex : Bool) (c : Char) : Option Nat :=
  if isDigit c then some (c.toNat - '0'.toNat)
  else if hex && decide ('a' ≤ c ∧ c ≤ 'f') then some (c.toNat - 'a'.toNat + 10)
  else if hex && decide ('A' ≤ c ∧ c ≤ 'F') then some (c.toNat - 'A'.toNat + 10)
  else none

/-- The digits at the start of a string: their number, the value, and what follows. -/
def scanDigits (hex : Bool) : List Char → Nat → Nat → Nat × Nat × List Char
  | [], n, v => (n, v, [])
  | c :: r, n, v =>
    match digitVal hex c with
    | some d => scanDigits hex r (n + 1) ((if hex then 16 else 10) * v + d)
    | none => (n, v, c :: r)

/-- What follows an optional sign. -/
def dropSign : List Char → List Char
  | [] => []
  | c :: r => if c = '+' ∨ c = '-' then r else c :: r

/-- The C function `strtol` (and `strtoul`) on a string that does not start with whitespace, before
the value is limited to the range of the type: whether something was converted, the value, and the
string at `endPtr`. Base 0 is used only for strings that start with 0x (common/StringTools.cc:98-101)
; there a lone 0 is converted when no hexadecimal digit follows. -/
def strtol (hex : Bool) (s : List Char) : Bool × Int × List Char :=
  if hex then
    match scanDigits true (s.drop 2) 0 0 with
    | (0, _, _) => (true, 0, s.drop 1)
    | (_, v, r) => (true, v, r)
  else
    match scanDigits false (dropSign s) 0 0 with
    | (0, _, _) => (false, 0, s)
    | (_, v, r) => (true, if s.head? == some '-' then -(v : Int) else v, r)

/-- The test for a hexadecimal value, common/StringTools.cc:98-99. -/
def looksHex (body : List Char) : Bool :=
  decide (2 < body.length) && body[0]? == some '0' && (body[1]? == some 'x' || body[1]? == some 'X')

/-- common/StringTools.cc:90-110 strToLong. The parameter tells whether the C library sets `errno` to
EINVAL when nothing could be converted: the C standard leaves that open, glibc does not do it. A
`long` has 64 bits. -/
def strToLong (einval : Bool) (s : List Char) : Except Err Int :=
  let body := trim s
  let r := strtol (looksHex body) (lskip s)
  if r.2.2.length + body.length ≠ (lskip s).length then .error .throws
  else if r.2.1 < -2 ^ 63 ∨ 2 ^ 63 ≤ r.2.1 ∨ (einval && !r.1) then .error .throws
  else .ok r.2.1

/-- The range check of common/StringTools.cc:112-139 strToInt, strToInt32 and strToInt16. -/
def strToRange (lo hi : Int) (v : Except Err Int) : Except Err Int :=
  match v with
  | .error e => .error e
  | .ok v => if v < lo ∨ hi < v then .error .throws else .ok v

/-- common/StringTools.cc:112-132 strToInt and strToInt32. -/
def strToInt (einval : Bool) (s : List Char) : Except Err Int :=
  strToRange (-32768 * 65536) 2147483647 (strToLong einval s)

/-- common/StringTools.cc:134-139 strToInt16. -/
def strToInt16 (einval : Bool) (s : List Char) : Except Err Int :=
  strToRange (-32768) 32767 (strToLong einval s)

/-- common/StringTools.cc:141-167 strToUlong. -/
def strToUlong (einval : Bool) (s : List Char) : Except Err Int :=
  let body := trim s
  if (lskip s).head? == some '-' then .error .throws
  else
    let r := strtol (looksHex body) (lskip s)
    if r.2.2.length + body.length ≠ (lskip s).length then .error .throws
    else if 2 ^ 64 ≤ r.2.1 ∨ (einval && !r.1) then .error .throws
    else .ok r.2.1

/-- common/StringTools.cc:169-189 strToUint and strToUint32. -/
def strToUint32 (einval : Bool) (s : List Char) : Except Err Int :=
  strToRange 0 4294967295 (strToUlong einval s)

/-- common/StringTools.cc:191-197 strToUint16. -/
def strToUint16 (einval : Bool) (s : List Char) : Except Err Int :=
  strToRange 0 65535 (strToUlong einval s)

/-- common/ParameterValue.h:59 getUint32: the result type is `int32_t`, so values from 2^31 on wrap
around. -/
def getUint32 (einval : Bool) (s : List Char) : Except Err Int :=
  match strToUint32 einval s with
  | .error e => .error e
  | .ok v => .ok (if v < 2 ^ 31 then v else v - 2 ^ 32)

/-- common/StringTools.cc:77-88 strToBool. -/
def strToBool (s : List Char) : Except Err Bool :=
  match s with
  | [] => .error .throws
  | c :: _ =>
    if c = 't' ∨ c = 'T' ∨ c = '1' ∨ c = 'Y' ∨ c = 'y' then .ok true
    else if c = 'f' ∨ c = 'F' ∨ c = '0' ∨ c = 'N' ∨ c = 'n' then .ok false
    else .error .throws

/-! ## Array strings -/

/-- A quote character. -/
def isQuote (c : Char) : Bool := c == '\'' || c == '"'

/-- The part up to and including the first `q`, and the rest: `str.find(q, ...)` in
common/StringTools.cc:505-511 skipQuoted and 309-312. -/
def findQuote (q : Char) : List Char → Option (List Char × List Char)
  | [] => none
  | c :: r =>
    if c = q then some ([c], r)
    else match findQuote q r with
      | some (a, b) => some (c :: a, b)
      | none => none

/-- common/StringTools.cc:513-534 skipBalanced after the first character, with the number of open
parentheses; a quoted part is skipped by remembering the quote character. The result is the skipped
part and the rest. -/
def skipBalanced (opn cls : Char) : Option Char → Nat → List Char → Except Err (List Char × List Char)
  | _, _, [] => .error .throws
  | some q, n, c :: r =>
    match skipBalanced opn cls (if c = q then none else some q) n r with
    | .ok (a, b) => .ok (c :: a, b)
    | .error e => .error e
  | none, n, c :: r =>
    if c = cls ∧ n = 1 then .ok ([c], r)
    else
      match skipBalanced opn cls (if isQuote c ∧ c ≠ cls ∧ c ≠ opn then some c else none)
        (if c = cls then n - 1 else if c = opn then n + 1 else n) r with
      | .ok (a, b) => .ok (c :: a, b)
      | .error e => .error e

/-- Replace semicolons by commas outside quotes, common/StringTools.cc:452-463. An open quote cannot
occur there, as `skipBalanced` has seen the same quotes; it throws in the code. -/
def replaceSemicolon : Option Char → List Char → List Char
  | _, [] => []
  | some q, c :: r => c :: replaceSemicolon (if c = q then none else some q) r
  | none, c :: r =>
    if isQuote c then c :: replaceSemicolon (some c) r
    else (if c = ';' then ',' else c) :: replaceSemicolon none r

/-- The end of a value that is not a set, common/StringTools.cc:465-485. -/
def scanValue : Nat → List Char → Except Err (List Char × List Char)
  | 0, _ => .error .fuel
  | _ + 1, [] => .ok ([], [])
  | fuel + 1, c :: r =>
    if isQuote c then
      match findQuote c r with
      | none => .error .throws
      | some (a, b) =>
        match scanValue fuel b with
        | .ok (x, y) => .ok (c :: a ++ x, y)
        | .error e => .error e
    else if c = '[' ∨ c = '(' then
      match skipBalanced c (if c = '[' then ']' else ')') none 1 r with
      | .error e => .error e
      | .ok (a, b) =>
        match scanValue fuel b with
        | .ok (x, y) => .ok (c :: a ++ x, y)
        | .error e => .error e
    else if c = ',' ∨ c = ']' ∨ c = ')' then .ok ([], c :: r)
    else
      match scanValue fuel r with
      | .ok (x, y) => .ok (c :: x, y)
      | .error e => .error e

/-- The value that has to be repeated and what follows it, common/StringTools.cc:440-488. -/
def repeatValue (fuel : Nat) (r : List Char) : Except Err (List Char × List Char) :=
  match r with
  | '[' :: r' =>
    match skipBalanced '[' ']' none 1 r' with
    | .ok (a, b) => .ok ('[' :: a, b)
    | .error e => .error e
  | '(' :: r' =>
    match skipBalanced '(' ')' none 1 r' with
    | .ok (a, b) => .ok (replaceSemicolon none a.dropLast, b)
    | .error e => .error e
  | _ => scanValue fuel r

/-- Join with commas. -/
def joinComma : List (List Char) → List Char
  | [] => []
  | [x] => x
  | x :: y :: r => x ++ ',' :: joinComma (y :: r)

/-- The end of a number before the index and a delimiter before that, common/StringTools.cc:419-432:
the digits and the part before them, or nothing. -/
def numberBefore (pre : List Char) : Option (List Char × List Char) :=
  let p1 := pre.dropWhile isSpace
  let digits := (p1.takeWhile isDigit).reverse
  let p2 := p1.dropWhile isDigit
  match p2.dropWhile isSpace with
  | [] => if digits = [] then none else some (digits, p2)
  | c :: _ =>
    if (c = ',' ∨ c = '[' ∨ c = '(') ∧ digits ≠ [] then some (digits, p2) else none

/-- The treatment of an asterisk, common/StringTools.cc:417-499. The string returned is scanned again
from the start of the replacement (492-498). -/
def multStar (einval : Bool) (fuel : Nat) (pre r : List Char) :
    Except Err (List Char × List Char) :=
  match numberBefore pre with
  | none => .ok ('*' :: pre, r)
  | some (digits, p2) =>
    match strToInt einval digits with
    | .error e => .error e
    | .ok num =>
      match repeatValue fuel (lskip r) with
      | .error e => .error e
      | .ok (val, rest) => .ok (p2, joinComma (List.replicate num.toNat val) ++ rest)

/-- One iteration of the loop in common/StringTools.cc:400-503 expandMultString. -/
def multStep (einval : Bool) (fuel : Nat) (pre : List Char) (c : Char) (r : List Char) :
    Except Err (List Char × List Char) :=
  if isQuote c then
    match findQuote c r with
    | none => .error .throws
    | some (a, b) => .ok (a.reverse ++ c :: pre, b)
  else if c ≠ '*' then .ok (c :: pre, r)
  else multStar einval fuel pre r

/-- The loop in common/StringTools.cc:404-502: it stops before the last character. -/
def expandMult (einval : Bool) : Nat → List Char → List Char → Except Err (List Char)
  | 0, _, _ => .error .fuel
  | _ + 1, pre, [] => .ok pre.reverse
  | _ + 1, pre, [c] => .ok (pre.reverse ++ [c])
  | fuel + 1, pre, c :: d :: r =>
    match multStep einval (r.length + 3) pre c (d :: r) with
    | .error e => .error e
    | .ok (pre', rest') => expandMult einval fuel pre' rest'

/-- Delimiters before a prefix, common/StringTools.cc:330-333. -/
def endsPrefix (c : Char) : Bool :=
  c == '(' || c == '[' || c == ',' || c == ';' || c == '*' || c == ' ' || c == '\t'

/-- Delimiters after a suffix, common/StringTools.cc:355-357. -/
def endsSuffix (c : Char) : Bool :=
  c == ')' || c == ']' || c == ',' || c == ';' || c == '*' || c == ' ' || c == '\t'

/-- The decimal representation. -/
def decimal (n : Nat) : List Char := Nat.toDigits 10 n

/-- A number with at least `w` digits, common/StringTools.cc:377 (`setfill` and `setw`). -/
def padded (w n : Nat) : List Char := List.replicate (w - (decimal n).length) '0' ++ decimal n

/-- The numbers of a range in the order written, common/StringTools.cc:374-388. -/
def rangeNums (a b : Nat) : List Nat :=
  if a < b then (List.range (b + 1 - a)).map (a + ·) else (List.range (a + 1 - b)).map (a - ·)

/-- Removal of braces, common/StringTools.cc:363-370. -/
def dropBraces (pre suf : List Char) : List Char × List Char :=
  if pre.getLast? = some '{' ∧ suf.head? = some '}' then (pre.dropLast, suf.tail) else (pre, suf)

/-- The part after a `..` with a number before it, common/StringTools.cc:340-396: `p3` is the part
before the prefix (reversed), `back` the part of the string before the `..` (reversed). When no number
follows, scanning goes on one position further (394-398). When the last number is the largest `int`,
the loop of 375-380 overflows. -/
def rangeRest (einval : Bool) (back p3 pfx : List Char) (lennum : Nat) (num : Int) (r : List Char) :
    Except Err (List Char × List Char) :=
  let r1 := lskip r
  let r2 := if pfx ≠ [] ∧ pfx.length < r1.length ∧ r1.take pfx.length = pfx
    then r1.drop pfx.length else r1
  match r2 with
  | [] => .ok (r.reverse ++ '.' :: '.' :: back, [])
  | c :: r3 =>
    if isDigit c then
      match strToInt einval (r2.takeWhile isDigit) with
      | .error e => .error e
      | .ok endnum =>
        let r4 := r2.dropWhile isDigit
        let b := dropBraces pfx (r4.takeWhile fun c => !endsSuffix c)
        if num < endnum ∧ endnum = 2147483647 then .error .ub
        else .ok (p3, joinComma ((rangeNums num.toNat endnum.toNat).map fun n =>
          b.1 ++ padded lennum n ++ b.2) ++ r4.dropWhile fun c => !endsSuffix c)
    else .ok (c :: (r.take (r.length - r2.length)).reverse ++ '.' :: '.' :: back, r3)

/-- The treatment of `..`, common/StringTools.cc:313-397. -/
def rangeDots (einval : Bool) (pre r : List Char) : Except Err (List Char × List Char) :=
  let p1 := pre.dropWhile isSpace
  let digits := (p1.takeWhile isDigit).reverse
  let p2 := p1.dropWhile isDigit
  if digits = [] then .ok ('.' :: pre, '.' :: r)
  else
    match strToInt einval digits with
    | .error e => .error e
    | .ok num =>
      rangeRest einval pre (p2.dropWhile fun c => !endsPrefix c)
        (p2.takeWhile fun c => !endsPrefix c).reverse digits.length num r

/-- One iteration of the loop in common/StringTools.cc:302-398 expandRangeString. -/
def rangeStep (einval : Bool) (pre : List Char) (c d : Char) (r : List Char) :
    Except Err (List Char × List Char) :=
  if isQuote c then
    match findQuote c (d :: r) with
    | none => .error .throws
    | some (a, b) => .ok (a.reverse ++ c :: pre, b)
  else if c = '.' ∧ d = '.' then rangeDots einval pre r
  else .ok (c :: pre, d :: r)

/-- The loop in common/StringTools.cc:306-397: it stops before the last character. -/
def expandRange (einval : Bool) : Nat → List Char → List Char → Except Err (List Char)
  | 0, _, _ => .error .fuel
  | _ + 1, pre, [] => .ok pre.reverse
  | _ + 1, pre, [c] => .ok (pre.reverse ++ [c])
  | fuel + 1, pre, c :: d :: r =>
    match rangeStep einval pre c d r with
    | .error e => .error e
    | .ok (pre', rest') => expandRange einval fuel pre' rest'

/-- common/StringTools.cc:536-546 expandArrayString. -/
def expandArray (einval : Bool) (fuel : Nat) (s : List Char) : Except Err (List Char) :=
  if (trim s).head? ≠ some '[' ∨ (trim s).getLast? ≠ some ']' then .ok s
  else
    match expandMult einval fuel [] s with
    | .error e => .error e
    | .ok t => expandRange einval fuel [] t

end DP3.StringTools
