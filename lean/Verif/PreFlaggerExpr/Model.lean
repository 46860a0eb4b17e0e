/-!
Model of the set expressions of the PreFlagger: `PSet::exprToRpn` and the evaluation
of the result in `PSet::process` (`steps/PreFlagger.cc`).

In the code scanning and parsing are one loop; here `lex` turns characters into tokens
and `parse` handles the tokens.  Both fail (an exception) when the code throws; which
message is given is not modelled.  Characters are ASCII.
-/

namespace DP3.PreFlaggerExpr

/-- Tokens of an expression. -/
inductive Tok
  | name (s : String)
  | or
  | and
  | not
  | open
  | close
  deriving DecidableEq, Repr

/-- `Oper`, steps/PreFlagger.h:105. -/
inductive Oper
  | paren
  | or
  | and
  | not
  deriving DecidableEq, Repr

/-- The values of the enumeration, steps/PreFlagger.h:105. -/
def Oper.code : Oper → Int
  | .paren => -1
  | .or => -2
  | .and => -3
  | .not => -4

/-- An element of `itsRpn`: the index of a set (≥ 0) or an operator (< 0). -/
inductive Item
  | set (i : Nat)
  | op (o : Oper)
  deriving DecidableEq, Repr

/-- Parser state: `tokens` (top first), `itsRpn`, `names`, `hadName`,
steps/PreFlagger.cc:826-829. -/
structure State where
  stack : List Oper
  rpn : List Item
  names : List String
  hadName : Bool
  deriving DecidableEq, Repr

/-- The loop at steps/PreFlagger.cc:937-940 and the push at 941: move operators of
higher precedence to the output. -/
def pushOper (o : Oper) : List Oper → List Item → List Oper × List Item
  | [], rpn => ([o], rpn)
  | t :: stack, rpn =>
    if t.code < o.code then pushOper o stack (rpn ++ [.op t]) else (o :: t :: stack, rpn)

/-- The loop at steps/PreFlagger.cc:888-899. -/
def popParen : List Oper → List Item → Option (List Oper × List Item)
  | [], _ => none
  | .paren :: stack, rpn => some (stack, rpn)
  | t :: stack, rpn => popParen stack (rpn ++ [.op t])

/-- One token, steps/PreFlagger.cc:836-942. -/
def step (st : State) : Tok → Option State
  | .open => if st.hadName then none else some { st with stack := .paren :: st.stack }
  | .close =>
    if !st.hadName then none
    else (popParen st.stack st.rpn).map fun r => { st with stack := r.1, rpn := r.2 }
  | .name s =>
    if st.hadName then none
    else some { st with
      rpn := st.rpn ++ [.set st.names.length], names := st.names ++ [s], hadName := true }
  | .not =>
    if st.hadName then none
    else
      let r := pushOper .not st.stack st.rpn
      some { st with stack := r.1, rpn := r.2, hadName := false }
  | .or =>
    if !st.hadName then none
    else
      let r := pushOper .or st.stack st.rpn
      some { st with stack := r.1, rpn := r.2, hadName := false }
  | .and =>
    if !st.hadName then none
    else
      let r := pushOper .and st.stack st.rpn
      some { st with stack := r.1, rpn := r.2, hadName := false }

/-- The loop over the expression, steps/PreFlagger.cc:830-943. -/
def steps : List Tok → State → Option State
  | [], st => some st
  | t :: ts, st => (step st t).bind (steps ts)

/-- The loop at steps/PreFlagger.cc:947-953. -/
def drain : List Oper → List Item → Option (List Item)
  | [], rpn => some rpn
  | t :: stack, rpn => if t.code ≥ Oper.paren.code then none else drain stack (rpn ++ [.op t])

/-- `exprToRpn` on tokens, steps/PreFlagger.cc:826-954: the RPN list and the names. -/
def parse (ts : List Tok) : Option (List Item × List String) :=
  (steps ts ⟨[], [], [], false⟩).bind fun st =>
    if !st.hadName then none
    else (drain st.stack st.rpn).map fun rpn => (rpn, st.names)

/-- The loop at steps/PreFlagger.cc:535-553 for one visibility, with the results of the
sets given by their name.  `none`: `top` or `pop` of an empty stack, a set index out of
range, or the exception at line 551. -/
def evalRpn (names : List String) (env : String → Bool) : List Item → List Bool → Option (List Bool)
  | [], stk => some stk
  | .set i :: items, stk =>
    match names[i]? with
    | none => none
    | some n => evalRpn names env items (env n :: stk)
  | .op .not :: items, x :: stk => evalRpn names env items ((!x) :: stk)
  | .op .or :: items, r :: l :: stk => evalRpn names env items ((l || r) :: stk)
  | .op .and :: items, r :: l :: stk => evalRpn names env items ((l && r) :: stk)
  | .op _ :: _, _ => none

/-- The value of an expression for one visibility, steps/PreFlagger.cc:534-560; `none`:
undefined behaviour, or the exception when there is not exactly one result. -/
def evaluate (r : List Item × List String) (env : String → Bool) : Option Bool :=
  match evalRpn r.2 env r.1 [] with
  | some [x] => some x
  | _ => none

/-! ### Scanning -/

/-- `expr[i] == ' ' || expr[i] == '\t'`. -/
def isBlank (c : Char) : Bool := c == ' ' || c == '\t'

/-- The characters that end a set name, steps/PreFlagger.cc:908-910. -/
def endsName (c : Char) : Bool :=
  isBlank c || c == '(' || c == ')' || c == '!' || c == ',' || c == '&' || c == '|'

/-- `casacore::RXidentifier`: a letter or underscore, followed by letters, digits and
underscores. -/
def isIdentifier : List Char → Bool
  | [] => false
  | c :: cs => (c.isAlpha || c == '_') && cs.all fun d => d.isAlphanum || d == '_'

/-- The words "OR" and "AND", followed by a blank, `!` or `(`, or at the end,
steps/PreFlagger.cc:858-873; the argument `bang` is false for "NOT", which is not
recognised before `!`, steps/PreFlagger.cc:874-881. -/
def startsWord (word : List Char) (bang : Bool) (cs : List Char) : Bool :=
  (cs.take word.length).map Char.toUpper == word &&
    match cs.drop word.length with
    | [] => true
    | c :: _ => isBlank c || c == '(' || (bang && c == '!')

/-- Skip a doubled operator character, steps/PreFlagger.cc:847 and 854. -/
def skipOne (ch : Char) (cs : List Char) : List Char :=
  if cs.head? = some ch then cs.tail else cs

/-- The scanner in `exprToRpn`, steps/PreFlagger.cc:830-921.  `fuel` is at least the
number of characters. -/
def lex : Nat → List Char → Option (List Tok)
  | _, [] => some []
  | 0, _ :: _ => none
  | fuel + 1, c :: cs =>
    if isBlank c then lex fuel cs
    else if c == '(' then (lex fuel cs).map (.open :: ·)
    else if c == '|' then
      (lex fuel (skipOne '|' cs)).map (.or :: ·)
    else if c == ',' then (lex fuel cs).map (.or :: ·)
    else if c == '&' then
      (lex fuel (skipOne '&' cs)).map (.and :: ·)
    else if c == '!' then (lex fuel cs).map (.not :: ·)
    else if startsWord ['O', 'R'] true (c :: cs) then (lex fuel (cs.drop 1)).map (.or :: ·)
    else if startsWord ['A', 'N', 'D'] true (c :: cs) then (lex fuel (cs.drop 2)).map (.and :: ·)
    else if startsWord ['N', 'O', 'T'] false (c :: cs) then (lex fuel (cs.drop 2)).map (.not :: ·)
    else if c == ')' then (lex fuel cs).map (.close :: ·)
    else
      let n := (c :: cs).takeWhile fun d => !endsName d
      if isIdentifier n then
        (lex fuel ((c :: cs).dropWhile fun d => !endsName d)).map (.name (String.ofList n) :: ·)
      else none

/-- `exprToRpn`, steps/PreFlagger.cc:820-955. -/
def exprToRpn (expr : String) : Option (List Item × List String) :=
  (lex expr.toList.length expr.toList).bind parse

end DP3.PreFlaggerExpr
