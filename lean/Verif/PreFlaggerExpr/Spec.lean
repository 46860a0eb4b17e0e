import Verif.PreFlaggerExpr.Model

/-!
Specification of the set expressions: a grammar in which NOT binds stronger than AND,
and AND stronger than OR, and the truth value of a formula.
-/

namespace DP3.PreFlaggerExpr

/-- Boolean formulas over set names. -/
inductive Formula
  | leaf (s : String)
  | not (f : Formula)
  | and (f g : Formula)
  | or (f g : Formula)

/-- Truth value. -/
def Formula.eval (env : String → Bool) : Formula → Bool
  | .leaf s => env s
  | .not f => !f.eval env
  | .and f g => f.eval env && g.eval env
  | .or f g => f.eval env || g.eval env

/-- Levels of the grammar. -/
inductive Level
  | or
  | and
  | not

/-- `Parses l ts f`: at level `l`, the tokens denote the formula. -/
inductive Parses : Level → List Tok → Formula → Prop
  | name (s : String) : Parses .not [.name s] (.leaf s)
  | paren {ts f} : Parses .or ts f → Parses .not (.open :: ts ++ [.close]) f
  | not {ts f} : Parses .not ts f → Parses .not (.not :: ts) (.not f)
  | and1 {ts f} : Parses .not ts f → Parses .and ts f
  | and2 {ts us f g} : Parses .not ts f → Parses .and us g →
      Parses .and (ts ++ .and :: us) (.and f g)
  | or1 {ts f} : Parses .and ts f → Parses .or ts f
  | or2 {ts us f g} : Parses .and ts f → Parses .or us g →
      Parses .or (ts ++ .or :: us) (.or f g)

/-- The ways to write a token, except for a set name. -/
inductive Spelled : Tok → List Char → Prop
  | open : Spelled .open ['(']
  | close : Spelled .close [')']
  | bar : Spelled .or ['|']
  | bar2 : Spelled .or ['|', '|']
  | comma : Spelled .or [',']
  | orWord {w} : w.map Char.toUpper = ['O', 'R'] → Spelled .or w
  | amp : Spelled .and ['&']
  | amp2 : Spelled .and ['&', '&']
  | andWord {w} : w.map Char.toUpper = ['A', 'N', 'D'] → Spelled .and w
  | bang : Spelled .not ['!']
  | notWord {w} : w.map Char.toUpper = ['N', 'O', 'T'] → Spelled .not w
  | name {w} : isIdentifier w = true → w.map Char.toUpper ≠ ['O', 'R'] →
      w.map Char.toUpper ≠ ['A', 'N', 'D'] → w.map Char.toUpper ≠ ['N', 'O', 'T'] →
      Spelled (.name (String.ofList w)) w

/-- An expression in which every token is followed by a blank. -/
inductive Written : List Tok → List Char → Prop
  | nil : Written [] []
  | cons {t ts w b cs} : Spelled t w → isBlank b = true → Written ts cs →
      Written (t :: ts) (w ++ b :: cs)

end DP3.PreFlaggerExpr
