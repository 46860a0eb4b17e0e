import Mathlib.Algebra.Field.Defs

/-!
# NullStokes

Model of steps/NullStokes.cc.  Visibilities are in a field; arithmetic is exact.  Reading or writing
past the end of the data is undefined behaviour: `none`.
-/

namespace DP3.NullStokes

variable {C : Type} [Field C]

/-- The four correlations of a visibility. -/
structure Vis (C : Type) where
  xx : C
  xy : C
  yx : C
  yy : C
deriving DecidableEq, Repr

/-- `MakeStokesIZero`: NullStokes.cc:21-26. -/
def makeIZero (v : Vis C) : Vis C :=
  let xx := (v.xx - v.yy) * (1 / 2)
  { v with xx := xx, yy := -xx }

/-- `MakeStokesQZero`: NullStokes.cc:28-33. -/
def makeQZero (v : Vis C) : Vis C :=
  let xx := (v.xx + v.yy) * (1 / 2)
  { v with xx := xx, yy := xx }

/-- `MakeStokesUZero`: NullStokes.cc:35-40. -/
def makeUZero (v : Vis C) : Vis C :=
  let xy := (v.xy - v.yx) * (1 / 2)
  { v with xy := xy, yx := -xy }

/-- `MakeStokesVZero`: NullStokes.cc:42-47. -/
def makeVZero (v : Vis C) : Vis C :=
  let xy := (v.xy + v.yx) * (1 / 2)
  { v with xy := xy, yx := xy }

/-- `modify_i_` to `modify_v_`: NullStokes.cc:52-55. -/
structure Modify where
  i : Bool
  q : Bool
  u : Bool
  v : Bool

/-- The loop body: NullStokes.cc:81-92. -/
def modifyVis (m : Modify) (v : Vis C) : Vis C :=
  let v := if m.i then makeIZero v else v
  let v := if m.q then makeQZero v else v
  let v := if m.u then makeUZero v else v
  if m.v then makeVZero v else v

/-- The loop over the data, four values at a time, whatever the number of correlations is. If the
number of values is not a multiple of four, the last iteration uses values past the end:
NullStokes.cc:80-93. -/
def process (m : Modify) : List C → Option (List C)
  | [] => some []
  | a :: b :: c :: d :: rest =>
    let v := modifyVis m ⟨a, b, c, d⟩
    (process m rest).map fun r => v.xx :: v.xy :: v.yx :: v.yy :: r
  | _ => none

end DP3.NullStokes
