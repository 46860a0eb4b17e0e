import Verif.ParmGrid.Model

/-!
# Values of parameters

Model of `parmdb/Parm.cc`, `parmdb/ParmValue.cc` and `parmdb/AxisMapping.cc`: the mapping of the cells of a grid
onto those of another one, the evaluation of polynomials and of arrays of scalars, the rescaling of polynomials,
the extension of values to a solve grid and the access to coefficients. Doubles are elements of an ordered field,
`casacore::near` is the parameter `near`. Assertions are not modelled (a release build has none); what happens
behind a failing assertion is modelled instead. Caching of axis mappings, row ids, the dirty flag and locks are
not modelled.
-/

namespace DP3.ParmEval

open DP3.StringTools DP3.ParmGrid

variable {K : Type} [Field K] [LinearOrder K]

/-! ## Mapping of axes -/

/-- parmdb/Axis.cc:31 and 73 the center of a cell. -/
def center (c : K × K) : K := (c.1 + c.2) / 2

/-- parmdb/AxisMapping.h:56-58: for every cell of the first axis the cell of the second one with the scaled center;
and the borders. -/
structure AxisMap (K : Type) where
  cells : List (Nat × K)
  borders : List Nat
  deriving DecidableEq

/-- parmdb/AxisMapping.cc:19-28: the loop, from the i-th cell on, with the index of the previous cell. -/
def mapLoop (near : K → K → Bool) (dst : Cells K) : Nat → Nat → Cells K → Except Err (List (Nat × K) × List Nat)
  | _, _, [] => .ok ([], [])
  | i, inx, f :: fs =>
    let inxn := (find near dst (center f) true inx).1
    let inxn := if dst.length - 1 < inxn then dst.length - 1 else inxn
    match dst[inxn]? with
    | none => .error .ub
    | some t =>
      match mapLoop near dst (i + 1) inxn fs with
      | .error e => .error e
      | .ok r =>
        .ok ((inxn, (center f - t.1) / (t.2 - t.1)) :: r.1, if inxn ≠ inx ∧ 0 < i then i :: r.2 else r.2)

/-- parmdb/AxisMapping.cc:12-30 the mapping of an axis onto another one. -/
def axisMapping (near : K → K → Bool) (src dst : Cells K) : Except Err (AxisMap K) :=
  match mapLoop near dst 0 0 src with
  | .error e => .error e
  | .ok r => .ok ⟨r.1, r.2 ++ [src.length]⟩

/-! ## Polynomials -/

/-- The values of a ParmValue, parmdb/ParmValue.h:137: a matrix with its shape. -/
structure Mat (K : Type) where
  nx : Nat
  ny : Nat
  at_ : Nat → Nat → K

/-- An element in the order of the storage: `data()[i]`, first axis fastest. -/
def Mat.flat (m : Mat K) (i : Nat) : K := m.at_ (i % m.nx) (i / m.nx)

/-- parmdb/Parm.cc:304-307: the loop over the powers of x, from `i` down to one. -/
def hornerLoop (c : Nat → K) (x : K) : Nat → K → K
  | 0, s => s
  | i + 1, s => hornerLoop c x i ((s + c (i + 1)) * x)

/-- parmdb/Parm.cc:303-308: a row of coefficients. -/
def evalRow (c : Nat → K) (x : K) (nx : Nat) : K := hornerLoop c x (nx - 1) 0 + c 0

/-- parmdb/Parm.cc:300-312: the sum over the rows; `coeff` moves on with the number of coefficients in x. -/
def evalLoop (c : Nat → Nat → K) (nx : Nat) (x y : K) : Nat → Nat → K → K → K
  | 0, _, _, val => val
  | n + 1, j, yp, val => evalLoop c nx x y n (j + 1) (yp * y) (val + yp * evalRow (fun i => c i j) x nx)

/-- parmdb/Parm.cc:296-312: a polynomial at a scaled center. -/
def evalPoly (m : Mat K) (x y : K) : K := evalLoop m.at_ m.nx x y m.ny 0 1 0

/-- parmdb/ParmValue.cc:145-155 fillPascal: `pascal(j, i)`. -/
def pascal : Nat → Nat → Nat
  | 0, _ => 1
  | _ + 1, 0 => 0
  | j + 1, i + 1 => pascal j i + pascal (j + 1) i

/-- Addition to an element, parmdb/ParmValue.cc:126. -/
def addAt (s : Nat → Nat → K) (jx jy : Nat) (v : K) : Nat → Nat → K :=
  fun p q => if p = jx ∧ q = jy then s p q + v else s p q

/-- parmdb/ParmValue.cc:125-128: the loop over jx, down to zero. -/
def scaleX (offx : K) (ix jy : Nat) : Nat → K → (Nat → Nat → K) → Nat → Nat → K
  | 0, offpx, s => addAt s 0 jy (pascal 0 ix * offpx)
  | jx + 1, offpx, s => scaleX offx ix jy jx (offpx * offx) (addAt s (jx + 1) jy (pascal (jx + 1) ix * offpx))

/-- parmdb/ParmValue.cc:123-130: the loop over jy, down to zero. -/
def scaleY (offx offy : K) (ix iy : Nat) : Nat → K → (Nat → Nat → K) → Nat → Nat → K
  | 0, offpy, s => scaleX offx ix 0 ix (pascal 0 iy * offpy) s
  | jy + 1, offpy, s =>
    scaleY offx offy ix iy jy (offpy * offy) (scaleX offx ix (jy + 1) ix (pascal (jy + 1) iy * offpy) s)

/-- parmdb/ParmValue.cc:121-131: the loop over ix. -/
def scaleRow (c : Nat → Nat → K) (offx offy : K) (nx iy : Nat) (s : Nat → Nat → K) : Nat → Nat → K :=
  (List.range nx).foldl (fun s ix => scaleY offx offy ix iy iy (c ix iy) s) s

/-- parmdb/ParmValue.cc:119-132: the loop over iy, with a zero matrix at the start. -/
def scaleAll (c : Nat → Nat → K) (offx offy : K) (nx ny : Nat) : Nat → Nat → K :=
  (List.range ny).foldl (fun s iy => scaleRow c offx offy nx iy s) (fun _ _ => 0)

/-- parmdb/ParmValue.cc:133-141: the powers of the scale factors. The loops multiply every element once by the
value that has been accumulated. -/
def scaleFactor (scalex scaley : K) (ix iy : Nat) : K :=
  (List.range ix).foldl (fun s _ => s * scalex) ((List.range iy).foldl (fun s _ => s * scaley) 1)

/-- parmdb/ParmValue.cc:107-143 scale2. The triangle has ten rows and columns, a larger one is read behind its
end. -/
def scale2 (m : Mat K) (offx offy scalex scaley : K) : Except Err (Mat K) :=
  if 10 < m.nx ∨ 10 < m.ny then .error .ub
  else .ok ⟨m.nx, m.ny, fun p q => scaleAll m.at_ offx offy m.nx m.ny p q * scaleFactor scalex scaley p q⟩

/-- parmdb/ParmValue.cc:72-95 rescale, to the domain from (sx, sy) till (ex, ey). -/
def rescale (near : K → K → Bool) (m : Mat K) (sx ex sy ey : K) (old : Box K) : Except Err (Mat K) :=
  if empty near old = true ∨ m.nx * m.ny = 1 ∨ (m.nx = 1 ∧ sy = old.lowerY ∧ ey = old.upperY) ∨
      (m.ny = 1 ∧ sx = old.lowerX ∧ ex = old.upperX) then .ok m
  else
    let s1x := old.upperX - old.lowerX
    let s1y := old.upperY - old.lowerY
    scale2 m ((sx - old.lowerX) / s1x) ((sy - old.lowerY) / s1y) ((ex - sx) / s1x) ((ey - sy) / s1y)

/-! ## Sets of values -/

/-- A ParmValue, parmdb/ParmValue.h:136-138: its grid, which matters for scalars only, the values and the
errors. -/
structure PVal (K : Type) where
  grid : Grid K
  values : Mat K
  errors : Option (Mat K)

/-- A ParmValueSet, parmdb/ParmValue.h:246-253. -/
structure PSet (K : Type) where
  scalar : Bool
  perturbation : K
  pertRel : Bool
  mask : Option (Nat → Nat → Bool)
  grid : Grid K
  values : List (PVal K)
  dflt : PVal K
  scaleDomain : Box K

/-- parmdb/Grid.cc:13-15 the default grid: a cell that covers everything. -/
def defaultGrid : Grid K := ⟨defaultAxis, defaultAxis⟩

/-- parmdb/ParmValue.cc:215-217 getFirstParmValue. -/
def firstValue (s : PSet K) : PVal K := s.values.headD s.dflt

/-- parmdb/Parm.cc:290-296: the polynomial of a cell, the default one when there is none. -/
def cellValues (s : PSet K) (i : Nat) : Mat K :=
  match s.values[i]? with
  | some v => v.values
  | none => s.dflt.values

/-- parmdb/Parm.cc:281-316: the result of a polynomial for a cell of the predict grid. -/
def resultCoeff (near : K → K → Bool) (s : PSet K) (predict : Grid K) (ix iy : Nat) : Except Err K :=
  match axisMapping near predict.x.cells s.grid.x.cells, axisMapping near predict.y.cells s.grid.y.cells with
  | .ok mx, .ok my =>
    match mx.cells[ix]?, my.cells[iy]? with
    | some a, some b =>
      let carr := cellValues s (a.1 + b.1 * s.grid.x.cells.length)
      if carr.nx = 0 then .error .ub else .ok (evalPoly carr a.2 b.2)
    | _, _ => .error .ub
  | .error e, _ => .error e
  | _, .error e => .error e

/-- parmdb/Parm.cc:84-101 copyValues. -/
def copyValues (m : Mat K) (mask : Option (Nat → Nat → Bool)) (useMask : Bool) : List K :=
  match useMask, mask with
  | true, some k => ((List.range (m.nx * m.ny)).filter fun i => k (i % m.nx) (i / m.nx)).map m.flat
  | _, _ => (List.range (m.nx * m.ny)).map m.flat

/-- parmdb/Parm.cc:189-196: the perturbation for a value. The bound is 1e-10. -/
def perturbOf (s : PSet K) (v : K) : K :=
  if s.pertRel = true ∧ 1 / 10 ^ 10 < |v| then v * s.perturbation else s.perturbation

/-- parmdb/Parm.cc:178-197 calcPerturbations. -/
def calcPerturbations (s : PSet K) : List K :=
  (if s.scalar then [(firstValue s).values.flat 0] else copyValues (firstValue s).values s.mask true).map
    (perturbOf s)

/-- parmdb/Parm.cc:319-321 and 345: the coefficients to add. Only one of them is not zero. -/
def pertCoeff (perts : List K) (ip i : Nat) : K := if i = ip then perts.getD ip 0 else 0

/-- parmdb/Parm.cc:317-369: the result with the `ip`-th perturbation. Both arrays are read with the same index;
the array of perturbations is read behind its end when it is shorter. -/
def resultPerturbed (near : K → K → Bool) (s : PSet K) (perts : List K) (predict : Grid K) (ip ix iy : Nat) :
    Except Err K :=
  match axisMapping near predict.x.cells s.grid.x.cells, axisMapping near predict.y.cells s.grid.y.cells with
  | .ok mx, .ok my =>
    match mx.cells[ix]?, my.cells[iy]? with
    | some a, some b =>
      let carr := cellValues s (a.1 + b.1 * s.grid.x.cells.length)
      if carr.nx = 0 ∨ perts.length < carr.nx * carr.ny then .error .ub
      else .ok (evalLoop (fun i j => carr.at_ i j + pertCoeff perts ip (i + j * carr.nx)) carr.nx a.2 b.2 carr.ny
        0 1 0)
    | _, _ => .error .ub
  | .error e, _ => .error e
  | _, .error e => .error e

/-! ## Scalars -/

/-- parmdb/Parm.cc:372-398 getResultScalar for one ParmValue: the result for a cell of the predict grid. -/
def resultSingle (near : K → K → Bool) (v : PVal K) (predict : Grid K) (ix iy : Nat) : Except Err K :=
  match axisMapping near predict.x.cells v.grid.x.cells, axisMapping near predict.y.cells v.grid.y.cells with
  | .ok mx, .ok my =>
    match mx.cells[ix]?, my.cells[iy]? with
    | some a, some b => .ok (v.values.at_ a.1 b.1)
    | _, _ => .error .ub
  | .error e, _ => .error e
  | _, .error e => .error e

/-- A loop that locates values with the index found before as the hint, parmdb/Parm.cc:466 and 469. It gives the
indices and the last hint. -/
def locateLoop (near : K → K → Bool) (cells : Cells K) : List K → Nat → Except Err (List Nat × Nat)
  | [], h => .ok ([], h)
  | x :: xs, h =>
    match locate near cells x true h with
    | .error e => .error e
    | .ok i =>
      match locateLoop near cells xs i with
      | .error e => .error e
      | .ok r => .ok (i :: r.1, r.2)

/-- parmdb/Parm.cc:463-472: the rows of a part of the result, with the hints for both axes. Written elements are
given by their index. -/
def fillRows (near : K → K → Bool) (v : PVal K) (stx : Nat) (xs : List K) :
    Nat → Nat → Nat → List K → Except Err (List (Nat × Nat × K))
  | _, _, _, [] => .ok []
  | iy, hy, hx, y :: ys =>
    match locate near v.grid.y.cells y true hy with
    | .error e => .error e
    | .ok j =>
      match locateLoop near v.grid.x.cells xs hx with
      | .error e => .error e
      | .ok r =>
        match fillRows near v stx xs (iy + 1) j r.2 ys with
        | .error e => .error e
        | .ok w => .ok (r.1.mapIdx (fun k i => (stx + k, iy, v.values.at_ i j)) ++ w)

/-- The centers of the cells `st` up to `en`. -/
def centers (cells : Cells K) (st en : Nat) : List K := ((cells.take en).drop st).map center

/-- parmdb/Parm.cc:450-473 fillArrayPV. -/
def fillArrayPV (near : K → K → Bool) (v : PVal K) (predict : Grid K) (stx sty endx endy : Nat) :
    Except Err (List (Nat × Nat × K)) :=
  fillRows near v stx (centers predict.x.cells stx endx) sty 0 0 (centers predict.y.cells sty endy)

/-- The start and the end of the parts that map to one cell: parmdb/Parm.cc:428-443, `stx` and `bordersx`. -/
def parts : Nat → List Nat → List (Nat × Nat)
  | _, [] => []
  | st, b :: bs => (st, b) :: parts b bs

/-- All elements that are written for a part, or the first error, parmdb/Parm.cc:432-441. -/
def collect {α β : Type} (f : α → Except Err (List β)) : List α → Except Err (List β)
  | [] => .ok []
  | a :: as =>
    match f a with
    | .error e => .error e
    | .ok w =>
      match collect f as with
      | .error e => .error e
      | .ok r => .ok (w ++ r)

/-- parmdb/Parm.cc:400-448 getResultScalar for more ParmValues: the elements written, in order. -/
def resultMulti (near : K → K → Bool) (s : PSet K) (predict : Grid K) : Except Err (List (Nat × Nat × K)) :=
  match axisMapping near predict.x.cells s.grid.x.cells, axisMapping near predict.y.cells s.grid.y.cells with
  | .ok mx, .ok my =>
    collect (fun py : Nat × Nat =>
      collect (fun px : Nat × Nat =>
        match mx.cells[px.1]?, my.cells[py.1]? with
        | some a, some b =>
          match s.values[a.1 + s.grid.x.cells.length * b.1]? with
          | some v => fillArrayPV near v predict px.1 py.1 px.2 py.2
          | none => .error .ub
        | _, _ => .error .ub) (parts 0 mx.borders)) (parts 0 my.borders)
  | .error e, _ => .error e
  | _, .error e => .error e

/-! ## The solve grid -/

/-- `getBoundingBox` of a grid, parmdb/Grid.h:166-169. -/
def boundingBox (g : Grid K) : Except Err (Box K) :=
  match g.x.cells.head?, g.x.cells.getLast?, g.y.cells.head?, g.y.cells.getLast? with
  | some a, some b, some c, some d => .ok ⟨a.1, c.1, b.2, d.2⟩
  | _, _, _, _ => .error .ub

/-- A grid of one cell. -/
def boxGrid (b : Box K) : Grid K :=
  ⟨regularAxis b.lowerX (b.upperX - b.lowerX) 1, regularAxis b.lowerY (b.upperY - b.lowerY) 1⟩

/-- The values of parmdb/ParmValue.cc:245-255, in the order of the cells. -/
def createCoeff (near : K → K → Bool) (d : PVal K) (scaleDomain : Box K) (xs ys : Cells K) :
    Except Err (List (PVal K)) :=
  collect (fun y => collect (fun x =>
    if empty near scaleDomain then .ok [d]
    else
      match rescale near d.values x.1 x.2 y.1 y.2 scaleDomain with
      | .error e => .error e
      | .ok m => .ok [{ d with values := m }]) xs) ys

/-- parmdb/ParmValue.cc:235-266 createValues. -/
def createValues (near : K → K → Bool) (s : PSet K) (solve : Grid K) : Except Err (PSet K) :=
  if s.scalar then
    match boundingBox solve with
    | .error e => .error e
    | .ok b =>
      .ok { s with values := [⟨solve, ⟨solve.x.cells.length, solve.y.cells.length, fun _ _ => s.dflt.values.flat 0⟩,
                                none⟩], grid := boxGrid b }
  else
    match createCoeff near s.dflt s.scaleDomain solve.x.cells solve.y.cells with
    | .error e => .error e
    | .ok vs => .ok { s with values := vs, grid := solve }

/-- A loop `for (i = lo; i < hi; ++i) v(i) = v(k)` over an index; elements that have not been written are
`none`. -/
def copyLoop {α : Type} (k : Nat) : Nat → Nat → (Nat → α) → Nat → α
  | _, 0, v => v
  | lo, n + 1, v => copyLoop k (lo + 1) n fun i => if i = lo then v k else v i

/-- parmdb/ParmValue.cc:309-327 and 361-384: the old values at their place, and the values before and after them
in x, for the rows of the old values. -/
def extendX {α : Type} (old : Nat → Nat → α) (cx : Combined K) (iy1 : Nat) : Nat → Option α :=
  copyLoop (cx.e1 - 1) cx.e1 (cx.e2 - cx.e1) (copyLoop cx.s1 cx.s2 (cx.s1 - cx.s2)
    fun ix => if cx.s1 ≤ ix ∧ ix < cx.e1 then some (old (ix - cx.s1) iy1) else none)

/-- parmdb/ParmValue.cc:308-339 and 360-395: the extended values by row; a row is a function of the index in x. -/
def extend {α : Type} (old : Nat → Nat → α) (cx cy : Combined K) : Nat → Nat → Option α :=
  copyLoop (cy.e1 - 1) cy.e1 (cy.e2 - cy.e1) (copyLoop cy.s1 cy.s2 (cy.s1 - cy.s2)
    fun iy => if cy.s1 ≤ iy ∧ iy < cy.e1 then extendX old cx (iy - cy.s1) else fun _ => none)

/-- parmdb/ParmValue.cc:300-342 addValues for scalars. The errors are left as they are (parmdb/ParmValue.cc:340 and
54-60). A value that has not been written would be arbitrary; it is zero here. -/
def addScalars (near : K → K → Bool) (s : PSet K) (solve : Grid K) : Except Err (PSet K) :=
  match s.values with
  | [] => .error .ub
  | v :: rest =>
    match combine near v.grid.x solve.x, combine near v.grid.y solve.y with
    | .ok cx, .ok cy =>
      let g : Grid K := ⟨cx.axis, cy.axis⟩
      match boundingBox g with
      | .error e => .error e
      | .ok b =>
        .ok { s with
          values := { v with grid := g, values := ⟨cx.axis.cells.length, cy.axis.cells.length,
                      fun ix iy => (extend v.values.at_ cx cy iy ix).getD 0⟩ } :: rest
          grid := boxGrid b }
    | .error e, _ => .error e
    | _, .error e => .error e

/-- parmdb/ParmValue.cc:345-405 addCoeffValues: the ParmValues in the order of the cells. A cell without a ParmValue
would be a null pointer; it has the default value here. -/
def addCoeff (near : K → K → Bool) (s : PSet K) (solve : Grid K) : Except Err (PSet K) :=
  match combine near s.grid.x solve.x, combine near s.grid.y solve.y with
  | .ok cx, .ok cy =>
    let nx := cx.axis.cells.length
    let old := fun ix iy => s.values.getD (ix + iy * (cx.e1 - cx.s1)) s.dflt
    .ok { s with
      values := (List.range (nx * cy.axis.cells.length)).map fun i =>
        (extend old cx cy (i / nx) (i % nx)).getD s.dflt
      grid := ⟨cx.axis, cy.axis⟩ }
  | .error e, _ => .error e
  | _, .error e => .error e

/-- parmdb/ParmValue.cc:219-233 setSolveGrid. A set without values is the one with the default grid. `checkGrid`
(parmdb/ParmValue.cc:268-287) only has assertions. -/
def setSolveGrid (near : K → K → Bool) (s : PSet K) (solve : Grid K) : Except Err (PSet K) :=
  if s.values.isEmpty then createValues near s solve
  else
    match boundingBox s.grid, boundingBox solve with
    | .ok b, .ok c =>
      if contains near b c then .ok s
      else if s.scalar then addScalars near s solve
      else addCoeff near s solve
    | .error e, _ => .error e
    | _, .error e => .error e

/-! ## Coefficients -/

/-- parmdb/AxisMapping.cc:43-61 findCellId. -/
def findCell (near : K → K → Bool) (loc : Nat × Nat) (src dst : Grid K) : Except Err Nat :=
  match axisMapping near src.x.cells dst.x.cells, axisMapping near src.y.cells dst.y.cells with
  | .ok mx, .ok my =>
    match mx.cells[loc.1]?, my.cells[loc.2]? with
    | some a, some b => .ok (cellId dst.x.cells.length (a.1, b.1))
    | _, _ => .error .ub
  | .error e, _ => .error e
  | _, .error e => .error e

/-- parmdb/Parm.cc:48-63 getCoeff. -/
def getCoeff (near : K → K → Bool) (s : PSet K) (solve : Grid K) (loc : Nat × Nat) (useMask : Bool) :
    Except Err (List K) :=
  match findCell near loc solve s.grid with
  | .error e => .error e
  | .ok id =>
    match s.values[id]? with
    | none => .error .ub
    | some v =>
      if s.scalar then
        match findCell near loc solve v.grid with
        | .error e => .error e
        | .ok c => if c < v.values.nx * v.values.ny then .ok [v.values.flat c] else .error .ub
      else .ok (copyValues v.values s.mask useMask)

/-- The elements of the storage replaced, by their index. -/
def Mat.setFlat (m : Mat K) (f : Nat → Option K) : Mat K :=
  { m with at_ := fun i j => (f (i + j * m.nx)).getD (m.at_ i j) }

/-- The index in the new values for the i-th coefficient: the number of true mask values before it,
parmdb/Parm.cc:140-149. -/
def rank (k : Nat → Bool) (i : Nat) : Nat := ((List.range i).filter k).length

/-- parmdb/Parm.cc:122-151: the coefficients replaced, all or those in the mask. With fewer values than are needed
the new values are read behind their end. -/
def replaceCoeff (m : Mat K) (mask : Option (Nat → Nat → Bool)) (useMask : Bool) (new : List K) :
    Except Err (Mat K) :=
  match useMask, mask with
  | true, some k =>
    let k1 := fun i => k (i % m.nx) (i / m.nx)
    if new.length < rank k1 (m.nx * m.ny) then .error .ub
    else .ok (m.setFlat fun i => if i < m.nx * m.ny ∧ k1 i = true then new[rank k1 i]? else none)
  | _, _ =>
    if m.nx * m.ny < new.length then .error .ub
    else .ok (m.setFlat fun i => new[i]?)

/-- The errors before they are set: zero when there are none, parmdb/Parm.cc:115-119. -/
def errorsOf (v : PVal K) : Mat K := v.errors.getD { v.values with at_ := fun _ _ => 0 }

/-- parmdb/Parm.cc:128-130 and 144-146 the errors of coefficients, with the shape of the errors. -/
def newErrors (v : PVal K) (mask : Option (Nat → Nat → Bool)) (useMask : Bool) (errs : Option (List K)) :
    Except Err (Option (Mat K)) :=
  match errs with
  | none => .ok v.errors
  | some e => (replaceCoeff (errorsOf v) mask useMask e).map some

/-- parmdb/Parm.cc:157-160: a scalar and its error; the errors can have fewer elements than the values. -/
def setScalar (v : PVal K) (c : Nat) (new : K) (err : Option K) : Except Err (PVal K) :=
  if v.values.nx * v.values.ny ≤ c then .error .ub
  else
    match err with
    | none => .ok { v with values := v.values.setFlat fun i => if i = c then some new else none }
    | some e =>
      if (errorsOf v).nx * (errorsOf v).ny ≤ c then .error .ub
      else .ok { v with
        values := v.values.setFlat fun i => if i = c then some new else none
        errors := some ((errorsOf v).setFlat fun i => if i = c then some e else none) }

/-- A ParmValue in a set replaced. -/
def PSet.put (s : PSet K) (id : Nat) (v : PVal K) : PSet K := { s with values := s.values.set id v }

/-- parmdb/Parm.cc:103-168 setCoeff: the new values, and the perturbations, which are calculated anew only if the
first cell has changed. -/
def setCoeff (near : K → K → Bool) (s : PSet K) (perts : List K) (solve : Grid K) (loc : Nat × Nat)
    (new : List K) (errs : Option (List K)) (useMask : Bool) : Except Err (PSet K × List K) :=
  match findCell near loc solve s.grid with
  | .error e => .error e
  | .ok id =>
    match s.values[id]? with
    | none => .error .ub
    | some v =>
      if s.scalar then
        match findCell near loc solve v.grid with
        | .error e => .error e
        | .ok c =>
          match new.head? with
          | none => .error .ub
          | some x =>
            match setScalar v c x (errs.bind List.head?) with
            | .error e => .error e
            | .ok w => .ok (s.put id w, if c = 0 then calcPerturbations (s.put id w) else perts)
      else
        match replaceCoeff v.values s.mask useMask new, newErrors v s.mask useMask errs with
        | .ok m, .ok e =>
          let w : PVal K := { v with values := m, errors := e }
          .ok (s.put id w, if id = 0 then calcPerturbations (s.put id w) else perts)
        | .error e, _ => .error e
        | _, .error e => .error e

end DP3.ParmEval
