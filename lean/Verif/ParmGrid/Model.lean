import Verif.StringTools.Model
import Mathlib.Algebra.Order.Field.Basic

/-!
# Axes, grids and boxes

Model of `parmdb/Axis.cc`, `parmdb/Grid.cc`, `parmdb/Grid.h` and `parmdb/Box.{h,cc}`. Doubles are elements of an
ordered field. `casacore::near` (equality up to a relative difference of 1e-13) is the parameter `near`.
Ids of axes and the sharing of pointers are not modelled. A failing `assert` is an error.
-/

namespace DP3.ParmGrid

open DP3.StringTools

variable {K : Type} [Field K] [LinearOrder K]

/-- Exact equality, the `near` of exact arithmetic. -/
def exact (a b : K) : Bool := decide (a = b)

/-- Intervals: `itsLower` and `itsUpper` of parmdb/Axis.h:158-159. -/
abbrev Cells (K : Type) := List (K × K)

/-- An axis; for a RegularAxis the members `itsStart`, `itsWidth` and `itsCount` (parmdb/Axis.h:181-183),
nothing for an OrderedAxis. -/
structure Axis (K : Type) where
  reg : Option (K × K × Nat)
  cells : Cells K
  deriving DecidableEq

/-- parmdb/Axis.cc:22-35 setup of a regular axis. -/
def regularCells (start width : K) : Nat → Cells K
  | 0 => []
  | n + 1 => (start, start + width) :: regularCells (start + width) width n

/-- parmdb/Axis.cc:361-368 RegularAxis from a start, a width and a count. -/
def regularAxis (start width : K) (count : Nat) : Axis K :=
  ⟨some (start, width, count), regularCells start width count⟩

/-- parmdb/Axis.cc:357-359 the default RegularAxis: one cell from -1e30 till 1e30. -/
def defaultAxis : Axis K := regularAxis (-10 ^ 30) (2 * 10 ^ 30) 1

/-- parmdb/Axis.cc:68-76 OrderedAxis from starts and ends. -/
def orderedAxis (low upp : List K) : Axis K := ⟨none, low.zip upp⟩

/-- parmdb/Axis.cc:63-66: the cell with a center and a width. -/
def centered (center width : K) : K × K := (center - width / 2, center - width / 2 + width)

/-- parmdb/Axis.cc:58-66 OrderedAxis from centers and widths. -/
def centeredAxis (cs : List (K × K)) : Axis K := ⟨none, cs.map fun c => centered c.1 c.2⟩

/-- The loop of parmdb/Axis.cc:139-172, from the index `i` on. -/
def findFrom (near : K → K → Bool) (x : K) (biasRight : Bool) : Cells K → Nat → Nat × Bool
  | [], i => (i, false)
  | c :: r, i =>
    if near x c.1 then (i, biasRight)
    else if near x c.2 then
      (if !biasRight then (i, true) else findFrom near x biasRight r (i + 1))
    else if x < c.1 then (i, false)
    else if x < c.2 then (i, true)
    else findFrom near x biasRight r (i + 1)

/-- parmdb/Axis.cc:113-174 find. -/
def find (near : K → K → Bool) (cells : Cells K) (x : K) (biasRight : Bool) (start : Nat) : Nat × Bool :=
  match cells[start]? with
  | none => findFrom near x biasRight cells 0
  | some c =>
    if near x c.1 then
      (if biasRight then (start, true) else findFrom near x biasRight cells 0)
    else if x < c.1 then findFrom near x biasRight cells 0
    else findFrom near x biasRight (cells.drop start) start

/-- parmdb/Axis.h:92-96 locate. -/
def locate (near : K → K → Bool) (cells : Cells K) (x : K) (biasRight : Bool) (start : Nat) :
    Except Err Nat :=
  let res := find near cells x biasRight start
  if res.2 then .ok res.1 else .error .throws

/-- parmdb/Axis.cc:399-408 and 440-452 doSubset, a subset from an index up to and including another. -/
def doSubset (ax : Axis K) (start stop : Nat) : Axis K :=
  let stop := if ax.cells.length ≤ stop then ax.cells.length - 1 else stop
  if stop < start then defaultAxis
  else
    match ax.reg with
    | some (st, w, _) => regularAxis (st + start * w) w (stop - start + 1)
    | none =>
      centeredAxis (((ax.cells.take (stop + 1)).drop start).map fun c => ((c.1 + c.2) / 2, c.2 - c.1))

/-- parmdb/Axis.cc:331-350 subset from a value up to another, with the index of the first cell. -/
def subset (near : K → K → Bool) (ax : Axis K) (start stop : K) : Except Err (Axis K × Nat) :=
  match ax.cells.head?, ax.cells.getLast? with
  | some a, some b =>
    let sinx := if a.1 < start then (find near ax.cells start true 0).1 else 0
    let res := find near ax.cells stop false 0
    let einx := if stop < b.2 then res.1 else ax.cells.length - 1
    let sinx := if stop < b.2 ∧ res.1 = 0 ∧ res.2 = false then 1 else sinx
    .ok (doSubset ax sinx einx, sinx)
  | _, _ => .error .ub

/-- parmdb/Axis.cc:94-111 checkIntervals: the intervals of two axes, one by one. -/
def sameIntervals (near : K → K → Bool) (a b : Cells K) : Bool :=
  a.length == b.length && (a.zip b).all fun p => near p.1.1 p.2.1 && near p.1.2 p.2.2

/-- parmdb/Axis.cc:94-111 checkIntervals. -/
def checkIntervals (near : K → K → Bool) (a b : Axis K) : Except Err Bool :=
  match a.cells.head?, a.cells.getLast?, b.cells.head?, b.cells.getLast? with
  | some a0, some a1, some b0, some b1 =>
    match subset near a b0.1 b1.2, subset near b a0.1 a1.2 with
    | .ok x, .ok y => .ok (sameIntervals near x.1.cells y.1.cells)
    | .error e, _ => .error e
    | _, .error e => .error e
  | _, _, _, _ => .error .ub

/-- parmdb/Axis.cc:318-329 makeAxis: regular when all widths are the same. -/
def makeAxis (near : K → K → Bool) (cells : Cells K) : Except Err (Axis K) :=
  match cells with
  | [] => .error .ub
  | c :: r =>
    if r.all fun d => near (c.2 - c.1) (d.2 - d.1) then .ok (regularAxis c.1 (c.2 - c.1) cells.length)
    else .ok ⟨none, cells⟩

/-- parmdb/Axis.cc:288-316 add: the cells of the second axis after those of the first, with a cell for the
hole between them. -/
def addCells (near : K → K → Bool) (a b : Cells K) (aEnd bStart : K) : Cells K :=
  if near aEnd bStart then a ++ b else a ++ (aEnd, bStart) :: b

/-- parmdb/Axis.cc:228-240: the cells from `s2` of the first and from `s1` of the second axis agree. -/
def overlapOk (near : K → K → Bool) (a b : Cells K) (s1 s2 : Nat) : Nat → Nat → Except Err Unit
  | _, 0 => .ok ()
  | i, n + 1 =>
    match a[s2 + i]?, b[s1 + i]? with
    | some c, some d =>
      if (c.1 = d.1 ∨ near c.1 d.1) ∧ (c.2 = d.2 ∨ near c.2 d.2) then overlapOk near a b s1 s2 (i + 1) n
      else .error .throws
    | _, _ => .error .ub

/-- What `combine` gives: the new axis, and where the cells of both axes are in it. -/
structure Combined (K : Type) where
  axis : Axis K
  s1 : Nat
  e1 : Nat
  s2 : Nat
  e2 : Nat
  deriving DecidableEq

/-- The new axis with the indices given. -/
def combinedOf (r : Except Err (Axis K)) (s1 e1 s2 e2 : Nat) : Except Err (Combined K) :=
  match r with
  | .ok ax => .ok ⟨ax, s1, e1, s2, e2⟩
  | .error e => .error e

/-- parmdb/Axis.cc:241-285: the new axis for a full or partial overlap of `nr` cells. -/
def overlapAxis (near : K → K → Bool) (a b : Axis K) (s1 s2 nr : Nat) : Except Err (Combined K) :=
  let nr1 := a.cells.length
  let nr2 := b.cells.length
  if s1 = 0 ∧ nr = nr2 then .ok ⟨a, s1, nr1, s2, s2 + nr⟩
  else if s2 = 0 ∧ nr = nr1 then .ok ⟨b, s1, s1 + nr, s2, nr2⟩
  else if s1 = 0 then combinedOf (makeAxis near (a.cells.take s2 ++ b.cells)) s1 nr1 s2 (s2 + nr2)
  else combinedOf (makeAxis near (b.cells.take s1 ++ a.cells)) s1 (s1 + nr1) s2 nr2

/-- parmdb/Axis.cc:208-227: where the overlap starts and how many cells it has. The centers are in order, so
that the (signed) differences are not negative. -/
def overlapStart (near : K → K → Bool) (a b : Cells K) (a0 a1 b0 b1 : K × K) : Nat × Nat × Nat :=
  let s1 := if a0.1 < b0.1 then 0 else (find near b ((a0.1 + a0.2) / 2) true 0).1
  let s2 := if a0.1 < b0.1 then (find near a ((b0.1 + b0.2) / 2) true 0).1 else 0
  let nr := if b1.2 < a1.2 then (find near a ((b1.1 + b1.2) / 2) true 0).1 - s2
    else (find near b ((a1.1 + a1.2) / 2) true 0).1 - s1
  (s1, s2, nr + 1)

/-- parmdb/Axis.cc:181-286 combine. -/
def combine (near : K → K → Bool) (a b : Axis K) : Except Err (Combined K) :=
  match a.cells.head?, a.cells.getLast?, b.cells.head?, b.cells.getLast? with
  | some a0, some a1, some b0, some b1 =>
    if a1.2 ≤ b0.1 ∨ near a1.2 b0.1 then
      let new := addCells near a.cells b.cells a1.2 b0.1
      combinedOf (makeAxis near new) 0 a.cells.length (new.length - b.cells.length) new.length
    else if b1.2 ≤ a0.1 ∨ near b1.2 a0.1 then
      let new := addCells near b.cells a.cells b1.2 a0.1
      combinedOf (makeAxis near new) (new.length - a.cells.length) new.length 0 b.cells.length
    else
      let o := overlapStart near a.cells b.cells a0 a1 b0 b1
      match overlapOk near a.cells b.cells o.1 o.2.1 0 o.2.2 with
      | .error e => .error e
      | .ok () => overlapAxis near a b o.1 o.2.1 o.2.2
  | _, _, _, _ => .error .ub

/-- The cells of a compressed axis: `lower` of the first and `upper` of the last cell of each group,
parmdb/Axis.cc:459-464 (before the center and width are taken). -/
def groupCells (factor : Nat) : Nat → Cells K → Cells K
  | 0, _ => []
  | n + 1, cells =>
    match (cells.take factor).head?, (cells.take factor).getLast? with
    | some a, some b => (a.1, b.2) :: groupCells factor n (cells.drop factor)
    | _, _ => []

/-- parmdb/Axis.cc:410-426 RegularAxis::compress and 454-466 OrderedAxis::compress. A zero factor is a
division by zero or a failing assertion. -/
def compress (ax : Axis K) (factor : Nat) : Except Err (Axis K) :=
  if factor = 0 then .error .ub
  else
    match ax.reg with
    | some (st, w, n) =>
      if n % factor = 0 then .ok (regularAxis st (w * factor) (n / factor))
      else
        match ax.cells[n - n % factor]? with
        | none => .error .ub
        | some c =>
          .ok (centeredAxis (((List.range (n / factor)).map fun (i : Nat) =>
            (st + ((i : K) + 1 / 2) * factor * w, (factor : K) * w)) ++
              [(c.1 + 1 / 2 * ((n % factor : Nat) : K) * w, ((n % factor : Nat) : K) * w)]))
    | none =>
      .ok (centeredAxis ((groupCells factor ((ax.cells.length + factor - 1) / factor) ax.cells).map fun c =>
        (1 / 2 * (c.2 + c.1), c.2 - c.1)))

/-! ## Boxes -/

/-- parmdb/Box.h: a box by its lower and upper corner. -/
structure Box (K : Type) where
  lowerX : K
  lowerY : K
  upperX : K
  upperY : K
  deriving DecidableEq

/-- parmdb/Box.cc:28-34 unite. -/
def unite (a b : Box K) : Box K :=
  ⟨min a.lowerX b.lowerX, min a.lowerY b.lowerY, max a.upperX b.upperX, max a.upperY b.upperY⟩

/-- parmdb/Box.cc:36-46 intersect; an empty box at zero when there is no intersection. -/
def intersect (near : K → K → Bool) (a b : Box K) : Box K :=
  let sx := max a.lowerX b.lowerX
  let sy := max a.lowerY b.lowerY
  let ex := min a.upperX b.upperX
  let ey := min a.upperY b.upperY
  if sx < ex ∧ near sx ex = false ∧ sy < ey ∧ near sy ey = false then ⟨sx, sy, ex, ey⟩ else ⟨0, 0, 0, 0⟩

/-- parmdb/Box.h:80-89 intersects. -/
def intersects (near : K → K → Bool) (a b : Box K) : Bool :=
  decide (b.lowerX < a.upperX) && !near b.lowerX a.upperX && decide (a.lowerX < b.upperX) &&
    !near b.upperX a.lowerX && decide (b.lowerY < a.upperY) && !near b.lowerY a.upperY &&
    decide (a.lowerY < b.upperY) && !near b.upperY a.lowerY

/-- parmdb/Box.h:93-102 contains. -/
def contains (near : K → K → Bool) (a b : Box K) : Bool :=
  (decide (a.lowerX ≤ b.lowerX) || near b.lowerX a.lowerX) &&
  (decide (b.upperX ≤ a.upperX) || near b.upperX a.upperX) &&
  (decide (a.lowerY ≤ b.lowerY) || near b.lowerY a.lowerY) &&
  (decide (b.upperY ≤ a.upperY) || near b.upperY a.upperY)

/-- parmdb/Box.h:105-108 empty. -/
def empty (near : K → K → Bool) (a : Box K) : Bool :=
  near a.lowerX a.upperX || near a.lowerY a.upperY

/-- parmdb/Box.h:125-129 operator<. -/
def boxLt (a b : Box K) : Bool :=
  decide (a.lowerY < b.lowerY) || (decide (a.lowerY = b.lowerY) && decide (a.lowerX < b.lowerX))

/-! ## Grids -/

/-- parmdb/Grid.h:83 a grid by its axes. -/
structure Grid (K : Type) where
  x : Axis K
  y : Axis K
  deriving DecidableEq

/-- Conversion to `unsigned int`. -/
def wrap32 (n : Nat) : Nat := n % 4294967296

/-- parmdb/Grid.h:136-138 getCellId, for the size of the x axis. -/
def cellId (nx : Nat) (loc : Nat × Nat) : Nat := wrap32 (loc.2 * nx + loc.1)

/-- parmdb/Grid.h:141-143 getCellLocation. -/
def cellLocation (nx id : Nat) : Nat × Nat := (id % nx, id / nx)

/-- parmdb/Grid.h:154-160 getCell. -/
def getCell (g : Grid K) (loc : Nat × Nat) : Except Err (Box K) :=
  match g.x.cells[loc.1]?, g.y.cells[loc.2]? with
  | some a, some b => .ok ⟨a.1, b.1, a.2, b.2⟩
  | _, _ => .error .ub

/-- parmdb/Grid.h:180-183 locate. -/
def locateGrid (near : K → K → Bool) (g : Grid K) (p : K × K) (biasRight : Bool) : Except Err (Nat × Nat) :=
  match locate near g.x.cells p.1 biasRight 0, locate near g.y.cells p.2 biasRight 0 with
  | .ok i, .ok j => .ok (i, j)
  | .error e, _ => .error e
  | _, .error e => .error e

/-- A loop that writes elements `0, 1, ...` of a buffer; a write behind its end is undefined behaviour. -/
def fill (size : Nat) (xs : Cells K) : Except Err (Cells K) :=
  if xs.length ≤ size then .ok xs else .error .ub

/-- parmdb/Grid.cc:236-259 toDomains: both buffers have the size of the x axis. -/
def toDomains (g : Grid K) (domains : List (Box K)) : Except Err (List (Box K)) :=
  match fill g.x.cells.length g.x.cells, fill g.x.cells.length g.y.cells with
  | .ok xs, .ok ys =>
    .ok (domains ++ ys.flatMap fun y => xs.map fun x => ⟨x.1, y.1, x.2, y.2⟩)
  | .error e, _ => .error e
  | _, .error e => .error e

/-- The loop of parmdb/Grid.cc:63-75: the number of cells in x and whether they are regular. -/
def scanX (near : K → K → Bool) (sy dx : K) : K → Nat → Bool → List (Box K) → Nat × Bool
  | _, nx, r, [] => (nx, r)
  | ex, nx, r, d :: ds =>
    if sy ≠ d.lowerY then (nx, r)
    else scanX near sy dx d.upperX (nx + 1)
      (r && (near ex d.lowerX && near dx (d.upperX - d.lowerX))) ds

/-- parmdb/Grid.cc:100-111: whether the cells in y are regular. -/
def scanY (near : K → K → Bool) (dy : K) : K → Cells K → Bool
  | _, [] => true
  | ey, c :: r => near ey c.1 && near dy (c.2 - c.1) && scanY near dy c.2 r

/-- The rows of `nx` domains. -/
def rows (nx : Nat) : Nat → List (Box K) → List (List (Box K))
  | 0, _ => []
  | n + 1, ds => ds.take nx :: rows nx n (ds.drop nx)

/-- The checks of parmdb/Grid.cc:88-93: all rows have the same x axis. -/
def checkX (near : K → K → Bool) (xs : Cells K) (row : List (Box K)) : Bool :=
  (xs.zip row).all fun p => near p.1.1 p.2.lowerX && near p.1.2 p.2.upperX

/-- The checks of parmdb/Grid.cc:112-117: all domains of a row have the same y. -/
def checkY (near : K → K → Bool) (y : K × K) (row : List (Box K)) : Bool :=
  row.tail.all fun d => near y.1 d.lowerY && near y.2 d.upperY

/-- The y interval of the first domain of a row, parmdb/Grid.cc:103-105. -/
def rowY (row : List (Box K)) : Cells K := (row.head?.map fun d => (d.lowerY, d.upperY)).toList

/-- An axis of the cells, parmdb/Grid.cc:118-129. -/
def axisOf (regular : Bool) (width : K) (cells : Cells K) : Axis K :=
  match cells with
  | [] => ⟨none, []⟩
  | c :: _ => if regular then regularAxis c.1 width cells.length else ⟨none, cells⟩

/-- parmdb/Grid.cc:54-130 setup from domains in order. -/
def setup (near : K → K → Bool) (domains : List (Box K)) : Except Err (Grid K) :=
  match domains with
  | [] => .error .ub
  | d :: ds =>
    let dx := d.upperX - d.lowerX
    let dy := d.upperY - d.lowerY
    let sx := scanX near d.lowerY dx d.upperX 1 true ds
    let nx := sx.1
    if domains.length % nx ≠ 0 then .error .throws
    else
      let rs := rows nx (domains.length / nx) domains
      let xs := (domains.take nx).map fun d => (d.lowerX, d.upperX)
      let ys := rs.flatMap rowY
      if !(rs.tail.all (checkX near xs)) then .error .throws
      else if !((ys.zip rs).all fun p => checkY near p.1 p.2) then .error .throws
      else .ok ⟨axisOf sx.2 dx xs, axisOf (scanY near dy d.lowerY ys) dy ys⟩

/-- parmdb/Grid.cc:20-35 the grid of domains; they are sorted when asked for. -/
def gridOf (near : K → K → Bool) (domains : List (Box K)) (unsorted : Bool) : Except Err (Grid K) :=
  if domains = [] then .ok ⟨defaultAxis, defaultAxis⟩
  else setup near (if unsorted then domains.mergeSort fun a b => !boxLt b a else domains)

/-! ## The iterator over cells -/

/-- parmdb/Grid.h:218 CellIterator, the state is the location. -/
structure CellIter where
  start : Nat × Nat
  stop : Nat × Nat
  loc : Nat × Nat
  deriving DecidableEq

/-- parmdb/Grid.h:220-221. -/
def CellIter.make (start stop : Nat × Nat) : CellIter := ⟨start, stop, start⟩

/-- parmdb/Grid.h:224 atEnd. -/
def CellIter.atEnd (it : CellIter) : Bool := decide (it.stop.2 < it.loc.2)

/-- parmdb/Grid.h:228-233 operator++. -/
def CellIter.next (it : CellIter) : CellIter :=
  if it.stop.1 < it.loc.1 + 1 then { it with loc := (it.start.1, it.loc.2 + 1) }
  else { it with loc := (it.loc.1 + 1, it.loc.2) }

/-- The locations that a loop `for (CellIterator it(...); !it.atEnd(); ++it)` visits, with the number of
iterations that is allowed. -/
def CellIter.visit : Nat → CellIter → Except Err (List (Nat × Nat))
  | 0, _ => .error .fuel
  | fuel + 1, it =>
    if it.atEnd then .ok []
    else
      match visit fuel it.next with
      | .ok l => .ok (it.loc :: l)
      | .error e => .error e

end DP3.ParmGrid
