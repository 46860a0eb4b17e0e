/-!
Model of `base/BdaBuffer.{h,cc}`: a buffer of rows of different sizes that share
memory pools.

* Times are rational numbers (the C++ code uses `double`).
* A pointer argument to an array is a function `Nat → V`, a null pointer is `none`.
* Values of newly allocated, uninitialised elements are arbitrary: they are given
  by a `fill` argument.
* UVW values, exposure and row numbers of the rows are not modelled.
-/

namespace DP3.BdaBuffer

/-- `kTimeTolerance`, base/BdaBuffer.h:227. -/
def timeTolerance : Rat := 2 / 1000000

/-- `TimeIsLessEqual`, base/BdaBuffer.h:212-214. -/
def timeIsLessEqual (x y : Rat) : Bool := decide (x < y + timeTolerance)

/-- `BdaBuffer::Row`, base/BdaBuffer.h:27-42. -/
structure Row where
  time : Rat
  interval : Rat
  baseline : Nat
  nChannels : Nat
  nCorrelations : Nat
  offset : Nat
  deriving Repr

/-- `Row::GetDataSize`, base/BdaBuffer.h:31. -/
def Row.dataSize (r : Row) : Nat := r.nChannels * r.nCorrelations

/-- Which optional fields are enabled (`common::Fields` without uvw). -/
structure FieldSet where
  data : Bool
  flags : Bool
  weights : Bool

/-- The members of `BdaBuffer`, base/BdaBuffer.h:233-240.  `data` is the map from
names to visibility pools; its order is the order of creation here and
alphabetical in the code (all pools have the same size, so the order does not
matter).  The capacities of the flag and weight vectors tell whether these
fields are enabled. -/
structure Buffer (V W : Type) where
  data : List (String × List V)
  flags : List Bool
  flagsCapacity : Nat
  weights : List W
  weightsCapacity : Nat
  rows : List Row
  originalCapacity : Nat
  remainingCapacity : Nat

variable {V W : Type}

/-- Constructor, base/BdaBuffer.cc:29-45. -/
def Buffer.init (poolSize : Nat) (fields : FieldSet) : Buffer V W where
  data := if fields.data then [("", [])] else []
  flags := []
  flagsCapacity := if fields.flags then poolSize else 0
  weights := []
  weightsCapacity := if fields.weights then poolSize else 0
  rows := []
  originalCapacity := poolSize
  remainingCapacity := poolSize

/-- `GetNumberOfElements`, base/BdaBuffer.h:165-167. -/
def Buffer.numberOfElements (b : Buffer V W) : Nat := b.originalCapacity - b.remainingCapacity

/-- `std::map::find` on the visibility pools. -/
def findPool (data : List (String × List V)) (name : String) : Option (List V) :=
  (data.find? fun p => p.1 == name).map Prod.snd

/-- `std::vector::resize` with arbitrary new values. -/
def resize (l : List V) (n : Nat) (fill : Nat → V) : List V :=
  l.take n ++ (List.range (n - l.length)).map fill

/-- `std::map::insert_or_assign`. -/
def assignPool (data : List (String × List V)) (name : String) (pool : List V) :
    List (String × List V) :=
  if data.any fun p => p.1 == name then
    data.map fun p => if p.1 == name then (p.1, pool) else p
  else data ++ [(name, pool)]

/-- `AddData`, base/BdaBuffer.h:83-87. -/
def Buffer.addData (b : Buffer V W) (name : String) (fill : Nat → V) : Buffer V W :=
  let old := (findPool b.data name).getD []
  { b with data := assignPool b.data name (resize old b.numberOfElements fill) }

/-- `RemoveData`, base/BdaBuffer.h:107. -/
def Buffer.removeData (b : Buffer V W) (name : String) : Buffer V W :=
  { b with data := b.data.filter fun p => !(p.1 == name) }

/-- `MoveData` from another buffer, base/BdaBuffer.cc:80-90.  The assertion at
line 87 says that the moved pool has `GetNumberOfElements` values; they are
given by `values`. -/
def Buffer.moveIn (b : Buffer V W) (name : String) (values : Nat → V) : Buffer V W :=
  { b with data := assignPool b.data name ((List.range b.numberOfElements).map values) }

/-- `MoveData` within one buffer, base/BdaBuffer.cc:80-90.  The source must exist
(assertion at line 86); otherwise nothing happens here. -/
def Buffer.rename (b : Buffer V W) (source target : String) : Buffer V W :=
  if source == target then b
  else match findPool b.data source with
    | none => b
    | some pool =>
      { b with data := (assignPool b.data target pool).filter fun p => !(p.1 == source) }

/-- `Clear`, base/BdaBuffer.cc:92-100. -/
def Buffer.clear (b : Buffer V W) : Buffer V W :=
  { b with
    data := b.data.map fun p => (p.1, [])
    flags := []
    weights := []
    rows := []
    remainingCapacity := b.originalCapacity }

/-- Copy constructor with fields, base/BdaBuffer.cc:50-78. -/
def Buffer.copy (b : Buffer V W) (fields : FieldSet) (fillData : Nat → V) (fillFlags : Nat → Bool)
    (fillWeights : Nat → W) : Buffer V W :=
  let capacity := b.originalCapacity - b.remainingCapacity
  let withMain := assignPool b.data "" ((findPool b.data "").getD [])
  { data := if fields.data then withMain.map fun p => (p.1, resize p.2 capacity fillData) else []
    flags := if fields.flags then resize b.flags capacity fillFlags else []
    flagsCapacity := if fields.flags then capacity else 0
    weights := if fields.weights then resize b.weights capacity fillWeights else []
    weightsCapacity := if fields.weights then capacity else 0
    rows := b.rows
    originalCapacity := capacity
    remainingCapacity := 0 }

/-- Arguments of `AddRow` without the array pointers. -/
structure RowArgs where
  time : Rat
  interval : Rat
  baseline : Nat
  nChannels : Nat
  nCorrelations : Nat
  deriving Repr

/-- Outcome of `AddRow`. -/
inductive Outcome where
  | added | refused | thrown
  deriving DecidableEq, Repr

/-- The pointed-to values, or the default for a null pointer. -/
def elements (n : Nat) (ptr : Option (Nat → V)) (default : V) : List V :=
  (List.range n).map (ptr.getD fun _ => default)

/-- The ordering check, base/BdaBuffer.cc:108-112. -/
def Buffer.misordered (b : Buffer V W) (a : RowArgs) : Bool :=
  match b.rows.getLast? with
  | none => false
  | some last => timeIsLessEqual (a.time + a.interval / 2) (last.time - last.interval / 2)

/-- The offset computed in `AddRow`, base/BdaBuffer.cc:118-151: the size of the
last visibility pool; if that is zero, of the flags; if that is zero, of the
weights. -/
def Buffer.nextOffset (b : Buffer V W) : Nat :=
  let o1 := (b.data.getLast?.map fun p => p.2.length).getD 0
  let o2 := if b.flagsCapacity > 0 then (if o1 = 0 then b.flags.length else o1) else o1
  if b.weightsCapacity > 0 then (if o2 = 0 then b.weights.length else o2) else o2

/-- `AddRow`, base/BdaBuffer.cc:102-156. `zero` and `zeroWeight` are `0.0`. -/
def Buffer.addRow (b : Buffer V W) (zero : V) (zeroWeight : W) (a : RowArgs)
    (data : Option (Nat → V)) (flags : Option (Nat → Bool)) (weights : Option (Nat → W)) :
    Buffer V W × Outcome :=
  if b.misordered a then (b, .thrown)
  else
    let n := a.nChannels * a.nCorrelations
    if b.remainingCapacity < n then (b, .refused)
    else
      ({ b with
          remainingCapacity := b.remainingCapacity - n
          data := b.data.map fun p =>
            (p.1, p.2 ++ elements n (if p.1 == "" then data else none) zero)
          flags := if b.flagsCapacity > 0 then b.flags ++ elements n flags false else b.flags
          weights := if b.weightsCapacity > 0 then b.weights ++ elements n weights zeroWeight
            else b.weights
          rows := b.rows ++ [⟨a.time, a.interval, a.baseline, a.nChannels, a.nCorrelations,
            b.nextOffset⟩] }, .added)

/-- `GetData(row, name)`, `GetFlags(row)`, `GetWeights(row)`: a pointer into the
pool at the row's offset, or null for an empty pool (base/BdaBuffer.cc:158-186,
base/BdaBuffer.h:182-204).  The values seen through it are the `dataSize`
elements from the offset on. -/
def slice {X : Type} (pool : List X) (r : Row) : Option (List X) :=
  if pool.isEmpty then none else some ((pool.drop r.offset).take r.dataSize)

/-- `GetData(row, name)`. -/
def Buffer.getData (b : Buffer V W) (row : Nat) (name : String) : Option (List V) :=
  match findPool b.data name, b.rows[row]? with
  | some pool, some r => slice pool r
  | _, _ => none

/-- `GetFlags(row)`. -/
def Buffer.getFlags (b : Buffer V W) (row : Nat) : Option (List Bool) :=
  match b.rows[row]? with
  | some r => slice b.flags r
  | none => none

/-- `GetWeights(row)`. -/
def Buffer.getWeights (b : Buffer V W) (row : Nat) : Option (List W) :=
  match b.rows[row]? with
  | some r => slice b.weights r
  | none => none

/-- The calls a client can make. -/
inductive Op (V W : Type) where
  | addRow (a : RowArgs) (data : Option (Nat → V)) (flags : Option (Nat → Bool))
      (weights : Option (Nat → W))
  | addData (name : String) (fill : Nat → V)
  | removeData (name : String)
  | moveIn (name : String) (values : Nat → V)
  | rename (source target : String)
  | clear
  | copy (fields : FieldSet) (fillData : Nat → V) (fillFlags : Nat → Bool) (fillWeights : Nat → W)

/-- One call. -/
def Buffer.step (zero : V) (zeroWeight : W) (b : Buffer V W) : Op V W → Buffer V W
  | .addRow a d f w => (b.addRow zero zeroWeight a d f w).1
  | .addData name fill => b.addData name fill
  | .removeData name => b.removeData name
  | .moveIn name values => b.moveIn name values
  | .rename s t => b.rename s t
  | .clear => b.clear
  | .copy f d fl w => b.copy f d fl w

/-- A sequence of calls. -/
def Buffer.run (zero : V) (zeroWeight : W) (b : Buffer V W) (ops : List (Op V W)) : Buffer V W :=
  ops.foldl (Buffer.step zero zeroWeight) b

end DP3.BdaBuffer
