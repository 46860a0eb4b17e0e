/-!
# The columns that an update adds, and the values of flagged data in them

Model of `MSUpdater::addColumn` and of the replacement of flagged values before compression in `MSUpdater::process`. Storage managers are
told apart by their kind only; the check on the data type of an existing column is left out.
-/

namespace DP3.UpdateStorage

/-- What is stored in a column, steps/MSUpdater.cc:304-320. -/
inductive Kind
  | data
  | flags
  | weights
  deriving DecidableEq, Repr

/-- The storage manager of a column. -/
inductive Manager
  | dysco
  | sisco
  | stokesI
  | tiled
  | other
  deriving DecidableEq, Repr

/-- The settings for the storage manager, base/StManParsetKeys.h:46-94; the name is empty if none is asked for. A bit rate of 0 means
that the column is not to be compressed (48-51, 133-136). -/
structure Keys where
  name : String
  dataBitRate : Nat
  weightBitRate : Nat
  deriving DecidableEq, Repr

/-- The measurement set: the manager of the column if it exists, those of the DATA and FLAG columns, and whether all channels are written. -/
structure Ms where
  existing : Option Manager
  dataManager : Manager
  flagManager : Manager
  allChannels : Bool
  deriving DecidableEq, Repr

/-- `MSUpdater::addColumn`, steps/MSUpdater.cc:72-168: the storage manager that the column has afterwards; `none` for the exception. -/
def addColumn (keys : Keys) (kind : Kind) (ms : Ms) : Option Manager :=
  match ms.existing with
  | some m => some m
  | none =>
    if keys.name = "sisco" ∧ kind = .data then if ms.allChannels then some .sisco else none
    else if keys.name = "stokes_i" then some .stokesI
    else if keys.name = "dysco" ∧ keys.dataBitRate ≠ 0 ∧ kind ≠ .flags then some .dysco
    else if kind = .flags then some ms.flagManager
    else if ms.dataManager = .dysco then some .tiled
    else some ms.dataManager

/-- The number of bits that Dysco gets, base/StManParsetKeys.h:128-144. -/
def bits (keys : Keys) (kind : Kind) : Nat :=
  let rate := if kind = .weights then keys.weightBitRate else keys.dataBitRate
  if rate = 0 then 16 else rate

/-- The loop over the flags of the buffer, steps/MSUpdater.cc:188-197 and 210-217; an array of flags that was not read has no elements. -/
def mask {V : Type} (bad : V) : List Bool → List V → List V
  | [], vs => vs
  | _ :: _, [] => []
  | f :: fs, v :: vs => (if f then bad else v) :: mask bad fs vs

/-- The values that are put in a column, steps/MSUpdater.cc:187-201 and 209-221. -/
def written {V : Type} (bad : V) (keys : Keys) (flags : List Bool) (values : List V) : List V :=
  if keys.name = "dysco" then mask bad flags values else values

/-- `getRequiredFields`, steps/MSUpdater.cc:240-246, for the flags. -/
def needsFlags (writesFlags : Bool) : Bool := writesFlags

/-- The flags in the buffer: those of the measurement set if this step or another one needs them. -/
def bufferFlags (writesFlags otherStep : Bool) (flags : List Bool) : List Bool :=
  if needsFlags writesFlags || otherStep then flags else []

end DP3.UpdateStorage
