import Mathlib.Algebra.Group.Hom.Defs
import Mathlib.Algebra.BigOperators.Group.List.Basic
import Mathlib.Algebra.Order.Field.Basic
import Mathlib.Data.Rat.Defs
import Mathlib.Algebra.Order.Ring.Rat

/-!
# The predict steps

Model of `OnePredict` (steps/OnePredict.cc): the division of the sources over threads, the beam per
patch with its cache per thread, the interval for evaluating the beam, the operations replace, add and
subtract, the output to a named buffer, and the sub step that applies solutions. Also the chain of
predictions of `H5ParmPredict` (steps/H5ParmPredict.cc).

Simplifications: the visibilities of a time slot are an element of a commutative group `V`; simulating
a component adds an element to it, and applying beam values is an additive map. The division of the
sources by `schaapcommon::StaticFor` is a parameter. Times are exact.
-/

namespace DP3.PredictStep

variable {C V W : Type}

/-! ### Sources and patches -/

/-- `makeSourceList` with the indices of `SetPatchIndices` (sky_model/SkyModelFunctions.cc:125-144,
300-303): components with the index of their patch. -/
def sourceListFrom : Nat → List (List C) → List (C × Nat)
  | _, [] => []
  | n, p :: ps => p.map (fun x => (x, n)) ++ sourceListFrom (n + 1) ps

/-- The source list of a patch list (steps/OnePredict.cc:173-174). -/
def sourceList (ps : List (List C)) : List (C × Nat) := sourceListFrom 0 ps

/-! ### One thread -/

/-- What `OnePredict` uses: `sim` adds a component (base/Simulator.cc), `comp p τ t` are the beam values
for patch `p` with a telescope at time `τ` and a direction that is converted at time `t`
(steps/OnePredict.cc:690-710: `ComputeArrayFactor`, `ComputeBeam`), `apply` applies beam values
(`ApplyArrayFactorAndAdd`, `ApplyBeamToDataAndAdd`). `w0` is the content of new elements of a cache. -/
structure Ops (C V W : Type) [AddCommGroup V] where
  sim : C → V
  comp : Nat → ℚ → ℚ → W
  apply : W → V →+ V
  w0 : W

variable [AddCommGroup V]

/-- `addBeamToData` (steps/OnePredict.cc:678-714): with a new point response the values of the patch are
computed and stored; then they are applied. `none` is an access outside the buffer. -/
def addBeam (o : Ops C V W) (upd : Option (ℚ × ℚ)) (sp p : Nat) (pm : V) (model : V) (cache : List W) :
    Option (V × List W) :=
  let cache := match upd with
    | some (τ, t) => cache.set (p - sp) (o.comp p τ t)
    | none => cache
  match cache[p - sp]? with
  | some w => some (model + o.apply w pm, cache)
  | none => none

/-- The state of the loop over the sources (steps/OnePredict.cc:555-595). -/
structure Loop (V W : Type) where
  patch : Option Nat
  pm : V
  model : V
  cache : List W

/-- One source with the beam (steps/OnePredict.cc:594-612). -/
def sourceStep (o : Ops C V W) (upd : Option (ℚ × ℚ)) (sp : Nat) (l : Loop V W) (s : C × Nat) :
    Option (Loop V W) :=
  match l.patch with
  | none => some ⟨some s.2, l.pm + o.sim s.1, l.model, l.cache⟩
  | some p =>
    if p = s.2 then some ⟨some s.2, l.pm + o.sim s.1, l.model, l.cache⟩
    else match addBeam o upd sp p l.pm l.model l.cache with
      | none => none
      | some (m, c) => some ⟨some s.2, 0 + o.sim s.1, m, c⟩

/-- The cache after `PredictBuffer::Resize` (base/PredictBuffer.h:21-37). -/
def resize (w0 : W) (c : List W) (n : Nat) : List W := (List.range n).map fun i => c.getD i w0

/-- `PredictSourceRange` with the beam (steps/OnePredict.cc:545-623): the model of the range and the
cache. `x` is the first source of the range. -/
def rangeStep (o : Ops C V W) (upd : Option (ℚ × ℚ)) (cache : List W) (x : C × Nat) (xs : List (C × Nat)) :
    Option (V × List W) :=
  let sp := x.2
  let cache := if upd.isSome then resize o.w0 cache ((xs.getLastD x).2 + 1 - sp) else cache
  match (x :: xs).foldlM (sourceStep o upd sp) ⟨none, 0, 0, cache⟩ with
  | none => none
  | some l =>
    match l.patch with
    | none => some (l.model, l.cache)
    | some p => addBeam o upd sp p l.pm l.model l.cache

/-- `PredictSourceRange` without the beam (steps/OnePredict.cc:574-575, 594-612). -/
def rangePlain (o : Ops C V W) (xs : List (C × Nat)) : V := xs.foldl (fun m s => m + o.sim s.1) 0

/-! ### All threads -/

/-- `previous_beam_time_` and the caches of the threads (steps/OnePredict.h:185, 195). -/
structure State (W : Type) where
  prev : ℚ
  caches : Nat → List W

/-- The threads with numbers `i`, `i + 1`, ... with their ranges: their models and the caches
(steps/OnePredict.cc:651-664). -/
def threads (o : Ops C V W) (upd : Option (ℚ × ℚ)) : Nat → List (List (C × Nat)) → (Nat → List W) →
    Option (List V × (Nat → List W))
  | _, [], c => some ([], c)
  | _, [] :: _, _ => none
  | i, (x :: xs) :: ps, c =>
    match rangeStep o upd (c i) x xs with
    | none => none
    | some (v, ci) =>
      match threads o upd (i + 1) ps (fun j => if j = i then ci else c j) with
      | none => none
      | some (vs, c) => some (v :: vs, c)

/-- The update of the beam (steps/OnePredict.cc:636-649). -/
def update (interval prev t : ℚ) : Option (ℚ × ℚ) :=
  if interval ≤ |t - prev| then some (t + 1 / 2 * interval, t) else none

/-- `PredictWithSourceParallelization` with the beam (steps/OnePredict.cc:625-668). `order` is the order
in which the threads add their models (steps/OnePredict.cc:620-622). -/
def predict (o : Ops C V W) (interval : ℚ) (order : List V → List V) (parts : List (List (C × Nat)))
    (s : State W) (t : ℚ) : Option (V × State W) :=
  let upd := update interval s.prev t
  match threads o upd 0 parts s.caches with
  | none => none
  | some (vs, c) => some ((order vs).foldl (· + ·) 0, ⟨if upd.isSome then t else s.prev, c⟩)

/-- The predictions for a list of times. -/
def predictAll (o : Ops C V W) (interval : ℚ) (order : List V → List V) (parts : List (List (C × Nat))) :
    State W → List ℚ → Option (List V)
  | _, [] => some []
  | s, t :: ts =>
    match predict o interval order parts s t with
    | none => none
    | some (v, s) =>
      match predictAll o interval order parts s ts with
      | none => none
      | some vs => some (v :: vs)

/-- Prediction without the beam. -/
def predictPlain (o : Ops C V W) (order : List V → List V) (parts : List (List (C × Nat))) : V :=
  (order (parts.map (rangePlain o))).foldl (· + ·) 0

/-! ### The operation -/

/-- The operations (steps/OnePredict.cc:345-357). -/
inductive Op
  | replace | add | subtract
  deriving DecidableEq, Repr

/-- A buffer: the main data, `none` if they were taken (base/DPBuffer.h:201-205), and the extra data. -/
structure Buf (V : Type) where
  main : Option V
  extra : String → Option V

/-- `GetData(name)` is written (steps/OnePredict.cc:516-521). -/
def Buf.put (b : Buf V) (name : String) (v : V) : Buf V :=
  if name = "" then { b with main := some v }
  else { b with extra := fun n => if n = name then some v else b.extra n }

/-- `GetData(name)` is read. -/
def Buf.get (b : Buf V) (name : String) : Option V := if name = "" then b.main else b.extra name

/-- The sub step that applies solutions works on the main data, also if these were taken: then there are
no baselines to correct (steps/OneApplyCal.cc:397-420, 527-538). -/
def applyCal (cal : Option (V → V)) (b : Buf V) : Buf V :=
  match cal with
  | none => b
  | some f => { b with main := b.main.map f }

/-- `OnePredict::process` after the prediction `model` (steps/OnePredict.cc:505-537). Without main data
the operations add and subtract give `none`. -/
def processOne (op : Op) (name : String) (cal : Option (V → V)) (model : V) (b : Buf V) : Option (Buf V) :=
  let take : Bool := op != .replace || name != ""
  let input := b.main
  let b := if take then { b with main := none } else b
  let b := applyCal cal (b.put name model)
  let restore (b : Buf V) : Buf V := if name = "" then b else { b with main := input }
  match op with
  | .replace => some (restore b)
  | .add => match b.get name, input with
    | some x, some y => some (restore (b.put name (x + y)))
    | _, _ => none
  | .subtract => match b.get name, input with
    | some x, some y => some (restore (b.put name (y - x)))
    | _, _ => none

/-- The operation of direction `i` of `H5ParmPredict` (steps/H5ParmPredict.cc:75-79). -/
def h5Op (op : Op) (i : Nat) : Op := if op = .replace ∧ 0 < i then .add else op

/-- The chain of `H5ParmPredict` (steps/H5ParmPredict.cc:64-87, 113-116): per direction a model and the
solutions. -/
def h5Chain (op : Op) (name : String) : Nat → List (V × (V → V)) → Buf V → Option (Buf V)
  | _, [], b => some b
  | i, (m, cal) :: ms, b =>
    match processOne (h5Op op i) name (some cal) m b with
    | none => none
    | some b => h5Chain op name (i + 1) ms b

/-! ### Copying the result -/

/-- `CopyPredictBufferToData` for unpolarized sources (steps/OnePredict.cc:437-452), with the memory of
the destination as a list of `n * ncorr` values. `none` is a write outside. -/
def copyStokesI {K : Type} [Zero K] (buffer : List K) (dest : List K) : Option (List K) :=
  buffer.zipIdx.foldlM (fun d x =>
    if 4 * x.2 + 3 < d.length then
      some ((((d.set (4 * x.2) x.1).set (4 * x.2 + 1) 0).set (4 * x.2 + 2) 0).set (4 * x.2 + 3) x.1)
    else none) dest

/-! ### Weights and operations -/

/-- The check of `SetApplyCal`, which `init` calls with `prefix + "applycal."`
(steps/OnePredict.cc:167-171, 186-196). `ps` are the boolean values of a parset. -/
def setApplyCalOk (ps : String → Option Bool) (pfx : String) (op : Op) : Bool :=
  !(op != .replace && (ps ((pfx ++ "applycal.") ++ "applycal.updateweights")).getD false)

end DP3.PredictStep
