import Verif.Cx.Basic
import Mathlib.Algebra.Order.Field.Basic
import Mathlib.Algebra.BigOperators.Group.List.Basic

/-!
# Dynamic spectra (DynSpec)

Model of `DynSpec::process`, `ComputeAbsoluteStokesParameters`, `WriteSpectraToDisk` and `finish`
(steps/DynSpec.cc).

Simplifications: numbers are exact and a visibility is `none` if it is not a number. The sub-steps
(phase shift, calibration, beam) are a function from the buffer to data and weights, and the model
step gives data; the absolute value of a complex number is any function. The tensor is a function
from memory locations to values, `none` if nothing was written there. Sources without file names,
timers and messages are left out.
-/

namespace DP3.DynSpec

set_option linter.unusedSectionVars false

variable {K : Type} [Field K] [LinearOrder K] [IsStrictOrderedRing K]

/-- The visibilities of a time slot, `none` for not a number (base/DPBuffer.h:96). -/
abbrev Vis (K : Type) := Nat → Nat → Nat → Option (Cx K)

/-- What DynSpec reads of a buffer (steps/DynSpec.h:40-42). The arguments are baseline, channel and
correlation. -/
structure Buf (K : Type) where
  data : Vis K
  flags : Nat → Nat → Nat → Bool
  weights : Nat → Nat → Nat → K

/-- Settings and sub-steps (steps/DynSpec.cc:53-148). `model` is the model step with its result step
(lines 86-96), `shift` the chain of sub-steps of a source with its result step (lines 106-147);
`reweighted` is `apply_beam_correction_ && apply_beam_reweighted_` (lines 247). -/
structure Cfg (K : Type) where
  nBl : Nat
  nCh : Nat
  nTime : Nat
  nDir : Nat
  subtract : Bool
  reweighted : Bool
  model : Buf K → Vis K
  shift : Nat → Buf K → Vis K × (Nat → Nat → Nat → K)
  abs : Cx K → K

/-- `buffer->GetData() -= model_buffer->GetData()` (steps/DynSpec.cc:215-228). -/
def subtracted (c : Cfg K) (b : Buf K) : Buf K :=
  if c.subtract then
    { b with data := fun i j p => do let d ← b.data i j p; let m ← c.model b i j p; pure (d - m) }
  else b

/-- The weights of a source (steps/DynSpec.cc:246-249). -/
def weightsOf (c : Cfg K) (b : Buf K) (dir : Nat) : Nat → Nat → Nat → K :=
  if c.reweighted then (c.shift dir b).2 else b.weights

/-- `weighted_data` with zeros for flagged samples and samples that are not a number
(steps/DynSpec.cc:250-254). -/
def weighted (c : Cfg K) (b : Buf K) (dir i j p : Nat) : Cx K :=
  if b.flags i j p then 0 else
  match (c.shift dir b).1 i j p with
  | none => 0
  | some d => Cx.ofReal (weightsOf c b dir i j p) * d

/-- `xt::sum(.., {0})` over the baselines (steps/DynSpec.cc:256). -/
def sumOver {A : Type} [Add A] [Zero A] (n : Nat) (f : Nat → A) : A := ((List.range n).map f).sum

/-- `xt::mean(weighted_data, {0}) / xt::sum(weights, {0})`; `none` if the quotient is not a number
(steps/DynSpec.cc:255-256). -/
def averaged (c : Cfg K) (b : Buf K) (dir j p : Nat) : Option (Cx K) :=
  let mean := (sumOver c.nBl fun i => weighted c b dir i j p).divReal (c.nBl : K)
  let total := sumOver c.nBl fun i => weightsOf c b dir i j p
  if total = 0 then none else some (mean.divReal total)

/-- The Stokes parameters of a channel, before the absolute value (steps/DynSpec.cc:283-291). -/
def stokes (xx xy yx yy : Cx K) (p : Nat) : Cx K :=
  if p = 0 then Cx.ofReal (1 / 2) * (xx + yy)
  else if p = 1 then Cx.ofReal (1 / 2) * (xx - yy)
  else if p = 2 then Cx.ofReal (1 / 2) * (xy + yx)
  else ⟨0, 1 / 2⟩ * (yx - xy)

/-- A value of the spectrum: not a number if a correlation that is used is not a number
(steps/DynSpec.cc:271-294). -/
def pixel (c : Cfg K) (b : Buf K) (dir j p : Nat) : Option K :=
  if p = 0 ∨ p = 1 then do
    let xx ← averaged c b dir j 0
    let yy ← averaged c b dir j 3
    pure (c.abs (stokes xx 0 0 yy p))
  else do
    let xy ← averaged c b dir j 1
    let yx ← averaged c b dir j 2
    pure (c.abs (stokes 0 xy yx 0 p))

/-- The memory of the tensor: `none` if nothing was written to a location; the value is `none` if it
is not a number (steps/DynSpec.cc:175; steps/DynSpec.h:29-33). -/
abbrev Mem (K : Type) := Nat → Option (Option K)

/-- The location of an element of the column-major tensor (steps/DynSpec.h:29-33; the shape is at
steps/DynSpec.cc:173-174). -/
def loc (c : Cfg K) (t j p dir : Nat) : Nat := t + c.nTime * (j + c.nCh * (p + 4 * dir))

/-- The number of elements of the tensor (steps/DynSpec.cc:173-175). -/
def size (c : Cfg K) : Nat := c.nTime * c.nCh * 4 * c.nDir

/-- Assigns an element; `none` for a write outside the tensor (steps/DynSpec.cc:258-260). -/
def put (c : Cfg K) (m : Mem K) (l : Nat) (v : Option K) : Option (Mem K) :=
  if l < size c then some fun x => if x = l then some v else m x else none

/-- The elements of a time slot and direction: channels and correlations
(steps/DynSpec.cc:258-260). -/
def cells (c : Cfg K) : List (Nat × Nat) :=
  (List.range c.nCh).flatMap fun j => (List.range 4).map fun p => (j, p)

/-- The assignment of a view of the tensor (steps/DynSpec.cc:258-260). -/
def putSlot (c : Cfg K) (b : Buf K) (t dir : Nat) (m : Mem K) : Option (Mem K) :=
  (cells c).foldlM (fun m x => put c m (loc c t x.1 x.2 dir) (pixel c b dir x.1 x.2)) m

/-- The state of the step (steps/DynSpec.h:64-98). -/
structure State (K : Type) where
  time : Nat
  mem : Mem K

/-- `process`: the new state and the buffer that goes to the next step (steps/DynSpec.cc:211-269). -/
def process (c : Cfg K) (s : State K) (b : Buf K) : Option (State K × Buf K) := do
  let b' := subtracted c b
  let m ← (List.range c.nDir).foldlM (fun m dir => putSlot c b' s.time dir m) s.mem
  pure (⟨if s.time < c.nTime then s.time + 1 else s.time, m⟩, b')

/-- The stream of buffers (the steps before call `process` for each; steps/DynSpec.cc:211). -/
def run (c : Cfg K) : State K → List (Buf K) → Option (State K × List (Buf K))
  | s, [] => some (s, [])
  | s, b :: bs => do
    let (s', o) ← process c s b
    let (s'', os) ← run c s' bs
    pure (s'', o :: os)

/-- The start state (steps/DynSpec.h:64; steps/DynSpec.cc:175). -/
def init : State K := ⟨0, fun _ => none⟩

/-- The image that is written for a source: the elements from `&dynamic_spectra_(0, 0, 0, dir)`
(steps/DynSpec.cc:335-336), as many as the axes of the file need
(common/DynSpecFitsWriter.h:110-116). -/
def image (c : Cfg K) (s : State K) (dir : Nat) : List (Option (Option K)) :=
  (List.range (c.nTime * c.nCh * 4)).map fun x => s.mem (loc c 0 0 0 dir + x)

/-- `ms_name.substr(1, ms_name.find("_"))` if the name starts with an L (steps/DynSpec.cc:314-319);
the second argument of `substr` is a length. -/
def obsId (name : List Char) : Option (List Char) :=
  match name with
  | 'L' :: rest =>
    if '_' ∈ name then some (rest.take (name.idxOf '_')) else some rest
  | _ => none

end DP3.DynSpec
