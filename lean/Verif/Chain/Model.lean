/-!
Model of the field bookkeeping of a step chain: `common/Fields.h`,
`base/DP3.cc` (`GetChainRequiredFields`, `SetChainProvidedFields`,
`MakeMainSteps`), `steps/Split.cc`, `steps/MSUpdater.cc` (which fields it writes).

A chain is a list of steps.  Steps other than output steps are represented by
their required and provided fields.  Creation of steps from the parset, file
names and the data themselves are not modelled here.
-/

namespace DP3.Chain

/-- `Fields::Single`, common/Fields.h:22-28 (without `kCount`). -/
inductive Field where
  | data | flags | weights | uvw
  deriving DecidableEq, Repr

/-- `class Fields`, common/Fields.h: a bit set, here the characteristic function. -/
abbrev Fields := Field → Bool

namespace Fields

/-- Default constructor `Fields()`, common/Fields.h:33. -/
def none : Fields := fun _ => false

/-- `Fields(Single)`, common/Fields.h:39-40. -/
def single (f : Field) : Fields := fun g => decide (g = f)

/-- `operator|`, common/Fields.h:72-75 and :97-101. -/
def union (a b : Fields) : Fields := fun f => a f || b f

/-- `UpdateRequirements`, common/Fields.h:85-91. -/
def updateRequirements (value required provided : Fields) : Fields := fun f =>
  let toReset := provided f && !required f
  (value f || required f) && !toReset

end Fields

/-- A step as seen by the field bookkeeping.
* `plain`: a step that is no output step (steps/Step.h:91, :96).
* `writer`: an output step with fixed requirements: MSWriter, MSBDAWriter,
  WSCleanWriter, NullStep (steps/MSWriter.h:63, steps/MSBDAWriter.h:28,
  steps/WSCleanWriter.h:38, steps/NullStep.h:20).  `toWrite` is
  `fields_to_write_` (steps/OutputStep.h:43).
* `updater`: MSUpdater; `columns` tells which of its column names are given
  (non-empty) in the parset; `toWrite` is `fields_to_write_`.
* `split`: steps/Split.cc, with its sub-chains. -/
inductive Step where
  | plain (required provided : Fields)
  | writer (required toWrite : Fields)
  | updater (columns toWrite : Fields)
  | split (subs : List (List Step))

/-- `dynamic_cast<OutputStep*>`: MSWriter, MSUpdater, NullStep and Split derive
from OutputStep (steps/Split.h:25, steps/MSUpdater.h:30, ...). -/
def Step.isOutput : Step → Bool
  | .plain .. => false
  | _ => true

/-- `getProvidedFields`; empty for every output step (steps/OutputStep.h:21). -/
def Step.provided : Step → Fields
  | .plain _ p => p
  | _ => Fields.none

/-- `MSUpdater::getRequiredFields`, steps/MSUpdater.cc:240-246. -/
def updaterRequired (toWrite : Fields) : Fields
  | .data => toWrite .data
  | .flags => toWrite .flags
  | .weights => toWrite .weights
  | .uvw => false

mutual
/-- `getRequiredFields`; for Split steps/Split.cc:82-88. -/
def Step.required : Step → Fields
  | .plain r _ => r
  | .writer r _ => r
  | .updater _ w => updaterRequired w
  | .split subs => chainsRequired subs

/-- `GetChainRequiredFields`, base/DP3.cc:272-287: walk from the last step back
to the first. -/
def chainRequired : List Step → Fields
  | [] => Fields.none
  | s :: c => Fields.updateRequirements (chainRequired c) s.required s.provided

/-- The loop in `Split::getRequiredFields`, steps/Split.cc:83-87. -/
def chainsRequired : List (List Step) → Fields
  | [] => Fields.none
  | c :: cs => Fields.union (chainRequired c) (chainsRequired cs)
end

/-- `MSUpdater::SetFieldsToWrite`, steps/MSUpdater.cc:248-255: a given column
name (data, flag or weight column) adds that field. -/
def updaterToWrite (columns base : Fields) : Fields
  | .data => base .data || columns .data
  | .flags => base .flags || columns .flags
  | .weights => base .weights || columns .weights
  | .uvw => base .uvw

mutual
/-- `SetFieldsToWrite` of the output steps: steps/OutputStep.h:27-29,
steps/MSUpdater.cc:248-255, steps/Split.cc:90-95.  A plain step has no such
function and is left alone. -/
def Step.setFieldsToWrite (fields : Fields) : Step → Step
  | .plain r p => .plain r p
  | .writer r _ => .writer r fields
  | .updater cols _ => .updater cols (updaterToWrite cols fields)
  | .split subs => .split (setChains fields subs)

/-- `SetChainProvidedFields`, base/DP3.cc:289-302: the chain with updated output
steps. -/
def setChain (provided : Fields) : List Step → List Step
  | [] => []
  | s :: c =>
    if s.isOutput then s.setFieldsToWrite provided :: setChain Fields.none c
    else s :: setChain (Fields.union provided s.provided) c

/-- The loop in `Split::SetFieldsToWrite`, steps/Split.cc:92-94. -/
def setChains (fields : Fields) : List (List Step) → List (List Step)
  | [] => []
  | c :: cs => setChain fields c :: setChains fields cs
end

/-- Return value of `SetChainProvidedFields`, base/DP3.cc:289-302. -/
def chainProvided (provided : Fields) : List Step → Fields
  | [] => provided
  | s :: c =>
    if s.isOutput then chainProvided Fields.none c
    else chainProvided (Fields.union provided s.provided) c

/-- steps/NullStep.h. -/
def nullStep : Step := .writer Fields.none Fields.none

/-- `dynamic_cast<steps::Split*>`, base/DP3.cc:551. -/
def Step.isSplit : Step → Bool
  | .split _ => true
  | _ => false

/-- `MakeMainSteps`, base/DP3.cc:496-560, without the creation of the steps:
`steps` are the steps made from the parset (after the reader, whose provided
fields are empty at that time, steps/InputStep.h:43), `output` is the step that
`MakeOutputStep` would create, `outNameGiven` is `!msOutName.empty()`.  The
result is the chain after the reader.  When there are no steps, the last step is
the reader, which is no output step. -/
def makeMainSteps (steps : List Step) (outNameGiven : Bool) (output : Step) : List Step :=
  let provided := chainProvided Fields.none steps
  let chain := setChain Fields.none steps
  let endsWithOutput := (chain.getLast?.map Step.isOutput).getD false
  let anyProvided := provided .data || provided .flags || provided .weights || provided .uvw
  let chain' :=
    if !endsWithOutput && (outNameGiven || anyProvided) then
      chain ++ [output.setFieldsToWrite provided]
    else chain
  if (chain'.getLast?.map Step.isSplit).getD false then chain' else chain' ++ [nullStep]

/-- The fields the reader is told to read, base/DP3.cc:556-557. -/
def fieldsToRead (steps : List Step) (outNameGiven : Bool) (output : Step) : Fields :=
  chainRequired (makeMainSteps steps outNameGiven output)

/-- Effect of `MSUpdater::updateInfo` on `fields_to_write_`,
steps/MSUpdater.cc:278-297; runs after `MakeMainSteps` (base/DP3.cc:347-350).
`weightColumnIsWEIGHT` is `infoIn.weightColumnName() == "WEIGHT"` (set by
`msin.weightcolumn=WEIGHT`).  The input data column name is never empty, so
after line 279 the data column name is non-empty; after line 284 so is the
weight column name. -/
def updaterWrites (weightColumnIsWEIGHT : Bool) (columns toWrite : Fields) : Fields :=
  if !columns .weights && weightColumnIsWEIGHT then
    let columns' : Fields := fun
      | .data => true
      | .weights => true
      | f => columns f
    updaterToWrite columns' (Fields.union toWrite (Fields.single .weights))
  else toWrite

mutual
/-- `updateInfo` of a step as far as it changes `fields_to_write_`; Split passes
it on to its sub-chains (steps/Split.cc:97-103). -/
def Step.updateInfo (weightColumnIsWEIGHT : Bool) : Step → Step
  | .plain r p => .plain r p
  | .writer r w => .writer r w
  | .updater cols w => .updater cols (updaterWrites weightColumnIsWEIGHT cols w)
  | .split subs => .split (updateInfoAll weightColumnIsWEIGHT subs)

/-- `Step::setInfo` along a chain. -/
def updateInfo (weightColumnIsWEIGHT : Bool) : List Step → List Step
  | [] => []
  | s :: c => s.updateInfo weightColumnIsWEIGHT :: updateInfo weightColumnIsWEIGHT c

/-- The loop in `Split::updateInfo`, steps/Split.cc:100-102. -/
def updateInfoAll (weightColumnIsWEIGHT : Bool) : List (List Step) → List (List Step)
  | [] => []
  | c :: cs => updateInfo weightColumnIsWEIGHT c :: updateInfoAll weightColumnIsWEIGHT cs
end

end DP3.Chain
