import Verif.MsOutput.Model

/-!
# Creation of the chain of steps

Model of `MakeSingleStep`, `MakeStepsFromParset` and `MakeMainSteps` (base/DP3.cc), with the types of data that steps
accept and output (steps/Step.h and its overrides), and of the measurement set to which the row numbers in a buffer
belong (steps/MSWriter.cc, steps/MSUpdater.cc). A step is what it does with the type of the data and the row numbers. Left
out: exceptions in constructors of steps, the fields that steps provide (see Chain) and `terminateChain`.
-/

namespace DP3.MakeSteps

open DP3.MsOutput (makeOutput Output)

/-- steps/Step.h:57 `MsType`. -/
inductive MsType where
  | regular
  | bda
  deriving DecidableEq

/-- A name or a type of a step. -/
abbrev Name := List Char

/-- The classes of steps that differ in the data that they accept, output or pass on. -/
inductive Sort' where
  | std
  | bdaAverager
  | bdaOnly
  | expander
  | typed (t : MsType)
  | column (t : MsType)
  | wsclean
  | null
  | split
  deriving DecidableEq

/-- A step: a processing step, with whether it sets that metadata changed, or an output step with the name of its
measurement set. -/
inductive Kind where
  | proc (s : Sort') (changes : Bool)
  | writer (name : Name)
  | bdaWriter (name : Name)
  | updater (name : Name)
  deriving DecidableEq

/-- `accepts`: steps/Step.h:139, steps/BDAAverager.h:60, steps/BdaDdeCal.h:98, steps/BdaGroupPredict.h:67,
steps/BdaExpander.h:59, steps/Combine.h:53-55, steps/Predict.h:77, steps/ScaleData.h:79, steps/UVWFlagger.h:86,
steps/MsColumnReader.h:51, steps/NullStep.h:40-42. MSBDAWriter has the default one. -/
def Kind.accepts : Kind → MsType → Bool
  | .proc .bdaOnly _, t => decide (t = .bda)
  | .proc .expander _, t => decide (t = .bda)
  | .proc (.typed t0) _, t => decide (t = t0)
  | .proc (.column t0) _, t => decide (t = t0)
  | .proc .null _, _ => true
  | _, t => decide (t = .regular)

/-- `outputs`: steps/Step.h:136, steps/BDAAverager.h:62, steps/BdaDdeCal.h:100, steps/BdaGroupPredict.h:69,
steps/Combine.h:57, steps/Predict.h:79, steps/ScaleData.h:81, steps/UVWFlagger.h:88. MsColumnReader and MSBDAWriter have
the default one. -/
def Kind.outputs : Kind → MsType
  | .proc .bdaAverager _ => .bda
  | .proc .bdaOnly _ => .bda
  | .proc (.typed t0) _ => t0
  | _ => .regular

/-- Whether the step has a `process` for a type of data: steps/Step.h:76-85, steps/MSBDAWriter.h:34,
steps/MSWriter.cc:159-180, steps/MSUpdater.cc:170-230, steps/MsColumnReader.cc:27-70, steps/NullStep.h:26-29. Steps that
got the type in their constructor are for that type. -/
def Kind.handles : Kind → MsType → Bool
  | .proc .bdaOnly _, t => decide (t = .bda)
  | .proc .expander _, t => decide (t = .bda)
  | .proc (.typed t0) _, t => decide (t = t0)
  | .proc (.column t0) _, t => decide (t = t0)
  | .proc .null _, _ => true
  | .bdaWriter _, t => decide (t = .bda)
  | _, t => decide (t = .regular)

/-- The type of the data that a step passes on; `none`: it passes nothing on. steps/NullStep.h:26-29,
steps/MSBDAWriter.cc:88-155, steps/Split.cc:143-145, steps/MsColumnReader.cc:69, steps/MSWriter.cc:176,
steps/MSUpdater.cc:228, steps/WSCleanWriter.cc:137. -/
def Kind.emits : Kind → Option MsType
  | .proc .bdaAverager _ => some .bda
  | .proc .bdaOnly _ => some .bda
  | .proc (.typed t0) _ => some t0
  | .proc (.column t0) _ => some t0
  | .proc .null _ => none
  | .proc .split _ => none
  | .bdaWriter _ => none
  | _ => some .regular

/-- Whether each step of a chain has a `process` for what it gets. -/
def handled : MsType → List Kind → Bool
  | _, [] => true
  | t, k :: ks => k.handles t && match k.emits with
    | none => true
    | some t' => handled t' ks

/-- Whether a step is an OutputStep: steps/MSBDAWriter.h:22, steps/MSUpdater.h:30, steps/MSWriter.h:56,
steps/NullStep.h:15, steps/Split.h:25, steps/WSCleanWriter.h:29. -/
def Kind.isOutput : Kind → Bool
  | .proc .null _ => true
  | .proc .split _ => true
  | .proc .wsclean _ => true
  | .proc _ _ => false
  | _ => true

/-- The types of steps that accept and output regular data, base/DP3.cc:172-267. -/
def stdTypes : List String :=
  ["aoflagger", "aoflag", "averager", "average", "squash", "madflagger", "madflag", "preflagger", "preflag",
    "antennaflagger", "antflag", "image", "clipper", "counter", "count", "phaseshifter", "phaseshift", "demixer", "demix",
    "applybeam", "stationadder", "stationadd", "setbeam", "filter", "applycal", "correct", "nullstokes",
    "wgridderpredict", "idgpredict", "idgimager", "upsample", "interpolate", "sagecalpredict", "h5parmpredict",
    "gaincal", "calibrate", "python", "pythondppp", "dynspec", "flagtransfer", "transfer"]

/-- The types of steps that get the type of their data, except columnreader: base/DP3.cc:186-187, 198-199, 212-213,
222-223. -/
def typedTypes : List String := ["uvwflagger", "uvwflag", "combine", "scaledata", "predict"]

/-- base/DP3.cc:167-270 MakeSingleStep, of a build with all optional parts. -/
def single (type : Name) (t : MsType) : Option Sort' :=
  if type ∈ stdTypes.map String.toList then some .std
  else if type ∈ typedTypes.map String.toList then some (.typed t)
  else if type = "bdaaverage".toList ∨ type = "bdaaverager".toList then some .bdaAverager
  else if type = "bdaexpander".toList then some .expander
  else if type = "columnreader".toList then some (.column t)
  else if type = "grouppredict".toList then some .bdaOnly
  else if type = "split".toList ∨ type = "explode".toList then some .split
  else if type = "ddecal".toList then some (if t = .regular then .std else .bdaOnly)
  else if type = "null".toList then some .null
  else if type = "wscleanwriter".toList then some .wsclean
  else none

/-- base/DP3.cc:579-582: the name without the digits at its end. -/
def dropDigits (name : Name) : Name := (name.reverse.dropWhile Char.isDigit).reverse

/-- base/DP3.cc:583-584: the type of a step from the value of `type` in the parset and its name. -/
def stepType (given : Option Name) (name : Name) : Name := (given.getD (dropDigits name)).map Char.toLower

/-- base/DP3.cc:141-161: the step for the output that is chosen. `none`: an exception. -/
def outputKind (o : Output) (t : MsType) : Option Kind :=
  match t, o with
  | .bda, .updater _ _ => none
  | .bda, .writer n => some (.bdaWriter n)
  | .regular, .updater n _ => some (.updater n)
  | .regular, .writer n => some (.writer n)

/-- base/DP3.cc:107-165 MakeOutputStep, with the name from the parset. -/
def makeOut (abs : Name → Name) (name current : Name) (t : MsType) : Option (Kind × Name) :=
  (makeOutput abs name current).bind fun r => (outputKind r.1 t).map fun k => (k, r.2)

/-- What the parset has for a step: `type`, `name` and whether its other settings make it set that metadata changed. -/
structure Entry where
  step : Name
  type : Option Name := none
  name : Option Name := none
  changes : Bool := false

/-- The types of an output step, base/DP3.cc:590. -/
def outTypes : List Name := ["out".toList, "output".toList, "msout".toList]

/-- base/DP3.cc:586-595: one step, and the new name of the measurement set. `none`: an exception. -/
def makeOne (abs : Name → Name) (e : Entry) (current : Name) (t : MsType) : Option (Kind × Name) :=
  match single (stepType e.type e.step) t with
  | some s => some (.proc s e.changes, current)
  | none =>
    if stepType e.type e.step ∈ outTypes then e.name.bind fun n => makeOut abs n current t
    else none

/-- base/DP3.cc:597-602, steps/Split.cc:143-145: whether a step can be set as next step of the last one. -/
def canFollow (last : Option Kind) (k : Kind) : Bool :=
  match last with
  | none => true
  | some (.proc .split _) => false
  | some l => k.accepts l.outputs

/-- base/DP3.cc:574-609: the loop over the names of steps. `none`: an exception. -/
def makeLoop (abs : Name → Name) (initial : MsType) : Option Kind → Name → List Entry → Option (List Kind)
  | _, _, [] => some []
  | last, current, e :: es =>
    (makeOne abs e current ((last.map Kind.outputs).getD initial)).bind fun r =>
      if canFollow last r.1 then (makeLoop abs initial (some r.1) r.2 es).map fun ks => r.1 :: ks
      else none

/-- base/DP3.cc:562-617 MakeStepsFromParset. -/
def makeSteps (abs : Name → Name) (initial : MsType) (input : Name) (es : List Entry) : Option (List Kind) :=
  makeLoop abs initial none input es

/-- base/DP3.cc:498-547 MakeMainSteps, after the creation of the input step: `input` is the absolute name of its
measurement set; `msoutName` and `msout` are in the parset; `provides` is whether the chain has fields that have not been
written. -/
def makeMain (abs : Name → Name) (initial : MsType) (input : Name) (es : List Entry) (msoutName msout : Option Name)
    (provides : Bool) : Option (List Kind) :=
  (makeSteps abs initial input es).bind fun ks =>
    if (ks.getLast?.map Kind.isOutput).getD false then some ks
    else
      (msoutName.or msout).bind fun n =>
        if n ≠ [] ∨ provides = true then
          (makeOut abs (if msoutName.getD [] = [] then msout.getD [] else msoutName.getD []) input
            ((ks.getLast?.map Kind.outputs).getD initial)).map fun r => ks ++ [r.1]
        else some ks

/-- Setting of the information along the chain and then one buffer: for each update, the measurement set that is updated
and the one to which the row numbers in the buffer belong. `rows` starts as the input. A writer sets the row numbers
(steps/MSWriter.cc:205-207) and clears `metaChanged` (steps/MSWriter.cc:226); an updater refuses changed metadata
(steps/MSUpdater.cc:260-264, 324). `none`: an exception. A step that passes no buffers on ends the list; exceptions of
later steps are left out then. -/
def updates (abs : Name → Name) : Name → Bool → List Kind → Option (List (Name × Name))
  | _, _, [] => some []
  | rows, changed, .proc s c :: ks =>
    if s = .null ∨ s = .split then some [] else updates abs rows (changed || c) ks
  | _, _, .writer n :: ks => updates abs (abs n) false ks
  | _, _, .bdaWriter _ :: _ => some []
  | rows, changed, .updater n :: ks =>
    if changed then none else (updates abs rows false ks).map fun l => (n, rows) :: l

end DP3.MakeSteps
