import Verif.Chain.Model

/-!
Specifications for the step chain, written as forward walks over the chain
(the direction in which data flow), without the model's folds.
-/

namespace DP3.Chain

/-- Every field of `a` is in `b`. -/
def Subset (a b : Fields) : Prop := ∀ f, a f = true → b f = true

/-- A step that creates field `f`: it provides it without needing it. -/
def Creates (s : Step) (f : Field) : Prop := s.provided f = true ∧ s.required f = false

mutual
/-- All (available fields, needed fields) pairs met when data with the given
available fields flow through a step.  An update step writes, hence needs, those
of data, flags and weights that are in its `toWrite` (steps/MSUpdater.cc:176-222).
A Split passes the data on to each of its sub-chains. -/
def Step.visits (available : Fields) : Step → List (Fields × Fields)
  | .plain r _ => [(available, r)]
  | .writer r _ => [(available, r)]
  | .updater _ w => [(available, fun f => w f && f != .uvw)]
  | .split subs => visitsAll available subs

/-- The same for a chain: what a step provides is available afterwards. -/
def visits (available : Fields) : List Step → List (Fields × Fields)
  | [] => []
  | s :: c => s.visits available ++ visits (fun f => available f || s.provided f) c

/-- The same for several chains fed with the same data. -/
def visitsAll (available : Fields) : List (List Step) → List (Fields × Fields)
  | [] => []
  | c :: cs => visits available c ++ visitsAll available cs
end

/-- Every step finds the fields it needs when the chain gets data with these fields. -/
def RunsWith (available : Fields) (chain : List Step) : Prop :=
  ∀ v ∈ visits available chain, Subset v.2 v.1

/-- One step the data went through on the way to an output step: the fields it
provided, or an output step. -/
inductive Event where
  | provides (f : Fields)
  | output

/-- What a step leaves in the history of the data. -/
def Step.event : Step → Event
  | .plain _ p => .provides p
  | _ => .output

mutual
/-- Every writer or updater, with the history of the data that reach it (most
recent first). -/
def Step.outputs (history : List Event) : Step → List (List Event × Step)
  | .plain .. => []
  | .writer r w => [(history, .writer r w)]
  | .updater cols w => [(history, .updater cols w)]
  | .split subs => outputsAll history subs

/-- The same for a chain. -/
def outputs (history : List Event) : List Step → List (List Event × Step)
  | [] => []
  | s :: c => s.outputs history ++ outputs (s.event :: history) c

/-- The same for several chains fed with the same data. -/
def outputsAll (history : List Event) : List (List Step) → List (List Event × Step)
  | [] => []
  | c :: cs => outputs history c ++ outputsAll history cs
end

/-- History of data that went through the whole chain. -/
def historyAfter (history : List Event) (chain : List Step) : List Event :=
  (chain.map Step.event).reverse ++ history

/-- `f` was provided by some step since the last output step. -/
def ProvidedSinceOutput (f : Field) : List Event → Prop
  | [] => False
  | .output :: _ => False
  | .provides p :: h => p f = true ∨ ProvidedSinceOutput f h

/-- The fields an output step was told to write are the fields provided since the
previous output step; an update step adds the columns named by the user. -/
def ToldToWrite (history : List Event) : Step → Prop
  | .writer _ w => ∀ f, w f = true ↔ ProvidedSinceOutput f history
  | .updater cols w =>
      ∀ f, w f = true ↔ ProvidedSinceOutput f history ∨ (cols f = true ∧ f ≠ .uvw)
  | _ => False

/-- An update step whose weight column is named by the user; true for other steps. -/
def Step.namesWeightColumn : Step → Bool
  | .updater cols _ => cols .weights
  | _ => true

end DP3.Chain
