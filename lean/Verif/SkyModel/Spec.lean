import Verif.SkyModel.Model

/-!
# What the lines of a sky model say

None of this is in the code.
-/

namespace DP3.SkyModel

variable {D K S C : Type}

/-- A line that defines a patch: one without a source, or a source without a patch, which has a patch with its own name. -/
def definition (l : Line D K S) : Option String :=
  if l.name = "" then some l.patch else if l.patch = "" then some l.name else none

/-- A line for a patch only. -/
def isPatchLine (p : String) (l : Line D K S) : Bool := l.name == "" && l.patch == p

/-- A source in a patch that is named. -/
def isMember (p : String) (l : Line D K S) : Bool := l.name != "" && l.patch == p

/-- The lines that define a patch. -/
def definitions (p : String) (lines : List (Line D K S)) : List (Line D K S) := lines.filter fun l => definition l == some p

/-- The sources in a patch that is named, with their directions and fluxes. -/
def members (p : String) (lines : List (Line D K S)) : List (D × K) := (lines.filter (isMember p)).map fun l => (l.direction, l.flux)

/-- The source of a line. -/
def sourceOf (l : Line D K S) : Source D S :=
  { name := l.name, patch := if l.patch = "" then l.name else l.patch, direction := l.direction, info := l.info }

/-- The sources, in order. -/
def sourcesOf (lines : List (Line D K S)) : List (Source D S) := (lines.filter fun l => l.name != "").map sourceOf

/-- Every line has a name, and sources follow the line of their patch. -/
def Valid (lines : List (Line D K S)) : Prop :=
  ∀ before l after, lines = before ++ l :: after →
    (l.name ≠ "" ∨ l.patch ≠ "") ∧ (l.name ≠ "" → l.patch ≠ "" → ∃ x ∈ before, isPatchLine l.patch x = true)

/-- A patch with the position and flux of a line. -/
def own (p : String) (l : Line D K S) : PatchInfo D K := { name := p, direction := l.direction, category := l.category, brightness := l.flux }

/-- A patch with the position and flux of its sources, if these have a flux. -/
def summed [AddMonoid K] [DecidableEq K] (mean : List (D × K) → D) (p : String) (l : Line D K S) (added : List (D × K)) : PatchInfo D K :=
  if (added.map Prod.snd).sum ≠ 0 then
    { name := p, direction := mean added, category := l.category, brightness := (added.map Prod.snd).sum }
  else own p l

end DP3.SkyModel
