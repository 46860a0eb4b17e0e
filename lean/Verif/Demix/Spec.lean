import Verif.Demix.Model

/-!
# Visibilities as a sum of sources

None of this is in the code.
-/

namespace DP3.Demix

open ComplexConjugate

/-- The phase of a direction as seen from the target, which is the last direction. -/
noncomputable def phase (nDir d : ℕ) (s : Sample) : ℂ := if d = nDir - 1 then 1 else s.phasor d

/-- The visibilities that are averaged to an output channel. -/
def cell (nChanIn nChanAvg chOut : ℕ) (times : List (ℕ → Sample)) : List Sample :=
  times.flatMap fun t => (List.range' (chOut * nChanAvg) (min nChanAvg (nChanIn - chOut * nChanAvg))).map t

/-- The visibilities that are not flagged. -/
def used (l : List Sample) : List Sample := l.filter fun s => !s.flag

/-- The total weight. -/
noncomputable def total (l : List Sample) : ℝ := (l.map Sample.weight).sum

/-- The contribution of a unit source in one direction to the average in another. -/
noncomputable def mix (nDir : ℕ) (l : List Sample) (to_ from_ : ℕ) : ℂ :=
  ((used l).map fun s => phase nDir to_ s * conj (phase nDir from_ s) * (s.weight : ℂ)).sum / (total (used l) : ℂ)

/-- Every visibility is the sum of the sources, each with a constant visibility in its own direction. -/
def SumOfSources (nDir : ℕ) (v : ℕ → ℂ) (l : List Sample) : Prop :=
  ∀ s ∈ l, s.data = ((List.range nDir).map fun d => conj (phase nDir d s) * v d).sum

end DP3.Demix
