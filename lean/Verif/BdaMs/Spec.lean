import Verif.BdaMs.Model

/-!
What the properties of the BDA reader and writer are about.
-/

namespace DP3.BdaMs

variable {V W U : Type}

/-- An info as the steps before the writer make it: there are baselines, all
lists have a value per baseline, no antenna pair occurs twice. -/
structure Info.WellFormed (info : Info) : Prop where
  nonempty : 0 < info.nBaselines
  ant2 : info.ant2.length = info.nBaselines
  timeAvgs : info.timeAvgs.length = info.nBaselines
  freqs : info.freqs.length = info.nBaselines
  widths : info.widths.length = info.nBaselines
  resolutions : info.resolutions.length = info.nBaselines
  effectiveBw : info.effectiveBw.length = info.nBaselines
  widthCount : ∀ (i : Nat) (f w : List Rat), info.freqs[i]? = some f → info.widths[i]? = some w → f.length = w.length
  distinct : (info.ant1.zip info.ant2).Nodup
  interval : 0 < info.timeInterval
  channels : ∃ f ∈ info.freqs, f ≠ []

/-- Baselines with as many channels have the same channels. -/
def Info.SameLayout (info : Info) : Prop :=
  ∀ (i j : Nat) (f g : List Rat), info.freqs[i]? = some f → info.freqs[j]? = some g → f.length = g.length →
    f = g ∧ info.widths[i]? = info.widths[j]?

/-- All baselines cover the same bandwidth. -/
def Info.SameBandwidth (info : Info) : Prop :=
  ∀ v ∈ info.widths, ∀ w ∈ info.widths, v.sum = w.sum

/-- A row that belongs to the info and has row number `k`. -/
structure Row.Fits (info : Info) (k : Nat) (r : Row V W U) : Prop where
  rowNr : r.rowNr = k
  baseline : r.baseline < info.nBaselines
  nChannels : ∃ f, info.freqs[r.baseline]? = some f ∧ r.nChannels = f.length
  nCorrelations : r.nCorrelations = info.nCorr
  data : r.data.length = r.nChannels * r.nCorrelations
  flags : r.flags.length = r.nChannels * r.nCorrelations
  weights : r.weights.length = r.nChannels * r.nCorrelations
  interval : 1 / 1000 + 2 / 1000000 ≤ r.interval

/-- The end of the time interval of a row. -/
def Row.end_ (r : Row V W U) : Rat := r.time + r.interval / 2

/-- The row without its flags. -/
def Row.unflagged (r : Row V W U) : Row V W U := { r with flags := r.flags.map fun _ => false }

/-- The rows that do not end more than a millisecond before the last such row;
`e` is the end of the last one before. -/
def keptRows : Rat → List (Row V W U) → List (Row V W U)
  | _, [] => []
  | e, r :: rs => if r.end_ < e - 1 / 1000 then keptRows e rs else r :: keptRows r.end_ rs

/-- Every row ends at most a millisecond before the row in front of it, and the
first row does not end before time zero (times are seconds since 1858). -/
def Ordered (rows : List (Row V W U)) : Prop :=
  (∀ r, rows[0]? = some r → 0 ≤ r.end_) ∧
    ∀ (i : Nat) (a b : Row V W U), rows[i]? = some a → rows[i + 1]? = some b →
      a.end_ - 1 / 1000 ≤ b.end_

end DP3.BdaMs
