import Verif.Estimate.Model
import Mathlib.Algebra.BigOperators.Group.Finset.Basic

/-!
# The least squares problem of demixing

None of this is in the code.
-/

namespace DP3.Estimate

variable {K : Type} [CommRing K]

/-- The place of a correlation of a channel of a baseline in an array of visibilities. -/
def place (c : Cur) (bl ch cr : ℕ) : ℤ := c.pos + bl * c.stride 2 + ch * c.stride 1 + cr * c.stride 0

/-- The place of a mixing factor. -/
def mixPlace (c : Cur) (bl ch cr from_ to_ : ℕ) : ℤ :=
  c.pos + bl * c.stride 4 + ch * c.stride 3 + cr * c.stride 2 + from_ * c.stride 1 + to_ * c.stride 0

/-- The stations of a baseline. -/
def pair (mem : Mem K) (c : Curs) (bl : ℕ) : ℕ × ℕ := mem.baselines (c.baselines.pos + bl * c.baselines.stride 0)

/-- The model visibility of a direction. -/
def modelVis (mem : Mem K) (c : Curs) (bl ch dr : ℕ) : M2 K :=
  ⟨mem.model dr (place (c.model dr) bl ch 0), mem.model dr (place (c.model dr) bl ch 1),
    mem.model dr (place (c.model dr) bl ch 2), mem.model dr (place (c.model dr) bl ch 3)⟩

/-- An element of a matrix, in the order of the correlations. -/
def entry (m : M2 K) : ℕ → Cx K
  | 0 => m.a
  | 1 => m.b
  | 2 => m.c
  | _ => m.d

/-- The visibility of a source with the gains of the two stations. -/
def corrupted (u : ℕ → K) (nSt dr p q : ℕ) (x : M2 K) : M2 K :=
  jones u ((dr * nSt + p) * 8) * x * M2.herm (jones u ((dr * nSt + q) * 8))

/-- One datum of the problem: a baseline, a channel, a correlation and a target direction. -/
structure Datum where
  bl : ℕ
  ch : ℕ
  cr : ℕ
  tg : ℕ
  deriving DecidableEq

/-- The data of the problem: cross-correlations that are not flagged. -/
def used (mem : Mem K) (c : Curs) (nDir nBl nCh : ℕ) : List Datum :=
  (List.range nBl).flatMap fun bl => (List.range nCh).flatMap fun ch => (List.range 4).flatMap fun cr =>
    if (pair mem c bl).1 ≠ (pair mem c bl).2 ∧ mem.flag (place c.flag bl ch cr) = false then (List.range nDir).map fun tg => ⟨bl, ch, cr, tg⟩
    else []

/-- What is expected for a datum: the sources with their gains, each with its mixing factor. -/
def predicted (mem : Mem K) (c : Curs) (nDir nSt : ℕ) (u : ℕ → K) (d : Datum) : Cx K :=
  ((List.range nDir).map fun dr => mem.mix (mixPlace c.mix d.bl d.ch d.cr dr d.tg) *
    entry (corrupted u nSt dr (pair mem c d.bl).1 (pair mem c d.bl).2 (modelVis mem c d.bl d.ch dr)) d.cr).sum

/-- The observed value of a datum. -/
def observed (mem : Mem K) (c : Curs) (d : Datum) : Cx K := mem.data d.tg (place (c.data d.tg) d.bl d.ch d.cr)

/-- The weight of a datum. -/
def weightOf (mem : Mem K) (c : Curs) (d : Datum) : K := mem.weight (place c.weight d.bl d.ch d.cr)

/-- The weighted sum of the squared residuals. -/
def chi2 (mem : Mem K) (c : Curs) (nDir nSt nBl nCh : ℕ) (u : ℕ → K) : K :=
  ((used mem c nDir nBl nCh).map fun d => weightOf mem c d * (observed mem c d - predicted mem c nDir nSt u d).normSq).sum

/-- The unknowns with a multiple of a step added. -/
def moved (u δ : ℕ → K) (t : K) : ℕ → K := fun i => u i + t * δ i

/-- The number of unknowns: four complex numbers per station and direction. -/
def nUnknowns (nDir nSt : ℕ) : ℕ := nDir * nSt * 8

/-- The equations of one iteration. -/
def equations (mem : Mem K) (c : Curs) (nDir nSt nBl nCh : ℕ) (u : ℕ → K) : List (Row K) := (iteration mem nDir nSt nBl nCh u c).2

/-- Two arrays are the same where the problem looks: the cross-correlations that are not flagged. -/
def SameUsed (a b : Mem K) (c : Curs) (nDir nBl nCh : ℕ) : Prop :=
  (∀ bl < nBl, pair a c bl = pair b c bl) ∧
  ∀ bl < nBl, (pair a c bl).1 ≠ (pair a c bl).2 → ∀ ch < nCh, ∀ cr < 4,
    a.flag (place c.flag bl ch cr) = b.flag (place c.flag bl ch cr) ∧
    (a.flag (place c.flag bl ch cr) = false →
      a.weight (place c.weight bl ch cr) = b.weight (place c.weight bl ch cr) ∧
      ∀ tg < nDir, modelVis a c bl ch tg = modelVis b c bl ch tg ∧
        a.data tg (place (c.data tg) bl ch cr) = b.data tg (place (c.data tg) bl ch cr) ∧
        ∀ dr < nDir, a.mix (mixPlace c.mix bl ch cr dr tg) = b.mix (mixPlace c.mix bl ch cr dr tg))

/-- The turn of the phase of all gains of a direction. -/
def turn (u : ℕ → K) (nSt dir : ℕ) : ℕ → K := fun i =>
  if i / 8 / nSt = dir then (if i % 2 = 0 then -u (i + 1) else u (i - 1)) else 0

/-- The places of the visibilities in an array are all different. -/
def Apart (c : Cur) (nBl nCh : ℕ) : Prop :=
  ∀ bl < nBl, ∀ ch < nCh, ∀ cr < 4, ∀ bl' < nBl, ∀ ch' < nCh, ∀ cr' < 4,
    place c bl ch cr = place c bl' ch' cr' → bl = bl' ∧ ch = ch' ∧ cr = cr'

/-- The cursor of an array of mixing factors without gaps, axes to, from, correlation, channel and baseline. -/
def mixDense (nDir nCh : ℕ) : Cur :=
  ⟨0, fun i => if i = 0 then 1 else if i = 1 then nDir else if i = 2 then nDir * nDir else if i = 3 then nDir * nDir * 4 else if i = 4 then nDir * nDir * 4 * nCh else 0⟩

end DP3.Estimate
