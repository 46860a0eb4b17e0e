import Verif.ImagePredict.Model

/-!
# What a prediction from images must be

The visibility of a facet is the sum over the spectral terms of the visibility of the image of the term times a power of
`ν / ν₀ - 1`, as the documentation of the steps says (docs/schemas/WGridderPredict.yml:8-11). It depends on the time
slot, the baseline and the channel only.
-/

namespace DP3.ImagePredict

variable {K : Type} [Field K]

/-- The brightness of a facet for coordinates `(u, v, w)` and a channel. The gridder has the axes of the image the other
way around, so it must get `(-v, -u, w)` (the comment at steps/WGridderPredict.cc:276-278). -/
def stokesI (c : Wg K) (dir : Nat) (uvw : K × K × K) (ch : Nat) : Cx K :=
  ((List.range c.nTerms).map fun k => c.degrid dir k (-uvw.2.1, -uvw.1, uvw.2.2) (c.freq ch) *
    Cx.ofReal ((c.freq ch / c.refFreq - 1) ^ k)).sum

/-- Unpolarized visibilities: the same in XX and YY, nothing in XY and YX. -/
def unpolarized (c : Wg K) (f : Nat → Nat → Cx K) (bl ch p : Nat) : Cx K :=
  if bl < c.nBl ∧ ch < c.nCh ∧ (p = 0 ∨ p = 3) then f bl ch else 0

/-- The facet of which a name keeps the data: the last one with that name. -/
def lastDir (labels : List String) (name : String) : Option Nat :=
  ((labels.zipIdx.filter fun l => l.1 = name).getLast?).map Prod.snd

/-- The buffer that the step after WGridderPredict must get. -/
def wgExpected (c : Wg K) (b : Buf K) : Buf K :=
  if c.sumFacets then
    { b with data := unpolarized c fun bl ch => ((List.range c.labels.length).map fun dir => stokesI c dir (b.uvw bl) ch).sum }
  else
    { b with named := fun name => match lastDir c.labels name with
        | some dir => some (unpolarized c fun bl ch => stokesI c dir (b.uvw bl) ch)
        | none => b.named name }

/-- Without aterms the degridder does not use the time of the aterms. -/
def NoATerms (c : Idg K) : Prop := ∀ dir term t t', c.degrid dir term t = c.degrid dir term t'

/-- The visibility of all facets for coordinates, a baseline, a channel and a correlation. -/
def idgVis (c : Idg K) (time : K) (uvw : K × K × K) (bl ch p : Nat) : Cx K :=
  ((List.range c.nDirs).map fun dir => ((List.range c.nTerms).map fun k =>
    c.degrid dir k time uvw bl ch p * Cx.ofReal ((c.freq ch / c.refFreq - 1) ^ k)).sum).sum

/-- What the step after IDGPredict must get: only the data are changed, and these are the predicted visibilities. -/
def IdgResult (c : Idg K) (b b' : Buf K) : Prop :=
  b'.rest = b.rest ∧ b'.time = b.time ∧ b'.uvw = b.uvw ∧ b'.named = b.named ∧
    ∀ bl < c.nBl, ∀ ch < c.nCh, ∀ p < 4, b'.data bl ch p = idgVis c b.time (b.uvw bl) bl ch p

/-- The coordinate of a column of the model image: the phase centre is in the middle column, and `l` decreases with the
column (the comments at steps/IDGPredict.cc:313-318). -/
def lOf (width : Nat) (x : Int) (pixel : K) : K := (((width / 2 : Nat) - x : Int) : K) * pixel

/-- The coordinate of a row. -/
def mOf (height : Nat) (y : Int) (pixel : K) : K := ((y - (height / 2 : Nat) : Int) : K) * pixel

end DP3.ImagePredict
