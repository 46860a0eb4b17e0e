import Verif.Cx.Basic

/-!
# The estimation of the gains of the demixer

The loops of base/EstimateMixed.cc, base/Apply.cc and base/SubtractMixed.cc over cursors, and the equations that
are given to the least squares solver of casacore. The numbers are the elements of a ring. The solver itself is a
parameter: the model ends at its calls `makeNorm` and `solveLoop`.
-/

namespace DP3.Estimate

variable {K : Type}

/-- A `cursor`: a place in an array and the distance between neighbours along each axis. The place is an integer,
there is no end of the array. base/Cursor.h:19-35 and 88-94. -/
structure Cur where
  pos : ℤ
  stride : ℕ → ℤ

/-- `forward`, one step. base/Cursor.h:74. -/
def Cur.forward (c : Cur) (i : ℕ) : Cur := { c with pos := c.pos + c.stride i }

/-- `forward` with a count. base/Cursor.h:76. -/
def Cur.forwardN (c : Cur) (i n : ℕ) : Cur := { c with pos := c.pos + n * c.stride i }

/-- `backward` with a count. base/Cursor.h:80. -/
def Cur.backward (c : Cur) (i n : ℕ) : Cur := { c with pos := c.pos - n * c.stride i }

/-- The place that `operator[]` reads. base/Cursor.h:68-72. -/
def Cur.index (c : Cur) (n : ℕ) : ℤ := c.pos + n * c.stride 0

/-- One equation given to `LSQFit::makeNorm`: the numbers of the unknowns, their coefficients, the weight and the
observed value. base/EstimateMixed.cc:213-216. -/
structure Row (K : Type) where
  index : List ℕ
  coef : List K
  weight : K
  obs : K
  deriving DecidableEq

/-- The arrays that `estimate` reads; the data and the model per direction. base/EstimateMixed.cc:50-56. -/
structure Mem (K : Type) where
  baselines : ℤ → ℕ × ℕ
  data : ℕ → ℤ → Cx K
  model : ℕ → ℤ → Cx K
  flag : ℤ → Bool
  weight : ℤ → K
  mix : ℤ → Cx K

/-- The cursors of `estimate`. base/EstimateMixed.cc:50-56. -/
structure Curs where
  baselines : Cur
  data : ℕ → Cur
  model : ℕ → Cur
  flag : Cur
  weight : Cur
  mix : Cur

/-- One direction and correlation of `makeIndex`. base/EstimateMixed.cc:34-42. -/
def indexGroup (idx0 idx1 : ℕ) : List ℕ := [idx0, idx0 + 1, idx0 + 2, idx0 + 3, idx1, idx1 + 1, idx1 + 2, idx1 + 3]

/-- The directions of `makeIndex`, from the given indices on. base/EstimateMixed.cc:33-46. -/
def indexDirs (nSt : ℕ) : ℕ → ℕ → ℕ → List ℕ
  | 0, _, _ => []
  | n + 1, idx0, idx1 => indexGroup idx0 idx1 ++ indexDirs nSt n (idx0 + nSt * 8) (idx1 + nSt * 8)

/-- `makeIndex`. base/EstimateMixed.cc:25-48. -/
def makeIndex (nDir nSt : ℕ) (b : ℕ × ℕ) : List ℕ :=
  (List.range 4).flatMap fun cr => indexDirs nSt nDir (b.1 * 8 + (cr / 2) * 4) (b.2 * 8 + (cr % 2) * 4)

section Ring
variable [CommRing K]

/-- The Jones matrix of a station. base/EstimateMixed.cc:91-95 and base/Apply.cc:21-26. -/
def jones (u : ℕ → K) (at_ : ℕ) : M2 K :=
  ⟨⟨u at_, u (at_ + 1)⟩, ⟨u (at_ + 2), u (at_ + 3)⟩, ⟨u (at_ + 4), u (at_ + 5)⟩, ⟨u (at_ + 6), u (at_ + 7)⟩⟩

/-- The Jones matrix of the second station with all elements conjugated, not transposed.
base/EstimateMixed.cc:98-102 and base/Apply.cc:29-34. -/
def jonesConj (u : ℕ → K) (at_ : ℕ) : M2 K :=
  ⟨⟨u at_, -u (at_ + 1)⟩, ⟨u (at_ + 2), -u (at_ + 3)⟩, ⟨u (at_ + 4), -u (at_ + 5)⟩, ⟨u (at_ + 6), -u (at_ + 7)⟩⟩

/-- `M` for one direction: the model visibilities with the gains applied. base/EstimateMixed.cc:112-115, 127, 133,
139, 145 and base/Apply.cc:48-58. -/
def applied (jp jq x : M2 K) : List (Cx K) :=
  let jq00xx01xy := jq.a * x.a + jq.b * x.b
  let jq00yx01yy := jq.a * x.c + jq.b * x.d
  let jq10xx11xy := jq.c * x.a + jq.d * x.b
  let jq10yx11yy := jq.c * x.c + jq.d * x.d
  [jp.a * jq00xx01xy + jp.b * jq00yx01yy, jp.a * jq10xx11xy + jp.b * jq10yx11yy,
    jp.c * jq00xx01xy + jp.d * jq00yx01yy, jp.c * jq10xx11xy + jp.d * jq10yx11yy]

/-- `dM` for one direction. base/EstimateMixed.cc:112-115 and 128-149. -/
def derivatives (jp jq x : M2 K) : List (Cx K) :=
  let d0 := jq.a * x.a + jq.b * x.b
  let d1 := jq.a * x.c + jq.b * x.d
  let d2 := jp.a * x.a + jp.b * x.c
  let d3 := jp.a * x.b + jp.b * x.d
  let d4 := jq.c * x.a + jq.d * x.b
  let d5 := jq.c * x.c + jq.d * x.d
  let d10 := jp.c * x.a + jp.d * x.c
  let d11 := jp.c * x.b + jp.d * x.d
  [d0, d1, d2, d3, d4, d5, d2, d3, d0, d1, d10, d11, d4, d5, d10, d11]

/-- The coefficients for the real part. base/EstimateMixed.cc:166-202, the lines of `dR`. -/
def coefR (w : Cx K) (dM : List (Cx K)) (cr : ℕ) : List K :=
  let d0 := w * dM.getD (cr * 4) 0
  let d1 := w * dM.getD (cr * 4 + 1) 0
  let d2 := w * dM.getD (cr * 4 + 2) 0
  let d3 := w * dM.getD (cr * 4 + 3) 0
  [d0.re, -d0.im, d1.re, -d1.im, d2.re, d2.im, d3.re, d3.im]

/-- The coefficients for the imaginary part. base/EstimateMixed.cc:166-202, the lines of `dI`. -/
def coefI (w : Cx K) (dM : List (Cx K)) (cr : ℕ) : List K :=
  let d0 := w * dM.getD (cr * 4) 0
  let d1 := w * dM.getD (cr * 4 + 1) 0
  let d2 := w * dM.getD (cr * 4 + 2) 0
  let d3 := w * dM.getD (cr * 4 + 3) 0
  [d0.im, d0.re, d1.im, d1.re, d2.im, -d2.re, d3.im, -d3.re]

/-- The four model visibilities at a cursor. base/EstimateMixed.cc:105-108. -/
def modelAt (mem : Mem K) (c : Curs) (dr : ℕ) : M2 K :=
  ⟨mem.model dr ((c.model dr).index 0), mem.model dr ((c.model dr).index 1), mem.model dr ((c.model dr).index 2),
    mem.model dr ((c.model dr).index 3)⟩

/-- What the loop over the sources changes: the cursor of the mixing factors, the visibility and the coefficients.
base/EstimateMixed.cc:156-157. -/
structure Src (K : Type) where
  mix : Cur
  vis : Cx K
  dR : List K
  dI : List K

/-- One source direction. The coefficients are appended, where the code writes at `dr * 8`.
base/EstimateMixed.cc:157-206. -/
def srcStep (mem : Mem K) (c : Curs) (nSt : ℕ) (u : ℕ → K) (p q cr : ℕ) (s : Src K) (dr : ℕ) : Src K :=
  let jp := jones u (dr * nSt * 8 + p * 8)
  let jq := jonesConj u (dr * nSt * 8 + q * 8)
  let x := modelAt mem c dr
  let w := mem.mix s.mix.pos
  let dM := derivatives jp jq x
  { mix := s.mix.forward 1, vis := s.vis + w * (applied jp jq x).getD cr 0, dR := s.dR ++ coefR w dM cr, dI := s.dI ++ coefI w dM cr }

/-- One target direction. base/EstimateMixed.cc:155-221. -/
def tgStep (mem : Mem K) (c : Curs) (nDir nSt : ℕ) (u : ℕ → K) (p q cr : ℕ) (s : Cur × List (Row K)) (tg : ℕ) : Cur × List (Row K) :=
  let r := (List.range nDir).foldl (srcStep mem c nSt u p q cr) ⟨s.1, 0, [], []⟩
  let res := mem.data tg ((c.data tg).index cr) - r.vis
  let idx := ((makeIndex nDir nSt (p, q)).drop (cr * (nDir * 8))).take (nDir * 8)
  let w := mem.weight (c.weight.index cr)
  ((r.mix.backward 1 nDir).forward 0, s.2 ++ [⟨idx, r.dR, w, res.re⟩, ⟨idx, r.dI, w, res.im⟩])

/-- One correlation. base/EstimateMixed.cc:152-229. -/
def crStep (mem : Mem K) (c : Curs) (nDir nSt : ℕ) (u : ℕ → K) (p q : ℕ) (s : Cur × List (Row K)) (cr : ℕ) : Cur × List (Row K) :=
  if mem.flag (c.flag.index cr) then (s.1.forward 2, s.2)
  else
    let r := (List.range nDir).foldl (tgStep mem c nDir nSt u p q cr) s
    ((r.1.backward 0 nDir).forward 2, r.2)

/-- One channel. base/EstimateMixed.cc:88-241. -/
def chStep (mem : Mem K) (nDir nSt : ℕ) (u : ℕ → K) (p q : ℕ) (s : Curs × List (Row K)) (_ch : ℕ) : Curs × List (Row K) :=
  let r := (List.range 4).foldl (crStep mem s.1 nDir nSt u p q) (s.1.mix, s.2)
  ({ s.1 with mix := (r.1.backward 2 4).forward 3, model := fun d => (s.1.model d).forward 1, data := fun d => (s.1.data d).forward 1, flag := s.1.flag.forward 1, weight := s.1.weight.forward 1 }, r.2)

/-- One baseline. base/EstimateMixed.cc:80-262. -/
def blStep (mem : Mem K) (nDir nSt nCh : ℕ) (u : ℕ → K) (s : Curs × List (Row K)) (_bl : ℕ) : Curs × List (Row K) :=
  let b := mem.baselines s.1.baselines.pos
  let r :=
    if b.1 ≠ b.2 then
      let r := (List.range nCh).foldl (chStep mem nDir nSt u b.1 b.2) s
      ({ r.1 with model := fun d => (r.1.model d).backward 1 nCh, data := fun d => (r.1.data d).backward 1 nCh, flag := r.1.flag.backward 1 nCh, weight := r.1.weight.backward 1 nCh, mix := r.1.mix.backward 3 nCh }, r.2)
    else s
  ({ r.1 with model := fun d => (r.1.model d).forward 2, data := fun d => (r.1.data d).forward 2, flag := r.1.flag.forward 2, weight := r.1.weight.forward 2, mix := r.1.mix.forward 4, baselines := r.1.baselines.forward 0 }, r.2)

/-- One iteration, up to the call of the solver: the cursors afterwards and the equations.
base/EstimateMixed.cc:80-272. -/
def iteration (mem : Mem K) (nDir nSt nBl nCh : ℕ) (u : ℕ → K) (c : Curs) : Curs × List (Row K) :=
  let r := (List.range nBl).foldl (blStep mem nDir nSt nCh u) (c, [])
  ({ r.1 with model := fun d => (r.1.model d).backward 2 nBl, data := fun d => (r.1.data d).backward 2 nBl, flag := r.1.flag.backward 2 nBl, weight := r.1.weight.backward 2 nBl, mix := r.1.mix.backward 4 nBl, baselines := r.1.baselines.backward 0 nBl }, r.2)

/-- The iterations of `estimate`. The solver gives the new unknowns and whether it is ready; that it has forgotten
the equations of earlier iterations is taken for granted. The number that is left of `maxiter` is counted down.
base/EstimateMixed.cc:77-281. -/
def estimate (mem : Mem K) (nDir nSt nBl nCh : ℕ) (solve : List (Row K) → (ℕ → K) → (ℕ → K) × Bool) :
    ℕ → Curs → (ℕ → K) → (ℕ → K) × Bool
  | 0, _, u => (u, false)
  | n + 1, c, u =>
    let r := iteration mem nDir nSt nBl nCh u c
    let s := solve r.2 u
    if s.2 then s else estimate mem nDir nSt nBl nCh solve n r.1 s.1

/-- The normal matrix that `LSQFit::makeNorm` builds from the equations (casacore, not in the repository). -/
def normal (rows : List (Row K)) (i j : ℕ) : K :=
  (rows.map fun r => ((r.index.zip r.coef).map fun a => ((r.index.zip r.coef).map fun b =>
    if a.1 = i ∧ b.1 = j then r.weight * (a.2 * b.2) else 0).sum).sum).sum

/-- The known side that `LSQFit::makeNorm` builds from the equations (casacore, not in the repository). -/
def known (rows : List (Row K)) (i : ℕ) : K :=
  (rows.map fun r => ((r.index.zip r.coef).map fun a => if a.1 = i then r.weight * (a.2 * r.obs) else 0).sum).sum

/-- Writing at a place of an array. base/Apply.cc:55-58. -/
def put (m : ℤ → Cx K) (a : ℤ) (v : Cx K) : ℤ → Cx K := fun b => if b = a then v else m b

/-- One channel of `apply`. base/Apply.cc:38-62. -/
def applyCh (jp jq : M2 K) (s : Cur × (ℤ → Cx K)) (_ch : ℕ) : Cur × (ℤ → Cx K) :=
  let x : M2 K := ⟨s.2 (s.1.index 0), s.2 (s.1.index 1), s.2 (s.1.index 2), s.2 (s.1.index 3)⟩
  let v := applied jp jq x
  (s.1.forward 1, put (put (put (put s.2 (s.1.index 0) (v.getD 0 0)) (s.1.index 1) (v.getD 1 0)) (s.1.index 2) (v.getD 2 0)) (s.1.index 3) (v.getD 3 0))

/-- One baseline of `apply`; the cursor of the coefficients has strides 1 and 8 (steps/Demixer.cc:1093) and is
back at its start. base/Apply.cc:15-71. -/
def applyBl (bl : ℤ → ℕ × ℕ) (u : ℕ → K) (nCh : ℕ) (s : Cur × Cur × (ℤ → Cx K)) (_bl : ℕ) : Cur × Cur × (ℤ → Cx K) :=
  let b := bl s.1.pos
  let r :=
    if b.1 ≠ b.2 then
      let r := (List.range nCh).foldl (applyCh (jones u (b.1 * 8)) (jonesConj u (b.2 * 8))) s.2
      (r.1.backward 1 nCh, r.2)
    else s.2
  (s.1.forward 0, r.1.forward 2, r.2)

/-- `apply`. base/Apply.cc:13-72. -/
def apply (bl : ℤ → ℕ × ℕ) (u : ℕ → K) (nBl nCh : ℕ) (baselines data : Cur) (m : ℤ → Cx K) : ℤ → Cx K :=
  ((List.range nBl).foldl (applyBl bl u nCh) (baselines, data, m)).2.2

/-- The cursors of `subtract` and the data. base/SubtractMixed.cc:14-19. -/
structure Sub (K : Type) where
  data : Cur
  model : Cur
  weight : Cur
  mem : ℤ → Cx K

/-- One correlation of `subtract`; the variances are left out. base/SubtractMixed.cc:31-36, 37-40, 41-44 and 47-52. -/
def subCr (model weight : ℤ → Cx K) (s : Sub K) (_cr : ℕ) : Sub K :=
  { data := s.data.forward 0, model := s.model.forward 0, weight := s.weight.forward 0, mem := put s.mem s.data.pos (s.mem s.data.pos - weight s.weight.pos * model s.model.pos) }

/-- One channel of `subtract`. base/SubtractMixed.cc:27-61. -/
def subCh (model weight : ℤ → Cx K) (s : Sub K) (_ch : ℕ) : Sub K :=
  let r := (List.range 4).foldl (subCr model weight) s
  { r with data := (r.data.backward 0 4).forward 1, model := (r.model.backward 0 4).forward 1, weight := (r.weight.backward 0 4).forward 1 }

/-- One baseline of `subtract`. base/SubtractMixed.cc:21-73. -/
def subBl (bl : ℤ → ℕ × ℕ) (model weight : ℤ → Cx K) (nCh : ℕ) (s : Cur × Sub K) (_bl : ℕ) : Cur × Sub K :=
  let b := bl s.1.pos
  let r :=
    if b.1 ≠ b.2 then
      let r := (List.range nCh).foldl (subCh model weight) s.2
      { r with data := r.data.backward 1 nCh, model := r.model.backward 1 nCh, weight := r.weight.backward 1 nCh }
    else s.2
  (s.1.forward 0, { r with data := r.data.forward 2, model := r.model.forward 2, weight := r.weight.forward 2 })

/-- `subtract`. base/SubtractMixed.cc:14-74. -/
def subtract (bl : ℤ → ℕ × ℕ) (model weight : ℤ → Cx K) (nBl nCh : ℕ) (baselines : Cur) (s : Sub K) : ℤ → Cx K :=
  ((List.range nBl).foldl (subBl bl model weight nCh) (baselines, s)).2.mem

/-- The cursor of an array of visibilities without gaps. steps/Demixer.cc:960, 1054 and base/CursorUtilCasa.h:18-26. -/
def dense (pos : ℤ) (nCh : ℕ) : Cur := ⟨pos, fun i => if i = 0 then 1 else if i = 1 then 4 else if i = 2 then 4 * nCh else 0⟩

/-- The cursor over the mixing factors from one source to the target, the last direction. steps/Demixer.cc:1119-1135. -/
def mixSlice (nDir nCh dr : ℕ) : Cur :=
  ⟨(nDir - 1 : ℤ) + dr * nDir, fun i => if i = 0 then nDir * nDir else if i = 1 then nDir * nDir * 4 else if i = 2 then nDir * nDir * 4 * nCh else 0⟩

/-- The cursor of the baselines. steps/Demixer.cc:943. -/
def blCursor : Cur := ⟨0, fun i => if i = 0 then 1 else 0⟩

/-- The subtraction of the sources at one time: the gains are applied to the model of each source, which is then
subtracted. steps/Demixer.cc:1046-1143. -/
def subtractSources (bl : ℤ → ℕ × ℕ) (u : ℕ → K) (nDir nSt nBl nCh nSubtr : ℕ) (model : ℕ → ℤ → Cx K) (mix : ℤ → Cx K)
    (res : ℤ → Cx K) : ℤ → Cx K :=
  (List.range nSubtr).foldl (fun r dr => subtract bl (apply bl (fun i => u (dr * nSt * 8 + i)) nBl nCh blCursor (dense 0 nCh) (model dr)) mix nBl nCh blCursor
    ⟨dense 0 nCh, dense 0 nCh, mixSlice nDir nCh dr, r⟩) res

end Ring

end DP3.Estimate
