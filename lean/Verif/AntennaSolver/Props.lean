import Verif.AntennaSolver.Lemmas

/-!
# Properties of the antenna solver
-/

namespace DP3.AntennaSolver

set_option linter.unusedSimpArgs false
set_option linter.unusedSectionVars false

open Finset (range)

variable {K : Type} [CommRing K]

/-- The model of a visibility with the gains of its antennas: element `p, q` is the product of the gain of the first antenna
for `p`, the model and the conjugate of the gain of the second antenna for `q`. -/
def predicted (x : Nat → K) (v : Vis K) : M2 K :=
  let g : Nat → Nat → Cx K := fun a p => ⟨x (a * 4 + p * 2), x (a * 4 + p * 2 + 1)⟩
  ⟨g v.a1 0 * v.model.a * (g v.a2 0).conj, g v.a1 0 * v.model.b * (g v.a2 1).conj,
   g v.a1 1 * v.model.c * (g v.a2 0).conj, g v.a1 1 * v.model.d * (g v.a2 1).conj⟩

private theorem forSolution_some {s : Nat} {f : Vis K → M2 K} {vs : List (Vis K)} {x y : Vec K}
    (h : forSolution s f vs x = some y) : Fits s vs x.size ∧ y = ⟨x.size, filled s f vs x.get⟩ := by
  by_cases hf : Fits s vs x.size
  · rw [(forSolution_eq s f vs x).1 hf] at h
    exact ⟨hf, (Option.some.inj h).symm⟩
  · rw [(forSolution_eq s f vs x).2 hf] at h
    simp at h

/-! ## The function and its derivatives -/

/-- C222: the vectors that the solver gives to GSL as the derivative and as the second derivative in a direction are those
of its function: changing all solutions by `t * u` changes the function to precisely the sum with the terms of first and
second order. -/
theorem expansion (s : Nat) (vs : List (Vis K)) (x u : Nat → K) (t : K) (f v w f0 f1 d dd : Vec K)
    (h1 : penaltyFunction s vs (fun i => x i + t * u i) f = some f1) (h0 : penaltyFunction s vs x f = some f0)
    (hd : penaltyDerivative s vs x u v = some d) (hdd : penaltyVV s vs u w = some dd) (i : Nat) :
    2 * f1.get i = 2 * f0.get i + 2 * t * d.get i + t * t * dd.get i := by
  obtain ⟨_, rfl⟩ := forSolution_some h1
  obtain ⟨_, rfl⟩ := forSolution_some h0
  obtain ⟨_, rfl⟩ := forSolution_some hd
  obtain ⟨_, rfl⟩ := forSolution_some hdd
  simp only [filled, Vec.zero]
  cases hv : vs[i / 8]? with
  | none => simp
  | some vis =>
    dsimp only
    by_cases hs : vis.sol = s
    · simp only [if_pos hs, part, element]
      have : i % 8 = 0 ∨ i % 8 = 1 ∨ i % 8 = 2 ∨ i % 8 = 3 ∨ i % 8 = 4 ∨ i % 8 = 5 ∨ i % 8 = 6 ∨ i % 8 = 7 := by omega
      rcases this with e | e | e | e | e | e | e | e <;> rw [e] <;>
        simp [getSolution, D2.toM2, D2.herm, M2.smul] <;> ring
    · simp [if_neg hs]

/-- The sum of an expression over all elements of two filled vectors. -/
private theorem dot_filled (s : Nat) (f : Vis K → M2 K) (vs : List (Vis K)) (hs : ∀ v ∈ vs, v.sol = s) (g u : Nat → K) :
    dot (vs.length * 8) u (filled s f vs g) = (vs.zipIdx.map fun e => ip
      ⟨⟨u (e.2 * 8), u (e.2 * 8 + 1)⟩, ⟨u (e.2 * 8 + 2), u (e.2 * 8 + 3)⟩, ⟨u (e.2 * 8 + 4), u (e.2 * 8 + 5)⟩,
        ⟨u (e.2 * 8 + 6), u (e.2 * 8 + 7)⟩⟩ (f e.1)).sum := by
  unfold dot
  rw [sum_blocks]
  have := sum_zipIdx vs 0 fun v k => ip
      ⟨⟨u (k * 8), u (k * 8 + 1)⟩, ⟨u (k * 8 + 2), u (k * 8 + 3)⟩, ⟨u (k * 8 + 4), u (k * 8 + 5)⟩,
        ⟨u (k * 8 + 6), u (k * 8 + 7)⟩⟩ (f v)
  rw [← this]
  refine Finset.sum_congr rfl ?_
  intro k hk
  have hk' := Finset.mem_range.mp hk
  have hv : vs[k]? = some vs[k] := List.getElem?_eq_getElem hk'
  rw [hv]
  dsimp only
  rw [Nat.zero_add, ← dot_part]
  refine Finset.sum_congr rfl ?_
  intro c hc
  have hc' := Finset.mem_range.mp hc
  have e1 : (k * 8 + c) / 8 = k := by omega
  have e2 : (k * 8 + c) % 8 = c := by omega
  simp only [filled, e1, e2, hv, hs _ (List.getElem_mem hk'), if_true]
  interval_cases c <;> rfl

private theorem sum_zipIdx_fst (vs : List (Vis K)) (off : Nat) (g : Vis K → K) :
    ((vs.zipIdx off).map fun e => g e.1).sum = (vs.map g).sum := by
  induction vs generalizing off with
  | nil => simp
  | cons v vs ih => rw [List.zipIdx_cons, List.map_cons, List.sum_cons, ih, List.map_cons, List.sum_cons]

private theorem fits_all (s : Nat) (vs : List (Vis K)) : Fits s vs (vs.length * 8) := by
  intro k v hv _
  have := (List.getElem?_eq_some_iff.mp hv).1
  omega

/-- C222: if all visibilities have the solution, then what GSL minimizes is the sum of squared differences of the data and
the model with gains. -/
theorem cost (s : Nat) (vs : List (Vis K)) (hs : ∀ v ∈ vs, v.sol = s) (x : Nat → K) (f f0 : Vec K)
    (h0 : penaltyFunction s vs x f = some f0) :
    dot (vs.length * 8) f0.get f0.get = (vs.map fun v => M2.norm (v.data - predicted x v)).sum := by
  obtain ⟨_, rfl⟩ := forSolution_some h0
  dsimp only
  rw [dot_filled s _ vs hs]
  rw [← sum_zipIdx_fst vs 0]
  congr 1
  refine List.map_congr_left ?_
  intro e he
  obtain ⟨v, k⟩ := e
  have hk : vs[k]? = some v := by
    have := List.mem_zipIdx he
    simp only [Nat.sub_zero] at this
    rw [List.getElem?_eq_some_iff]
    exact ⟨by omega, this.2.2.symm⟩
  have hv := hs v (List.mem_of_getElem? hk)
  dsimp only
  have hp : ∀ c < 8, filled s (fun v => (getSolution x v.a1).toM2 * v.model * (getSolution x v.a2).herm.toM2 - v.data)
      vs f.get (k * 8 + c) =
      part ((getSolution x v.a1).toM2 * v.model * (getSolution x v.a2).herm.toM2 - v.data) c := by
    intro c hc
    have e1 : (k * 8 + c) / 8 = k := by omega
    have e2 : (k * 8 + c) % 8 = c := by omega
    simp only [filled, e1, e2, hk, hv, if_true]
  have hp0 := hp 0 (by omega)
  rw [Nat.add_zero] at hp0
  rw [hp0, hp 1 (by omega), hp 2 (by omega), hp 3 (by omega), hp 4 (by omega), hp 5 (by omega), hp 6 (by omega),
    hp 7 (by omega)]
  simp [ip, part, element, predicted, M2.norm, Cx.normSq, M2.trace, M2.herm, getSolution, D2.toM2, D2.herm]
  ring

/-! ## The transposed derivative -/

private theorem foldlM_transposed (s : Nat) (n : Nat) (x w : Nat → K) (u : Vec K) (l : List (Vis K × Nat)) :
    (∀ e ∈ l, e.1.sol = s) → (∀ e ∈ l, e.2 * 8 + 8 ≤ u.size) → (∀ e ∈ l, e.1.a1 < n ∧ e.1.a2 < n) → ∀ v0 : Nat → K,
    ∃ v, l.foldlM (fun v (e : Vis K × Nat) =>
      if e.1.sol ≠ s then some v else (getVisibility u e.2).map fun m => transposedStep x e.1 m v) v0 = some v ∧
      dot (n * 4) v w = dot (n * 4) v0 w + (l.map fun e =>
        let m : M2 K := ⟨⟨u.get (e.2 * 8), u.get (e.2 * 8 + 1)⟩, ⟨u.get (e.2 * 8 + 2), u.get (e.2 * 8 + 3)⟩,
          ⟨u.get (e.2 * 8 + 4), u.get (e.2 * 8 + 5)⟩, ⟨u.get (e.2 * 8 + 6), u.get (e.2 * 8 + 7)⟩⟩
        ipd (diagonal (m.herm * e.1.model * (getSolution x e.1.a2).herm.toM2)) (getSolution w e.1.a1) +
          ip m ((getSolution x e.1.a1).toM2 * e.1.model * (getSolution w e.1.a2).herm.toM2)).sum := by
  induction l with
  | nil =>
    intro _ _ _ v0
    exact ⟨v0, rfl, by simp⟩
  | cons e l ih =>
    intro h1 h2 h3 v0
    have he := getVisibility_eq u e.2 (h2 e (by simp))
    obtain ⟨v, hv, hd⟩ := ih (fun e he => h1 e (by simp [he])) (fun e he => h2 e (by simp [he]))
      (fun e he => h3 e (by simp [he])) (transposedStep x e.1 _ v0)
    refine ⟨v, ?_, ?_⟩
    · rw [List.foldlM_cons, if_neg (by simp [h1 e (by simp)]), he]
      exact hv
    · rw [hd, List.map_cons, List.sum_cons, ← add_assoc]
      congr 1
      obtain ⟨h31, h32⟩ := h3 e (by simp)
      unfold transposedStep
      dsimp only
      rw [dot_addSolution _ _ _ _ h32, dot_addSolution _ _ _ _ h31, add_assoc]
      congr 2
      simp [ipd, ip, diagonal, M2.herm, M2.trace, getSolution, D2.toM2, D2.herm]
      ring

private theorem mem_zipIdx_bound {vs : List (Vis K)} {e : Vis K × Nat} (he : e ∈ vs.zipIdx) :
    e.1 ∈ vs ∧ e.2 < vs.length := by
  obtain ⟨v, k⟩ := e
  have := List.mem_zipIdx he
  simp only [Nat.sub_zero] at this
  refine ⟨?_, by simp; omega⟩
  simp only
  rw [this.2.2]
  exact List.getElem_mem _

/-- C223, for changes `w` of antennas that are only the second one of visibilities; for others the claim is false
(`gradient_wrong`): the product with the transposed derivative is what it should be, that is, its inner product with a
change is the inner product of its argument with the derivative in that direction. -/
theorem transposed_partial (s n : Nat) (vs : List (Vis K)) (hs : ∀ v ∈ vs, v.sol = s) (hn : ∀ v ∈ vs, v.a1 < n ∧ v.a2 < n)
    (x w : Nat → K) (u v : Vec K) (hu : u.size = vs.length * 8) (hw : ∀ v ∈ vs, getSolution w v.a1 = 0) (g : Nat → K)
    (d : Vec K) (hg : penaltyTransposed s vs x u = some g) (hd : penaltyDerivative s vs x w v = some d) :
    dot (n * 4) g w = dot (vs.length * 8) u.get d.get := by
  obtain ⟨_, rfl⟩ := forSolution_some hd
  dsimp only
  rw [dot_filled s _ vs hs]
  obtain ⟨g', hg', hdot⟩ := foldlM_transposed s n x w u vs.zipIdx (fun e he => hs _ (mem_zipIdx_bound he).1)
    (fun e he => by have := (mem_zipIdx_bound he).2; omega) (fun e he => hn _ (mem_zipIdx_bound he).1) (fun _ => 0)
  unfold penaltyTransposed at hg
  rw [hg'] at hg
  obtain rfl := Option.some.inj hg
  rw [hdot]
  have h0 : dot (n * 4) (fun _ => (0 : K)) w = 0 := by simp [dot]
  rw [h0, zero_add]
  congr 1
  refine List.map_congr_left ?_
  intro e he
  have hw' := hw _ (mem_zipIdx_bound he).1
  dsimp only
  rw [hw']
  simp [ipd, ip, M2.trace, M2.herm, D2.toM2]

/-- C223: for all changes the inner product is the one with the derivative, except for the terms of the first antennas: where
it should have `diag(U (M g₂ᴴ)ᴴ)`, it has `diag(Uᴴ M g₂ᴴ)`. -/
theorem transposed_first (s n : Nat) (vs : List (Vis K)) (hs : ∀ v ∈ vs, v.sol = s) (hn : ∀ v ∈ vs, v.a1 < n ∧ v.a2 < n)
    (x w : Nat → K) (u v : Vec K) (hu : u.size = vs.length * 8) (g : Nat → K) (d : Vec K)
    (hg : penaltyTransposed s vs x u = some g) (hd : penaltyDerivative s vs x w v = some d) :
    dot (n * 4) g w = dot (vs.length * 8) u.get d.get + (vs.zipIdx.map fun e =>
      let m : M2 K := ⟨⟨u.get (e.2 * 8), u.get (e.2 * 8 + 1)⟩, ⟨u.get (e.2 * 8 + 2), u.get (e.2 * 8 + 3)⟩,
        ⟨u.get (e.2 * 8 + 4), u.get (e.2 * 8 + 5)⟩, ⟨u.get (e.2 * 8 + 6), u.get (e.2 * 8 + 7)⟩⟩
      let a := e.1.model * (getSolution x e.1.a2).herm.toM2
      ipd (diagonal (m.herm * a) - diagonal (m * a.herm)) (getSolution w e.1.a1)).sum := by
  obtain ⟨_, rfl⟩ := forSolution_some hd
  dsimp only
  rw [dot_filled s _ vs hs]
  obtain ⟨g', hg', hdot⟩ := foldlM_transposed s n x w u vs.zipIdx (fun e he => hs _ (mem_zipIdx_bound he).1)
    (fun e he => by have := (mem_zipIdx_bound he).2; omega) (fun e he => hn _ (mem_zipIdx_bound he).1) (fun _ => 0)
  unfold penaltyTransposed at hg
  rw [hg'] at hg
  obtain rfl := Option.some.inj hg
  rw [hdot]
  have h0 : dot (n * 4) (fun _ => (0 : K)) w = 0 := by simp [dot]
  rw [h0, zero_add, ← List.sum_map_add]
  congr 1
  refine List.map_congr_left ?_
  intro e _
  simp [ipd, ip, diagonal, M2.herm, M2.trace, getSolution, D2.toM2, D2.herm]
  ring

/-- C223: solutions with which the model is equal to the data are a stationary point for GSL: the product of the transposed
derivative and the function is zero, so that they are not changed. -/
theorem exact_stationary (s : Nat) (vs : List (Vis K)) (hs : ∀ v ∈ vs, v.sol = s) (x : Nat → K) (f : Vec K)
    (hf : f.size = vs.length * 8) (hx : ∀ v ∈ vs, v.data = predicted x v) :
    ∃ f0, penaltyFunction s vs x f = some f0 ∧ (∀ i < f0.size, f0.get i = 0) ∧
      penaltyTransposed s vs x f0 = some fun _ => 0 := by
  have hfits : Fits s vs f.size := by rw [hf]; exact fits_all s vs
  refine ⟨⟨f.size, filled s _ vs f.get⟩, (forSolution_eq s _ vs f).1 hfits, ?_, ?_⟩
  · intro i hi
    dsimp only at hi ⊢
    have hlt : i / 8 < vs.length := by omega
    have hv : vs[i / 8]? = some vs[i / 8] := List.getElem?_eq_getElem hlt
    have hm := List.getElem_mem hlt
    simp only [filled, hv, hs _ hm, if_true, hx _ hm]
    have : i % 8 = 0 ∨ i % 8 = 1 ∨ i % 8 = 2 ∨ i % 8 = 3 ∨ i % 8 = 4 ∨ i % 8 = 5 ∨ i % 8 = 6 ∨ i % 8 = 7 := by omega
    rcases this with e | e | e | e | e | e | e | e <;> rw [e] <;>
      simp [part, element, getSolution, D2.toM2, D2.herm, predicted]
  · have hz : ∀ i < f.size, filled s (fun v => (getSolution x v.a1).toM2 * v.model * (getSolution x v.a2).herm.toM2 - v.data)
        vs f.get i = 0 := by
      intro i hi
      have hlt : i / 8 < vs.length := by omega
      have hv : vs[i / 8]? = some vs[i / 8] := List.getElem?_eq_getElem hlt
      have hm := List.getElem_mem hlt
      simp only [filled, hv, hs _ hm, if_true, hx _ hm]
      have : i % 8 = 0 ∨ i % 8 = 1 ∨ i % 8 = 2 ∨ i % 8 = 3 ∨ i % 8 = 4 ∨ i % 8 = 5 ∨ i % 8 = 6 ∨ i % 8 = 7 := by omega
      rcases this with e | e | e | e | e | e | e | e <;> rw [e] <;>
        simp [part, element, getSolution, D2.toM2, D2.herm, predicted]
    unfold penaltyTransposed
    have hl : ∀ e ∈ vs.zipIdx, e.1.sol = s ∧ e.2 * 8 + 8 ≤ f.size := by
      intro e he
      have := mem_zipIdx_bound he
      exact ⟨hs _ this.1, by omega⟩
    generalize vs.zipIdx = l at hl
    generalize hgf : filled s (fun v => (getSolution x v.a1).toM2 * v.model * (getSolution x v.a2).herm.toM2 - v.data)
      vs f.get = gf at hz ⊢
    clear hgf
    induction l with
    | nil => rfl
    | cons e l ih =>
      obtain ⟨h1, h2⟩ := hl e (by simp)
      rw [List.foldlM_cons, if_neg (by simp [h1]), getVisibility_eq ⟨f.size, gf⟩ e.2 h2]
      dsimp only
      rw [hz _ (by omega), hz _ (by omega), hz _ (by omega), hz _ (by omega), hz _ (by omega), hz _ (by omega),
        hz _ (by omega), hz _ (by omega)]
      have hstep : transposedStep x e.1 ⟨⟨0, 0⟩, ⟨0, 0⟩, ⟨0, 0⟩, ⟨0, 0⟩⟩ (fun _ => (0 : K)) = fun _ => 0 := by
        have h0 : (⟨⟨0, 0⟩, ⟨0, 0⟩, ⟨0, 0⟩, ⟨0, 0⟩⟩ : M2 K) = 0 := rfl
        rw [h0]
        funext i
        simp [transposedStep, addSolution, diagonal, M2.herm, Function.update]
      rw [Option.map_some, hstep]
      exact ih fun e he => hl e (by simp [he])

/-- The solutions of two antennas, with the same gain for both polarizations. -/
private def two (a b : Cx Int) (i : Nat) : Int :=
  if i = 0 ∨ i = 2 then a.re else if i = 1 ∨ i = 3 then a.im else if i = 4 ∨ i = 6 then b.re else b.im

/-- A visibility of which model and data are numbers. -/
private def plain (m d : Cx Int) : Vis Int := ⟨0, 0, 1, ⟨d, 0, 0, d⟩, ⟨m, 0, 0, m⟩⟩

/-- C223: what the transposed derivative gives is not the gradient. With gains 1 and 2, and data such that the function
is `i`, going along the vector that should be the gradient of half the cost lowers the cost at first: its
inner product with the derivative is negative. The same for the true gradient is positive. -/
theorem gradient_wrong : ∃ f0 g d : Nat → Int,
    (penaltyFunction 0 [plain 1 ⟨2, -1⟩] (two 1 2) ⟨8, fun _ => 0⟩).map Vec.get = some f0 ∧
    penaltyTransposed 0 [plain 1 ⟨2, -1⟩] (two 1 2) ⟨8, f0⟩ = some g ∧
    (penaltyDerivative 0 [plain 1 ⟨2, -1⟩] (two 1 2) g ⟨8, fun _ => 0⟩).map Vec.get = some d ∧
    dot 8 f0 d < 0 ∧ dot 8 g g ≠ dot 8 f0 d :=
  ⟨_, _, _, rfl, rfl, rfl, by decide, by decide⟩

/-! ## The matrix -/

private theorem blockEntry_herm (t : M2 K) (p q : Nat) (hp : p < 4) (hq : q < 4) :
    blockEntry t.herm q p = blockEntry t p q := by
  interval_cases p <;> interval_cases q <;> simp [blockEntry, element, M2.herm]

private theorem step_symmetric (x : Nat → K) (vis : Vis K) (m : Nat → Nat → K) (hm : ∀ i j, m i j = m j i) (i j : Nat) :
    jtjStep x vis m i j = jtjStep x vis m j i := by
  unfold jtjStep
  simp only [addSolutionToMatrix_eq]
  generalize (vis.model * (getSolution x vis.a2).herm.toM2) = a
  generalize ((getSolution x vis.a1).toM2 * vis.model) = b
  have hself : ∀ (a : M2 K) r, (if i / 4 = r ∧ j / 4 = r then blockEntry (a.herm * a) (i % 4) (j % 4) else 0) =
      if j / 4 = r ∧ i / 4 = r then blockEntry (a.herm * a) (j % 4) (i % 4) else 0 := by
    intro a r
    have : (a.herm * a).herm = a.herm * a := by rw [M2.herm_mul, M2.herm_herm]
    rw [← blockEntry_herm (a.herm * a) (i % 4) (j % 4) (by omega) (by omega), this]
    simp only [and_comm]
  have hcross : ∀ (i j : Nat), (if i / 4 = vis.a1 ∧ j / 4 = vis.a2 then blockEntry (a.herm * b) (i % 4) (j % 4) else 0) =
      if j / 4 = vis.a2 ∧ i / 4 = vis.a1 then blockEntry (a.herm * b).herm (j % 4) (i % 4) else 0 := by
    intro i j
    rw [blockEntry_herm (a.herm * b) (i % 4) (j % 4) (by omega) (by omega)]
    simp only [and_comm]
  rw [hm i j, hself a, hself b, hcross i j, hcross j i]
  ring

/-- C224: the matrix is symmetric. -/
theorem jtj_symmetric (s : Nat) (vs : List (Vis K)) (x : Nat → K) (i j : Nat) :
    penaltyJtj s vs x i j = penaltyJtj s vs x j i := by
  unfold penaltyJtj
  have : ∀ (vs : List (Vis K)) (m : Nat → Nat → K), (∀ i j, m i j = m j i) →
      ∀ i j, (vs.foldl (fun m vis => if vis.sol ≠ s then m else jtjStep x vis m) m) i j =
        (vs.foldl (fun m vis => if vis.sol ≠ s then m else jtjStep x vis m) m) j i := by
    intro vs
    induction vs with
    | nil => intro m hm; exact hm
    | cons v vs ih =>
      intro m hm
      rw [List.foldl_cons]
      apply ih
      by_cases hv : v.sol ≠ s
      · rw [if_pos hv]; exact hm
      · rw [if_neg hv]; exact step_symmetric x v m hm
  exact this vs _ (fun _ _ => rfl) i j

/-- The vector of conjugates of a diagonal, as the first column of a matrix. -/
private def column (w : D2 K) : M2 K := ⟨w.x.conj, 0, w.y.conj, 0⟩

private theorem form_step (n : Nat) (x w : Nat → K) (vis : Vis K) (h1 : vis.a1 < n) (h2 : vis.a2 < n) (m : Nat → Nat → K) :
    form (n * 4) (jtjStep x vis m) w w = form (n * 4) m w w +
      M2.norm (vis.model * (getSolution x vis.a2).herm.toM2 * column (getSolution w vis.a1) +
        (getSolution x vis.a1).toM2 * vis.model * column (getSolution w vis.a2)) := by
  unfold jtjStep
  dsimp only
  rw [form_add _ _ _ _ _ _ h2 h1, form_add _ _ _ _ _ _ h1 h2, form_add _ _ _ _ _ _ h2 h2, form_add _ _ _ _ _ _ h1 h1]
  generalize (vis.model * (getSolution x vis.a2).herm.toM2) = a
  generalize ((getSolution x vis.a1).toM2 * vis.model) = b
  generalize getSolution w vis.a1 = w1
  generalize getSolution w vis.a2 = w2
  simp only [add_assoc]
  congr 1
  simp [blockForm, column, M2.norm, M2.herm, Cx.normSq]
  ring

private theorem form_jtj (s n : Nat) (vs : List (Vis K)) (hs : ∀ v ∈ vs, v.a1 < n ∧ v.a2 < n) (x w : Nat → K) :
    form (n * 4) (penaltyJtj s vs x) w w = ((vs.filter fun v => v.sol = s).map fun vis =>
      M2.norm (vis.model * (getSolution x vis.a2).herm.toM2 * column (getSolution w vis.a1) +
        (getSolution x vis.a1).toM2 * vis.model * column (getSolution w vis.a2))).sum := by
  unfold penaltyJtj
  have : ∀ (vs : List (Vis K)), (∀ v ∈ vs, v.a1 < n ∧ v.a2 < n) → ∀ m,
      form (n * 4) (vs.foldl (fun m vis => if vis.sol ≠ s then m else jtjStep x vis m) m) w w =
      form (n * 4) m w w + ((vs.filter fun v => v.sol = s).map fun vis =>
      M2.norm (vis.model * (getSolution x vis.a2).herm.toM2 * column (getSolution w vis.a1) +
        (getSolution x vis.a1).toM2 * vis.model * column (getSolution w vis.a2))).sum := by
    intro vs
    induction vs with
    | nil => intro _ m; simp
    | cons v vs ih =>
      intro h m
      rw [List.foldl_cons, ih fun v hv => h v (by simp [hv])]
      by_cases hv : v.sol = s
      · have hn : ¬ v.sol ≠ s := fun h => h hv
        rw [if_neg hn, List.filter_cons_of_pos (by simpa using hv), List.map_cons, List.sum_cons,
          form_step n x w v (h v (by simp)).1 (h v (by simp)).2, add_assoc]
      · rw [if_pos hv, List.filter_cons_of_neg (by simpa using hv)]
  rw [this vs hs]
  simp [form]

/-- C224: the matrix is positive semidefinite. -/
theorem jtj_nonneg [LinearOrder K] [IsStrictOrderedRing K] (s n : Nat) (vs : List (Vis K))
    (hs : ∀ v ∈ vs, v.a1 < n ∧ v.a2 < n) (x w : Nat → K) : 0 ≤ form (n * 4) (penaltyJtj s vs x) w w := by
  rw [form_jtj s n vs hs x w]
  apply List.sum_nonneg
  intro y hy
  obtain ⟨v, _, rfl⟩ := List.mem_map.mp hy
  exact M2.norm_nonneg _

/-- C224, for models without cross terms, and changes of which no two antennas have a visibility; in general the claim is
false (`jtj_wrong`): the matrix is the product of the transposed derivative and the derivative. -/
theorem jtj_partial (s n : Nat) (vs : List (Vis K)) (hs : ∀ v ∈ vs, v.sol = s) (hn : ∀ v ∈ vs, v.a1 < n ∧ v.a2 < n)
    (hm : ∀ v ∈ vs, v.model.b = 0 ∧ v.model.c = 0) (x w : Nat → K) (v d : Vec K)
    (hw : ∀ v ∈ vs, getSolution w v.a1 = 0 ∨ getSolution w v.a2 = 0) (hd : penaltyDerivative s vs x w v = some d) :
    form (n * 4) (penaltyJtj s vs x) w w = dot (vs.length * 8) d.get d.get := by
  obtain ⟨_, rfl⟩ := forSolution_some hd
  dsimp only
  rw [form_jtj s n vs hn x w, dot_filled s _ vs hs, List.filter_eq_self.mpr (by simpa using hs)]
  rw [← sum_zipIdx_fst vs 0]
  congr 1
  refine List.map_congr_left ?_
  intro e he
  obtain ⟨v', k⟩ := e
  have hk : vs[k]? = some v' := by
    have := List.mem_zipIdx he
    simp only [Nat.sub_zero] at this
    rw [List.getElem?_eq_some_iff]
    exact ⟨by omega, this.2.2.symm⟩
  have hmem := List.mem_of_getElem? hk
  have hv := hs v' hmem
  dsimp only
  have hp : ∀ c < 8, filled s (fun vis => (getSolution w vis.a1).toM2 * vis.model * (getSolution x vis.a2).herm.toM2 +
        (getSolution x vis.a1).toM2 * vis.model * (getSolution w vis.a2).herm.toM2) vs v.zero.get (k * 8 + c) =
      part ((getSolution w v'.a1).toM2 * v'.model * (getSolution x v'.a2).herm.toM2 +
        (getSolution x v'.a1).toM2 * v'.model * (getSolution w v'.a2).herm.toM2) c := by
    intro c hc
    have e1 : (k * 8 + c) / 8 = k := by omega
    have e2 : (k * 8 + c) % 8 = c := by omega
    simp only [filled, e1, e2, hk, hv, if_true]
  have hp0 := hp 0 (by omega)
  rw [Nat.add_zero] at hp0
  rw [hp0, hp 1 (by omega), hp 2 (by omega), hp 3 (by omega), hp 4 (by omega), hp 5 (by omega), hp 6 (by omega),
    hp 7 (by omega)]
  obtain ⟨hb, hc⟩ := hm v' hmem
  generalize getSolution x v'.a1 = g1
  generalize getSolution x v'.a2 = g2
  rcases hw v' hmem with h | h <;> rw [h]
  · generalize getSolution w v'.a2 = w2
    simp [ip, part, element, M2.norm, Cx.normSq, M2.trace, M2.herm, D2.toM2, D2.herm, column, hb, hc]
    ring
  · generalize getSolution w v'.a1 = w1
    simp [ip, part, element, M2.norm, Cx.normSq, M2.trace, M2.herm, D2.toM2, D2.herm, column, hb, hc]
    ring

/-- C224: the matrix is not the product of the transposed derivative and the derivative. With all gains one, a change of
the phases of both antennas by the same does not change the function; the matrix says that it does. A change of the
phases by opposite values does change the function; the matrix says that it does not. -/
theorem jtj_wrong : ∃ d d' : Nat → Int,
    (penaltyDerivative 0 [plain 1 1] (two 1 1) (two ⟨0, 1⟩ ⟨0, 1⟩) ⟨8, fun _ => 0⟩).map Vec.get = some d ∧
    (penaltyDerivative 0 [plain 1 1] (two 1 1) (two ⟨0, 1⟩ ⟨0, -1⟩) ⟨8, fun _ => 0⟩).map Vec.get = some d' ∧
    dot 8 d d = 0 ∧ form 8 (penaltyJtj 0 [plain 1 1] (two 1 1)) (two ⟨0, 1⟩ ⟨0, 1⟩) (two ⟨0, 1⟩ ⟨0, 1⟩) = 8 ∧
    dot 8 d' d' = 8 ∧ form 8 (penaltyJtj 0 [plain 1 1] (two 1 1)) (two ⟨0, 1⟩ ⟨0, -1⟩) (two ⟨0, 1⟩ ⟨0, -1⟩) = 0 :=
  ⟨_, _, rfl, rfl, by decide, by decide, by decide, by decide⟩

/-! ## The sizes of the vectors -/

/-- C225, for solutions that all visibilities have; for other ones the program may end (`later_solution_ends`): no function
uses elements that are not in the vectors of GSL, and the function sets all elements. -/
theorem in_bounds_partial (s : Nat) (vs : List (Vis K)) (hs : ∀ v ∈ vs, v.sol = s) (x u : Nat → K) (f : Vec K)
    (hf : f.size = dataSize s vs) :
    (∃ f0, penaltyFunction s vs x f = some f0 ∧ f0.size = f.size ∧
      ∀ f', f'.size = f.size → ∀ f0', penaltyFunction s vs x f' = some f0' → ∀ i < f.size, f0.get i = f0'.get i) ∧
    (penaltyDerivative s vs x u f).isSome ∧ (penaltyVV s vs u f).isSome ∧ (penaltyTransposed s vs x f).isSome := by
  have hc : dataSize s vs = vs.length * 8 := by
    unfold dataSize
    rw [List.countP_eq_length.mpr (by simpa using hs)]
    omega
  have hfits : Fits s vs f.size := by rw [hf, hc]; exact fits_all s vs
  refine ⟨⟨_, (forSolution_eq s _ vs f).1 hfits, rfl, ?_⟩, ?_, ?_, ?_⟩
  · intro f' _ f0' h i hi
    obtain ⟨_, rfl⟩ := forSolution_some h
    have hlt : i / 8 < vs.length := by omega
    have hv : vs[i / 8]? = some vs[i / 8] := List.getElem?_eq_getElem hlt
    simp only [filled, hv, hs _ (List.getElem_mem hlt), if_true]
  · exact Option.isSome_of_eq_some ((forSolution_eq s _ vs f.zero).1 hfits)
  · exact Option.isSome_of_eq_some ((forSolution_eq s _ vs f.zero).1 hfits)
  · obtain ⟨n, hn⟩ : ∃ n, ∀ v ∈ vs, v.a1 < n ∧ v.a2 < n := by
      clear hs hf hc hfits
      induction vs with
      | nil => exact ⟨0, by simp⟩
      | cons v vs ih =>
        obtain ⟨n, hn⟩ := ih
        refine ⟨max n (max (v.a1 + 1) (v.a2 + 1)), ?_⟩
        intro w hw
        rcases List.mem_cons.mp hw with rfl | hw
        · omega
        · have := hn w hw
          omega
    obtain ⟨g', hg', _⟩ := foldlM_transposed s n x u f vs.zipIdx (fun e he => hs _ (mem_zipIdx_bound he).1)
      (fun e he => by have := (mem_zipIdx_bound he).2; omega) (fun e he => hn _ (mem_zipIdx_bound he).1) (fun _ => 0)
    exact Option.isSome_of_eq_some hg'

private theorem countP_le (s m : Nat) (vs : List (Vis K)) (h : ∀ (k : Nat) v, vs[k]? = some v → v.sol = s → k < m) :
    vs.countP (fun v => v.sol = s) ≤ m := by
  conv_lhs => rw [← List.take_append_drop m vs]
  rw [List.countP_append]
  have h1 : (vs.drop m).countP (fun v => v.sol = s) = 0 := by
    rw [List.countP_eq_zero]
    intro v hv
    obtain ⟨k, hk⟩ := List.getElem?_of_mem hv
    rw [List.getElem?_drop] at hk
    simp only [decide_eq_true_eq]
    intro hv'
    have := h _ _ hk hv'
    omega
  rw [h1, Nat.add_zero]
  exact le_trans List.countP_le_length (by simp)

/-- C225: a solution that only later visibilities have (the second solution of a direction that has more of them in a
solution interval) ends the program as soon as GSL computes the function. -/
theorem later_solution_ends (s : Nat) (v0 : Vis K) (vs : List (Vis K)) (h0 : v0.sol ≠ s) (hs : ∃ v ∈ vs, v.sol = s)
    (x : Nat → K) (f : Vec K) (hf : f.size = dataSize s (v0 :: vs)) : penaltyFunction s (v0 :: vs) x f = none := by
  apply (forSolution_eq s _ (v0 :: vs) f).2
  intro hfits
  have hc : (v0 :: vs).countP (fun v => v.sol = s) = vs.countP (fun v => v.sol = s) := by
    rw [List.countP_cons_of_neg (by simpa using h0)]
  rw [hf, dataSize, hc] at hfits
  have hpos : 0 < vs.countP (fun v => v.sol = s) := by
    rw [List.countP_pos_iff]
    obtain ⟨v, hv, hv'⟩ := hs
    exact ⟨v, hv, by simpa using hv'⟩
  have := countP_le s (vs.countP (fun v => v.sol = s) - 1) vs (by
    intro k v hk hv
    have := hfits (k + 1) v (by simpa using hk) hv
    omega)
  omega

/-- C225: the function can be computed precisely if the visibilities of the solution are the first ones. -/
theorem ends_iff (s : Nat) (vs : List (Vis K)) (x : Nat → K) (f : Vec K) (hf : f.size = dataSize s vs) :
    (penaltyFunction s vs x f).isSome ↔
      ∀ (k : Nat) v, vs[k]? = some v → v.sol = s → k < vs.countP (fun v => v.sol = s) := by
  have hiff : Fits s vs f.size ↔ ∀ (k : Nat) v, vs[k]? = some v → v.sol = s → k < vs.countP (fun v => v.sol = s) := by
    rw [hf, dataSize]
    constructor
    · intro h k v hk hv
      have := h k v hk hv
      omega
    · intro h k v hk hv
      have := h k v hk hv
      omega
  rw [← hiff]
  by_cases h : Fits s vs f.size
  · have := (forSolution_eq s (fun v =>
      (getSolution x v.a1).toM2 * v.model * (getSolution x v.a2).herm.toM2 - v.data) vs f).1 h
    simp [penaltyFunction, this, h]
  · have := (forSolution_eq s (fun v =>
      (getSolution x v.a1).toM2 * v.model * (getSolution x v.a2).herm.toM2 - v.data) vs f).2 h
    simp [penaltyFunction, this, h]

/-! ## The loop -/

open LowRank (Limits Report Flags reachedStop)

/-- C226: after which iteration the loop stops: when there have been the least number of iterations, and either the largest
number or, if stalling is detected, the iteration has satisfied constraints and the solutions stall. -/
def Stop (c : Limits) (reports : Nat → Report) (i : Nat) : Prop :=
  c.minIterations ≤ i + 1 ∧
    (c.maxIterations ≤ i + 1 ∨ (c.detectStalling = true ∧ (reports i).satisfied = true ∧ (reports i).stalled = true))

/-- C226: the loop stops after the first iteration for which `Stop` holds, whether solutions have converged or not, and the
result says that they have not. -/
theorem never_converges (c : Limits) (reports : Nat → Report) :
    ∃ k, solve c reports = (k + 1, k + 2) ∧ Stop c reports k ∧ ∀ i < k, ¬ Stop c reports i := by
  have hloop : ∀ fuel i f, f.converged = false → max c.minIterations c.maxIterations ≤ i + fuel → 0 < fuel →
      ∃ k f', loop c reports fuel i f = (k + 1, f') ∧ f'.converged = false ∧ i ≤ k ∧ Stop c reports k ∧
        ∀ j, i ≤ j → j < k → ¬ Stop c reports j := by
    intro fuel
    induction fuel with
    | zero => intro i f _ _ h; omega
    | succ fuel ih =>
      intro i f hc hle _
      have hc' : (afterIteration f (reports i)).converged = false := hc
      have hs' : (afterIteration f (reports i)).satisfied = (reports i).satisfied := rfl
      have hstop : reachedStop c (i + 1) (afterIteration f (reports i)).converged
          (afterIteration f (reports i)).satisfied (reports i).stalled = true ↔ Stop c reports i := by
        rw [hc', hs']
        simp [reachedStop, Stop, and_assoc]
      rw [loop]
      by_cases h : Stop c reports i
      · rw [if_pos (hstop.mpr h)]
        exact ⟨i, _, rfl, hc', le_refl _, h, fun j h1 h2 => by omega⟩
      · rw [if_neg (fun hh => h (hstop.mp hh))]
        have hpos : 0 < fuel := by
          by_contra hz
          apply h
          exact ⟨by omega, Or.inl (by omega)⟩
        obtain ⟨k, f', h1, h2, h3, h4, h5⟩ := ih (i + 1) _ hc' (by omega) hpos
        refine ⟨k, f', h1, h2, by omega, h4, ?_⟩
        intro j hj hjk
        by_cases hji : j = i
        · rw [hji]; exact h
        · exact h5 j (by omega) hjk
  obtain ⟨k, f', h1, h2, _, h4, h5⟩ := hloop (max c.minIterations c.maxIterations + 1) 0 ⟨false, false, false⟩ rfl
    (by omega) (by omega)
  refine ⟨k, ?_, h4, fun i hi => h5 i (by omega) hi⟩
  unfold solve
  dsimp only
  rw [h1]
  simp [h2]

/-- C226: an example: every iteration has converged solutions and satisfied constraints, and 50 of them are done. -/
theorem goes_on : solve ⟨0, 50, true⟩ (fun _ => ⟨true, true, false⟩) = (50, 51) := by decide

/-! ## Examples -/

/-- Two antennas with gains 1 and i, with cross terms. -/
private def sample : Vis Int := ⟨0, 0, 1, ⟨⟨0, -2⟩, ⟨0, -1⟩, 0, ⟨0, -3⟩⟩, ⟨⟨2, 0⟩, 1, 0, ⟨3, 0⟩⟩⟩

-- `expansion`, `cost` and `in_bounds_partial`: all visibilities have the solution, and the functions can be computed.
example : (∀ v ∈ [sample, plain 1 ⟨2, -1⟩], v.sol = 0) ∧ dataSize 0 [sample, plain 1 ⟨2, -1⟩] = 16 ∧
    (penaltyFunction 0 [sample, plain 1 ⟨2, -1⟩] (two 1 2) ⟨16, fun _ => 0⟩).isSome ∧
    (penaltyDerivative 0 [sample, plain 1 ⟨2, -1⟩] (two 1 2) (two 3 5) ⟨16, fun _ => 0⟩).isSome ∧
    (penaltyVV 0 [sample, plain 1 ⟨2, -1⟩] (two 3 5) ⟨16, fun _ => 0⟩).isSome ∧
    (penaltyTransposed 0 [sample, plain 1 ⟨2, -1⟩] (two 1 2) ⟨16, fun i => i⟩).isSome := by decide

-- `exact_stationary`: the data of the sample are the model with gains.
example : sample.data = predicted (two 1 ⟨0, 1⟩) sample ∧ sample.data ≠ 0 := by decide

-- `transposed_partial` and `jtj_partial`: a change of the second antenna only.
example : (∀ v ∈ [sample, plain 1 ⟨2, -1⟩], getSolution (two 0 5) v.a1 = 0) ∧ getSolution (two 0 5) 1 ≠ 0 ∧
    (plain 1 ⟨2, -1⟩).model.b = 0 ∧ (plain 1 ⟨2, -1⟩).model.c = 0 := by decide

-- `later_solution_ends`: a visibility of another solution comes first.
example : (⟨1, 0, 1, 0, 1⟩ : Vis Int).sol ≠ 0 ∧ (∃ v ∈ [sample], v.sol = 0) ∧
    dataSize 0 [(⟨1, 0, 1, 0, 1⟩ : Vis Int), sample] = 8 := by
  refine ⟨by decide, ⟨sample, by simp, rfl⟩, by decide⟩

-- `never_converges`: stalling in the third iteration.
example : solve ⟨0, 50, true⟩ (fun i => ⟨true, i = 1, i = 2⟩) = (3, 4) := by decide

end DP3.AntennaSolver
