import Verif.DirectSolver.Scalar
import Verif.DirectSolver.Diagonal
import Verif.DirectSolver.Full
import Verif.DirectSolver.Linear

/-!
# Properties of the solvers that solve all directions at once: C144, C145 and C146
-/

namespace DP3.DirectSolver

set_option linter.unusedSectionVars false
set_option linter.unusedSimpArgs false

variable {K : Type} [Field K] [LinearOrder K] [IsStrictOrderedRing K]

/-! ## C144: each iteration solves a least-squares problem for each antenna -/

/-- C144 for scalar solutions. With every linear solver that minimizes residuals, an iteration assigns nothing outside
the matrices. For each antenna the new solutions are all NaN, or those which, together for all directions, minimize the
misfit with all visibilities when the solutions of the other antennas stay as they were. -/
theorem scalar_least_squares (lls : Lls K) (hls : Minimizes lls 1) (nAnt n : Nat) (vis : List (Vis K))
    (sols : Nat → Cx K) (hl : Layout nAnt vis) :
    ∃ next, scalarIteration lls nAnt n vis sols = some next ∧ ∀ a,
      (∀ s, next a s = none) ∨ ∃ g : Nat → Cx K, (∀ s, next a s = some (g s)) ∧ ∀ h : Nat → Cx K,
        misfit n (withAntenna (scalarJones n sols) a fun s => scalarMatrix (g s)) vis ≤
          misfit n (withAntenna (scalarJones n sols) a fun s => scalarMatrix (h s)) vis := by
  obtain ⟨gs, vs, hf, hidx, -, hres⟩ := scalarFill_spec vis nAnt n sols hl
  refine ⟨_, by unfold scalarIteration; rw [hf]; rfl, ?_⟩
  intro a
  cases hx : lls (nAntennaVis vis a * 4) n 1 (gs.val a) (vs.val a) with
  | none => left; intro s; rfl
  | some x =>
    simp only [keep, Option.bind_some, hidx]
    by_cases h0 : x 0 = 0
    · left; intro s; rw [if_pos h0]; rfl
    · right
      refine ⟨x, fun s => by rw [if_neg h0]; rfl, fun h => ?_⟩
      have := hls _ _ _ _ _ hx h
      rw [hres, hres] at this
      rw [scalar_misfit vis nAnt n sols hl a (max (nAntennaVis vis a * 4) n),
        scalar_misfit vis nAnt n sols hl a (max (nAntennaVis vis a * 4) n)]
      exact add_le_add_left this _

/-- What remains of the solution of one polarization of an antenna. -/
def orKeep (o : Option (Cx K)) (y : Cx K) : Cx K := o.getD y

/-- C144 for diagonal solutions. The two polarizations of an antenna are solved on their own; where one is NaN, the
statement holds with any values `h` for that one. -/
theorem diagonal_least_squares (lls : Lls K) (hls : Minimizes lls 1) (nAnt n : Nat) (vis : List (Vis K))
    (sols : Nat → Cx K) (hl : Layout nAnt vis) :
    ∃ next, diagonalIteration lls nAnt n vis sols = some next ∧ ∀ a,
      (∀ p, (∀ s, next a s p = none) ∨ ∀ s, (next a s p).isSome) ∧
      ∀ h : Nat → Nat → Cx K,
        misfit n (withAntenna (diagonalJones n sols) a fun s =>
            diagonalMatrix (orKeep (next a s 0) (h 0 s)) (orKeep (next a s 1) (h 1 s))) vis ≤
          misfit n (withAntenna (diagonalJones n sols) a fun s => diagonalMatrix (h 0 s) (h 1 s)) vis := by
  obtain ⟨gs, vs, hf, -, hres⟩ := diagonalFill_spec vis nAnt n sols hl
  refine ⟨_, by unfold diagonalIteration; rw [hf]; rfl, ?_⟩
  intro a
  have hpol : ∀ p, p < 2 → (a * 2 + p) / 2 = a := by intro p hp; omega
  have hcase : ∀ p, (∀ s, (keep (lls (nAntennaVis vis a * 2) n 1 (gs.val (a * 2 + p)) (vs.val (a * 2 + p)))).map
        (fun x => x s) = none) ∨
      ∃ x, lls (nAntennaVis vis a * 2) n 1 (gs.val (a * 2 + p)) (vs.val (a * 2 + p)) = some x ∧
        ∀ s, (keep (lls (nAntennaVis vis a * 2) n 1 (gs.val (a * 2 + p)) (vs.val (a * 2 + p)))).map
          (fun x => x s) = some (x s) := by
    intro p
    cases hx : lls (nAntennaVis vis a * 2) n 1 (gs.val (a * 2 + p)) (vs.val (a * 2 + p)) with
    | none => left; intro s; rfl
    | some x =>
      simp only [keep, Option.bind_some]
      by_cases h0 : x 0 = 0
      · left; intro s; rw [if_pos h0]; rfl
      · right; exact ⟨x, rfl, fun s => by rw [if_neg h0]; rfl⟩
  refine ⟨fun p => ?_, fun h => ?_⟩
  · rcases hcase p with hn | ⟨x, -, hx⟩
    · exact Or.inl hn
    · right; intro s; rw [hx s]; rfl
  · have hle : ∀ p, p < 2 → ((vis.flatMap fun v => diagonalVisRows n sols v (a * 2 + p)).map (rowCost n 1
          (max (nAntennaVis vis a * 2) n) fun s => orKeep ((keep (lls (nAntennaVis vis a * 2) n 1 (gs.val (a * 2 + p))
          (vs.val (a * 2 + p)))).map (fun x => x s)) (h p s))).sum ≤
        ((vis.flatMap fun v => diagonalVisRows n sols v (a * 2 + p)).map (rowCost n 1
          (max (nAntennaVis vis a * 2) n) (h p))).sum := by
      intro p hp
      rcases hcase p with hn | ⟨x, hx, hs⟩
      · simp only [hn, orKeep, Option.getD_none]; exact le_refl _
      · simp only [hs, orKeep, Option.getD_some]
        have := hls _ _ _ _ _ hx (h p)
        have e := hres (a * 2 + p) (max (nAntennaVis vis a * 2) n)
        rw [hpol p hp] at e
        rw [e, e] at this
        exact this
    have e1 := diagonal_misfit vis nAnt n sols hl a (max (nAntennaVis vis a * 2) n) h
    have e2 := diagonal_misfit vis nAnt n sols hl a (max (nAntennaVis vis a * 2) n) (fun p s =>
      orKeep ((keep (lls (nAntennaVis vis a * 2) n 1 (gs.val (a * 2 + p)) (vs.val (a * 2 + p)))).map
        (fun x => x s)) (h p s))
    have h0 := hle 0 (by decide)
    have h1 := hle 1 (by decide)
    rw [e1]
    refine le_trans (le_of_eq e2) ?_
    rw [Nat.add_zero] at h0
    exact add_le_add_left (add_le_add h0 h1) _

/-- The four elements of a full solution as a matrix. -/
def asMatrix (x : Nat → Cx K) : M2 K := ⟨x 0, x 1, x 2, x 3⟩

/-- C144 for full Jones matrices. -/
theorem full_least_squares (cgels : Lls K) (hls : Minimizes cgels 2) (nAnt n : Nat) (vis : List (Vis K))
    (sols : Nat → Cx K) (hl : Layout nAnt vis) :
    ∃ next, fullIteration cgels nAnt n vis sols = some next ∧ ∀ a,
      (∀ s p, next a s p = none) ∨ ∃ g : Nat → Nat → Cx K, (∀ s p, next a s p = some (g s p)) ∧ ∀ h : Nat → M2 K,
        misfit n (withAntenna (fullJones n sols) a fun s => asMatrix (g s)) vis ≤
          misfit n (withAntenna (fullJones n sols) a h) vis := by
  obtain ⟨gs, vs, hf, hidx, -, hres⟩ := fullFill_spec vis nAnt n sols hl
  refine ⟨_, by unfold fullIteration; rw [hf]; rfl, ?_⟩
  intro a
  cases hx : qr cgels (nAntennaVis vis a * 2) (n * 2) 2 (gs.val a) (vs.val a) with
  | none => left; intro s p; rfl
  | some x =>
    simp only [keep, Option.bind_some, hidx]
    by_cases h0 : x 0 = 0
    · left; intro s p; rw [if_pos h0]; rfl
    · right
      refine ⟨fun s p => (x (s * 2 + p % 2 + p / 2 * max (nAntennaVis vis a * 2) (n * 2))).conj,
        fun s p => by rw [if_neg h0]; rfl, fun h => ?_⟩
      have hx' : cgels (nAntennaVis vis a * 2) (n * 2) 2 (gs.val a) (vs.val a) = some x := by
        unfold qr at hx
        split_ifs at hx
        exact hx
      have hb : Blocks n (max (nAntennaVis vis a * 2) (n * 2)) x (fun s => asMatrix fun p =>
          (x (s * 2 + p % 2 + p / 2 * max (nAntennaVis vis a * 2) (n * 2))).conj) := by
        intro s _
        simp [asMatrix, M2.herm]
      rw [full_misfit vis nAnt n sols hl a (max (nAntennaVis vis a * 2) (n * 2)) _ x hb]
      -- The unknowns that belong to the other solutions.
      have hby : ∃ y : Nat → Cx K, Blocks n (max (nAntennaVis vis a * 2) (n * 2)) y h := by
        refine ⟨fun i => if i < n * 2 then get (h (i / 2)).herm (i % 2 * 2)
          else get (h ((i - max (nAntennaVis vis a * 2) (n * 2)) / 2)).herm
            ((i - max (nAntennaVis vis a * 2) (n * 2)) % 2 * 2 + 1), ?_⟩
        intro s hs
        have hmax : n * 2 ≤ max (nAntennaVis vis a * 2) (n * 2) := Nat.le_max_right _ _
        generalize max (nAntennaVis vis a * 2) (n * 2) = ld at hmax
        have c1 : s * 2 < n * 2 := by omega
        have c2 : ¬ s * 2 + ld < n * 2 := by omega
        have c3 : s * 2 + 1 < n * 2 := by omega
        have c4 : ¬ s * 2 + 1 + ld < n * 2 := by omega
        have d1 : s * 2 / 2 = s := by omega
        have d2 : s * 2 % 2 = 0 := by omega
        have d3 : (s * 2 + 1) / 2 = s := by omega
        have d4 : (s * 2 + 1) % 2 = 1 := by omega
        simp only [c1, c2, c3, c4, if_true, if_false, Nat.add_sub_cancel, d1, d2, d3, d4, get, Nat.zero_mul,
          Nat.one_mul, Nat.zero_add]
      obtain ⟨y, hy⟩ := hby
      rw [full_misfit vis nAnt n sols hl a (max (nAntennaVis vis a * 2) (n * 2)) h y hy]
      have := hls _ _ _ _ _ hx' y
      rw [hres, hres] at this
      exact add_le_add_left this _

/-! ## C145: solutions that fit the data exactly -/

theorem sum_nonneg' {Y : Type} (l : List Y) (f : Y → K) (h : ∀ y ∈ l, 0 ≤ f y) : 0 ≤ (l.map f).sum := by
  induction l with
  | nil => exact le_refl _
  | cons y l ih =>
    rw [List.map_cons, List.sum_cons]
    exact add_nonneg (h y List.mem_cons_self) (ih fun y' h' => h y' (List.mem_cons_of_mem _ h'))

theorem sum_zero' {Y : Type} (l : List Y) (f : Y → K) (h : ∀ y ∈ l, 0 ≤ f y) (hs : (l.map f).sum ≤ 0) :
    ∀ y ∈ l, f y = 0 := by
  induction l with
  | nil => intro y hy; simp at hy
  | cons y l ih =>
    rw [List.map_cons, List.sum_cons] at hs
    have h1 := h y List.mem_cons_self
    have h2 := sum_nonneg' l f fun y' h' => h y' (List.mem_cons_of_mem _ h')
    intro y' hy'
    rcases List.mem_cons.mp hy' with rfl | hy'
    · linarith
    · exact ih (fun y' h' => h y' (List.mem_cons_of_mem _ h')) (by linarith) y' hy'

theorem misfit_zero (n : Nat) (J : Nat → Nat → M2 K) (vis : List (Vis K)) (h : ∀ v ∈ vis, v.data = predicted n J v) :
    misfit n J vis = 0 := by
  unfold misfit
  have : ∀ v ∈ vis, (v.data - predicted n J v).norm = 0 := by
    intro v hv
    rw [← h v hv, sub_self, M2.norm_zero]
  rw [List.map_congr_left this]
  simp

theorem predicted_of_misfit (n : Nat) (J : Nat → Nat → M2 K) (vis : List (Vis K)) (h : misfit n J vis ≤ 0) :
    ∀ v ∈ vis, v.data = predicted n J v := by
  intro v hv
  have := sum_zero' vis _ (fun v _ => M2.norm_nonneg _) h v hv
  exact sub_eq_zero.mp (M2.norm_eq_zero.mp this)

theorem withAntenna_self (J : Nat → Nat → M2 K) (a : Nat) : withAntenna J a (fun s => J a s) = J := by
  funext b s
  unfold withAntenna
  split_ifs with h
  · rw [h]
  · rfl

/-- Other solutions of an antenna that fit as well are the same, where the data determine them. -/
theorem determined_eq {n : Nat} {J : Nat → Nat → M2 K} {vis : List (Vis K)} {a : Nat} {P : (Nat → M2 K) → Prop}
    (hd : Determined n J vis a P) (hex : ∀ v ∈ vis, v.data = predicted n J v) (g : Nat → M2 K) (hg : P g)
    (hJ : P fun s => J a s) (hle : misfit n (withAntenna J a g) vis ≤ misfit n (withAntenna J a fun s => J a s) vis) :
    ∀ s < n, g s = J a s := by
  rw [withAntenna_self, misfit_zero n J vis hex] at hle
  have hg' := predicted_of_misfit n _ vis hle
  refine hd g (fun s => J a s) hg hJ ?_
  intro v hv
  rw [← hg' v hv, withAntenna_self, ← hex v hv]

theorem predicted_congr (n : Nat) (J : Nat → Nat → M2 K) (a : Nat) (g h : Nat → M2 K) (he : ∀ s < n, g s = h s)
    (v : Vis K) : predicted n (withAntenna J a g) v = predicted n (withAntenna J a h) v := by
  unfold predicted withAntenna
  refine sum_congr _ _ _ fun s hs => ?_
  rw [he s (List.mem_range.mp hs)]

theorem misfit_congr (n : Nat) (J : Nat → Nat → M2 K) (a : Nat) (g h : Nat → M2 K) (he : ∀ s < n, g s = h s)
    (vis : List (Vis K)) : misfit n (withAntenna J a g) vis = misfit n (withAntenna J a h) vis := by
  unfold misfit
  simp only [predicted_congr n J a g h he]

/-- When the solutions of an antenna fit exactly, the linear solver gives those. `emb` makes solutions of unknowns. -/
theorem exact_core {nrhs : Nat} (lls : Lls K) (hls : Minimizes lls nrhs) (hsu : Succeeds lls nrhs) (m n' n : Nat)
    (hm : n' ≤ m) (A B : Nat → Cx K) (J : Nat → Nat → M2 K) (vis : List (Vis K)) (a : Nat)
    (emb : (Nat → Cx K) → Nat → M2 K) (x0 : Nat → Cx K) (C : K) (hC : 0 ≤ C) (P : (Nat → M2 K) → Prop)
    (hmis : ∀ x, misfit n (withAntenna J a (emb x)) vis = residual m n' nrhs (max m n') (max m n') A B x + C)
    (hd : Determined n J vis a P) (hex : ∀ v ∈ vis, v.data = predicted n J v) (hP : ∀ x, P (emb x))
    (hJP : P fun s => J a s) (h0 : ∀ s < n, emb x0 s = J a s)
    (hinj : ∀ x y, (∀ s < n, emb x s = emb y s) → ∀ i < n', x i = y i) :
    ∃ x, lls m n' nrhs A B = some x ∧ ∀ s < n, emb x s = J a s := by
  have hJ : misfit n (withAntenna J a (emb x0)) vis = 0 := by
    rw [misfit_congr n J a _ _ h0, withAntenna_self]; exact misfit_zero n J vis hex
  have hr0 : residual m n' nrhs (max m n') (max m n') A B x0 = 0 := by
    have h1 := hmis x0
    have h2 := residual_nonneg m n' nrhs (max m n') (max m n') A B x0
    rw [hJ] at h1
    linarith
  have hle : ∀ x, residual m n' nrhs (max m n') (max m n') A B x ≤ 0 → ∀ s < n, emb x s = J a s := by
    intro x hx
    refine determined_eq hd hex (emb x) (hP x) hJP ?_
    rw [hmis, ← misfit_congr n J a _ _ h0, hJ]
    have h1 := hmis x0
    rw [hJ, hr0] at h1
    linarith
  obtain ⟨x, hx⟩ := Option.isSome_iff_exists.mp (hsu m n' A B hm ⟨x0, hr0⟩ (by
    intro z hz c hc
    -- Adding a vector of the kernel to the first column does not change the residuals.
    have hsame : residual m n' nrhs (max m n') (max m n') A B (fun i => x0 i + if i < n' then z i else 0) = 0 := by
      rw [← hr0]
      unfold residual
      refine sum_congr _ _ _ fun i hi => sum_congr _ _ _ fun j hj => ?_
      congr 2
      have hsum : ((List.range n').map fun c => A (i + c * m) *
          (if c + j * max m n' < n' then z (c + j * max m n') else 0)).sum = 0 := by
        by_cases hj0 : j = 0
        · subst hj0
          rw [← hz i (List.mem_range.mp hi)]
          refine sum_congr _ _ _ fun c hc => ?_
          rw [Nat.zero_mul, Nat.add_zero, if_pos (List.mem_range.mp hc)]
        · have : ∀ c ∈ List.range n', A (i + c * m) *
              (if c + j * max m n' < n' then z (c + j * max m n') else 0) = 0 := by
            intro c _
            have h1 : max m n' ≤ j * max m n' := Nat.le_mul_of_pos_left _ (by omega)
            have h2 : n' ≤ max m n' := Nat.le_max_right _ _
            rw [if_neg (by omega), mul_zero]
          rw [List.map_congr_left this]
          simp
      rw [show (fun c => A (i + c * m) * (x0 (c + j * max m n') +
          if c + j * max m n' < n' then z (c + j * max m n') else 0)) = fun c => A (i + c * m) * x0 (c + j * max m n') +
          A (i + c * m) * (if c + j * max m n' < n' then z (c + j * max m n') else 0) from funext fun c => by ring,
        sum_add, hsum, add_zero]
    have h1 := hle _ (le_of_eq hsame)
    have h2 := hinj _ x0 (fun s hs => by rw [h1 s hs, h0 s hs]) c hc
    simp only [hc, if_true] at h2
    have : x0 c + z c - x0 c = x0 c - x0 c := by rw [h2]
    simpa using this))
  refine ⟨x, hx, hle x ?_⟩
  have := hls m n' A B x hx x0
  rw [hr0] at this
  exact this

/-- C145 for scalar solutions. When the solutions predict the data exactly, and the data determine those of an antenna,
then an iteration gives the same solutions for that antenna, for every linear solver that minimizes residuals and
succeeds when it can. But if the solution of its first direction is zero, the solutions for all directions are NaN. -/
theorem scalar_exact_partial (lls : Lls K) (hls : Minimizes lls 1) (hsu : Succeeds lls 1) (nAnt n : Nat)
    (vis : List (Vis K)) (sols : Nat → Cx K) (hl : Layout nAnt vis)
    (hex : ∀ v ∈ vis, v.data = predicted n (scalarJones n sols) v) (a : Nat) (hm : n ≤ nAntennaVis vis a * 4)
    (hd : Determined n (scalarJones n sols) vis a fun g => ∃ y : Nat → Cx K, g = fun s => scalarMatrix (y s)) :
    ∃ next, scalarIteration lls nAnt n vis sols = some next ∧
      ∀ s < n, next a s = if sols (a * n) = 0 then none else some (sols (a * n + s)) := by
  obtain ⟨gs, vs, hf, hidx, -, hres⟩ := scalarFill_spec vis nAnt n sols hl
  refine ⟨_, by unfold scalarIteration; rw [hf]; rfl, ?_⟩
  obtain ⟨x, hx, heq⟩ := exact_core lls hls hsu (nAntennaVis vis a * 4) n n hm (gs.val a) (vs.val a)
    (scalarJones n sols) vis a (fun x s => scalarMatrix (x s)) (fun s => sols (a * n + s)) _
    (sum_nonneg' _ _ fun v _ => M2.norm_nonneg _) _
    (fun x => by rw [hres]; exact scalar_misfit vis nAnt n sols hl a (max (nAntennaVis vis a * 4) n) x)
    hd hex (fun x => ⟨x, rfl⟩) ⟨_, rfl⟩ (fun _ _ => rfl) (fun x y h i hi => congrArg M2.a (h i hi))
  have hxs : ∀ s < n, x s = sols (a * n + s) := fun s hs => congrArg M2.a (heq s hs)
  intro s hs
  simp only [hx, keep, Option.bind_some, hidx, hxs 0 (show 0 < n by omega), Nat.add_zero]
  split_ifs <;> simp [hxs s hs]

/-- C145 for diagonal solutions: each polarization is kept, unless that of the first direction is zero. -/
theorem diagonal_exact_partial (lls : Lls K) (hls : Minimizes lls 1) (hsu : Succeeds lls 1) (nAnt n : Nat)
    (vis : List (Vis K)) (sols : Nat → Cx K) (hl : Layout nAnt vis)
    (hex : ∀ v ∈ vis, v.data = predicted n (diagonalJones n sols) v) (a : Nat) (hm : n ≤ nAntennaVis vis a * 2)
    (hd : Determined n (diagonalJones n sols) vis a fun g => ∃ x y : Nat → Cx K, g = fun s => diagonalMatrix (x s) (y s)) :
    ∃ next, diagonalIteration lls nAnt n vis sols = some next ∧
      ∀ s < n, ∀ p < 2, next a s p =
        if sols (a * n * 2 + p) = 0 then none else some (sols ((a * n + s) * 2 + p)) := by
  obtain ⟨gs, vs, hf, -, hres⟩ := diagonalFill_spec vis nAnt n sols hl
  refine ⟨_, by unfold diagonalIteration; rw [hf]; rfl, ?_⟩
  have hmis := fun g => diagonal_misfit vis nAnt n sols hl a (max (nAntennaVis vis a * 2) n) g
  have hrest : 0 ≤ misfit n (diagonalJones n sols)
      (vis.filter fun v => ! (decide (v.ant1 = a) || decide (v.ant2 = a))) :=
    sum_nonneg' _ _ fun v _ => M2.norm_nonneg _
  have hcost : ∀ (x : Nat → Cx K) (l : List (Row K)), 0 ≤ (l.map (rowCost n 1 (max (nAntennaVis vis a * 2) n) x)).sum :=
    fun x l => sum_nonneg' _ _ fun r _ => sum_nonneg' _ _ fun j _ => Cx.normSq_nonneg _
  intro s hs p hp
  have hp' : p = 0 ∨ p = 1 := by omega
  rcases hp' with rfl | rfl
  · obtain ⟨x, hx, heq⟩ := exact_core lls hls hsu (nAntennaVis vis a * 2) n n hm (gs.val (a * 2 + 0)) (vs.val (a * 2 + 0))
      (diagonalJones n sols) vis a (fun x s => diagonalMatrix (x s) (sols ((a * n + s) * 2 + 1)))
      (fun s => sols ((a * n + s) * 2))
      (((vis.flatMap fun v => diagonalVisRows n sols v (a * 2 + 1)).map (rowCost n 1 (max (nAntennaVis vis a * 2) n)
          fun s => sols ((a * n + s) * 2 + 1))).sum + misfit n (diagonalJones n sols)
          (vis.filter fun v => ! (decide (v.ant1 = a) || decide (v.ant2 = a))))
      (add_nonneg (hcost _ _) hrest) _
      (fun x => by
        have e := hres (a * 2 + 0) (max (nAntennaVis vis a * 2) n) x
        rw [show (a * 2 + 0) / 2 = a by omega] at e
        rw [e]
        refine (hmis fun p s => if p = 0 then x s else sols ((a * n + s) * 2 + 1)).trans ?_
        simp only [if_true, one_ne_zero, if_false, Nat.add_zero]
        ring)
      hd hex (fun x => ⟨x, _, rfl⟩) ⟨_, _, rfl⟩ (fun _ _ => rfl) (fun x y h i hi => congrArg M2.a (h i hi))
    have hxs : ∀ s < n, x s = sols ((a * n + s) * 2) := fun s hs => congrArg M2.a (heq s hs)
    rw [Nat.add_zero] at hx
    simp only [hx, keep, Option.bind_some, hxs 0 (show 0 < n by omega), Nat.add_zero]
    split_ifs <;> simp [hxs s hs]
  · obtain ⟨x, hx, heq⟩ := exact_core lls hls hsu (nAntennaVis vis a * 2) n n hm (gs.val (a * 2 + 1)) (vs.val (a * 2 + 1))
      (diagonalJones n sols) vis a (fun x s => diagonalMatrix (sols ((a * n + s) * 2)) (x s))
      (fun s => sols ((a * n + s) * 2 + 1))
      (((vis.flatMap fun v => diagonalVisRows n sols v (a * 2)).map (rowCost n 1 (max (nAntennaVis vis a * 2) n)
          fun s => sols ((a * n + s) * 2))).sum + misfit n (diagonalJones n sols)
          (vis.filter fun v => ! (decide (v.ant1 = a) || decide (v.ant2 = a))))
      (add_nonneg (hcost _ _) hrest) _
      (fun x => by
        have e := hres (a * 2 + 1) (max (nAntennaVis vis a * 2) n) x
        rw [show (a * 2 + 1) / 2 = a by omega] at e
        rw [e]
        refine (hmis fun p s => if p = 0 then sols ((a * n + s) * 2) else x s).trans ?_
        simp only [if_true, one_ne_zero, if_false, Nat.add_zero]
        ring)
      hd hex (fun x => ⟨_, x, rfl⟩) ⟨_, _, rfl⟩ (fun _ _ => rfl) (fun x y h i hi => congrArg M2.d (h i hi))
    have hxs : ∀ s < n, x s = sols ((a * n + s) * 2 + 1) := fun s hs => congrArg M2.d (heq s hs)
    simp only [hx, keep, Option.bind_some, hxs 0 (show 0 < n by omega), Nat.add_zero]
    split_ifs <;> simp [hxs s hs]

/-! ## C146: the linear solvers -/

theorem qr_minimizes (cgels : Lls K) (nrhs : Nat) (h : Minimizes cgels nrhs) : Minimizes (qr cgels) nrhs := by
  intro m n a b x hx
  unfold qr at hx
  split_ifs at hx
  exact h m n a b x hx

theorem qr_succeeds (cgels : Lls K) (nrhs : Nat) (h : Succeeds cgels nrhs) : Succeeds (qr cgels) nrhs := by
  intro m n a b hm hy hi
  unfold qr
  rw [if_neg (by omega)]
  exact h m n a b hm hy hi

/-- C145 for full Jones matrices: they are kept, unless the first element of that of the first direction is zero. -/
theorem full_exact_partial (cgels : Lls K) (hls : Minimizes cgels 2) (hsu : Succeeds cgels 2) (nAnt n : Nat)
    (vis : List (Vis K)) (sols : Nat → Cx K) (hl : Layout nAnt vis)
    (hex : ∀ v ∈ vis, v.data = predicted n (fullJones n sols) v) (a : Nat) (hm : n ≤ nAntennaVis vis a)
    (hd : Determined n (fullJones n sols) vis a fun _ => True) :
    ∃ next, fullIteration cgels nAnt n vis sols = some next ∧
      ∀ s < n, ∀ p < 4, next a s p = if sols (a * n * 4) = 0 then none else some (sols ((a * n + s) * 4 + p)) := by
  obtain ⟨gs, vs, hf, hidx, -, hres⟩ := fullFill_spec vis nAnt n sols hl
  refine ⟨_, by unfold fullIteration; rw [hf]; rfl, ?_⟩
  have hmax : n * 2 ≤ max (nAntennaVis vis a * 2) (n * 2) := Nat.le_max_right _ _
  obtain ⟨ld, hld⟩ : ∃ ld, ld = max (nAntennaVis vis a * 2) (n * 2) := ⟨_, rfl⟩
  have hlt : n * 2 ≤ ld := by rw [hld]; exact hmax
  obtain ⟨x, hx, heq⟩ := exact_core (qr cgels) (qr_minimizes cgels 2 hls) (qr_succeeds cgels 2 hsu)
    (nAntennaVis vis a * 2) (n * 2) n (by omega) (gs.val a) (vs.val a)
    (fullJones n sols) vis a
    (fun x s => (⟨x (s * 2), x (s * 2 + ld), x (s * 2 + 1), x (s * 2 + 1 + ld)⟩ : M2 K).herm)
    (fun i => if i < ld then get (jonesAt sols (a * n + i / 2)).herm (i % 2 * 2)
      else get (jonesAt sols (a * n + (i - ld) / 2)).herm ((i - ld) % 2 * 2 + 1)) _
    (sum_nonneg' _ _ fun v _ => M2.norm_nonneg _) (fun _ => True)
    (fun x => by
      rw [hres]
      refine full_misfit vis nAnt n sols hl a (max (nAntennaVis vis a * 2) (n * 2)) _ x ?_
      intro s _
      rw [M2.herm_herm, hld])
    hd hex (fun _ => trivial) trivial
    (by
      intro s hs
      have c1 : s * 2 < ld := by omega
      have c2 : ¬ s * 2 + ld < ld := by omega
      have c3 : s * 2 + 1 < ld := by omega
      have c4 : ¬ s * 2 + 1 + ld < ld := by omega
      have d1 : s * 2 / 2 = s := by omega
      have d2 : s * 2 % 2 = 0 := by omega
      have d3 : (s * 2 + 1) / 2 = s := by omega
      have d4 : (s * 2 + 1) % 2 = 1 := by omega
      simp only [c1, c2, c3, c4, if_true, if_false, Nat.add_sub_cancel, d1, d2, d3, d4, get, Nat.zero_mul,
        Nat.one_mul, Nat.zero_add]
      exact M2.herm_herm _)
    (fun x y h i hi => by
      have h1 := congrArg M2.herm (h (i / 2) (by omega))
      rw [M2.herm_herm, M2.herm_herm] at h1
      have hi2 : i = i / 2 * 2 ∨ i = i / 2 * 2 + 1 := by omega
      rcases hi2 with h2 | h2
      · rw [h2]; exact congrArg M2.a h1
      · rw [h2]; exact congrArg M2.c h1)
  intro s hs p hp
  have hj : ∀ s < n, (⟨x (s * 2), x (s * 2 + ld), x (s * 2 + 1), x (s * 2 + 1 + ld)⟩ : M2 K) =
      (jonesAt sols (a * n + s)).herm := by
    intro s hs
    rw [← M2.herm_herm (⟨x (s * 2), x (s * 2 + ld), x (s * 2 + 1), x (s * 2 + 1 + ld)⟩ : M2 K)]
    exact congrArg M2.herm (heq s hs)
  have hx0 : x 0 = 0 ↔ sols (a * n * 4) = 0 := by
    have h0 := congrArg M2.a (hj 0 (by omega))
    simp only [M2.herm, jonesAt, Nat.zero_mul, Nat.add_zero] at h0
    rw [h0]
    constructor
    · intro h; rw [← Cx.conj_conj (sols (a * n * 4)), h, Cx.conj_zero]
    · intro h; rw [h, Cx.conj_zero]
  simp only [hx, keep, Option.bind_some, hidx, hx0, ← hld]
  by_cases h0 : sols (a * n * 4) = 0
  · rw [if_pos h0, if_pos h0]; rfl
  · rw [if_neg h0, if_neg h0]
    have hs' := hj s hs
    have ha := congrArg M2.a hs'
    have hb := congrArg M2.b hs'
    have hc := congrArg M2.c hs'
    have hd' := congrArg M2.d hs'
    simp only [M2.herm, jonesAt] at ha hb hc hd'
    have hp' : p = 0 ∨ p = 1 ∨ p = 2 ∨ p = 3 := by omega
    rcases hp' with rfl | rfl | rfl | rfl
    · simp only [Option.map_some, Nat.zero_mod, Nat.zero_div, Nat.zero_mul, Nat.add_zero, ha, Cx.conj_conj]
    · simp only [Option.map_some, show 1 % 2 = 1 from rfl, show 1 / 2 = 0 from rfl, Nat.zero_mul, Nat.add_zero, hc,
        Cx.conj_conj]
    · simp only [Option.map_some, show 2 % 2 = 0 from rfl, show 2 / 2 = 1 from rfl, Nat.one_mul, Nat.add_zero, hb,
        Cx.conj_conj]
    · simp only [Option.map_some, show 3 % 2 = 1 from rfl, show 3 / 2 = 1 from rfl, Nat.one_mul, hd', Cx.conj_conj]

theorem svd_minimizes (cgelss : Lls K) (nrhs : Nat) (h : Minimizes cgelss nrhs) : Minimizes (svd cgelss) nrhs := h

/-- C146: the result of the normal equations minimizes the squared residuals of all right-hand sides. These are read
with `m` elements for each column, and the solutions are written with `n` elements for each. -/
theorem normal_equations (cposv : Nat → Nat → (Nat → Cx K) → (Nat → Cx K) → Option (Nat → Cx K))
    (hc : SolvesHermitian cposv) (m n nrhs : Nat) (a b x : Nat → Cx K)
    (hx : normalEquations cposv m n nrhs a b = some x) (y : Nat → Cx K) :
    residual m n nrhs m n a b x ≤ residual m n nrhs m n a b y := by
  unfold normalEquations at hx
  obtain ⟨z, hz, rfl⟩ := Option.map_eq_some_iff.mp hx
  rw [residual_eq, residual_eq]
  refine Finset.sum_le_sum fun j hj => ?_
  have hj := Finset.mem_range.mp hj
  refine orthogonal_minimizes m n (fun i c => a (i + c * m)) (fun i => b (i + j * m)) _ (fun c => y (c + j * n)) ?_
  intro r hr
  have h := hc n nrhs _ _ z hz j hj r hr
  rw [list_sum, adaggerb_eq m n a b r j hr] at h
  simp only [mul_sub, Finset.sum_sub_distrib]
  rw [← h, sub_eq_zero]
  have h1 : ∀ c ∈ Finset.range n, hermitian n (adaggera m n a) r c * z (c + j * n) =
      ∑ i ∈ Finset.range m, (a (i + r * m)).conj * (a (i + c * m) * z (c + j * n)) := by
    intro c hc
    rw [hermitian_adaggera m n a r c hr (Finset.mem_range.mp hc), Finset.sum_mul]
    exact Finset.sum_congr rfl fun i _ => by ring
  rw [Finset.sum_congr rfl h1, Finset.sum_comm]
  refine Finset.sum_congr rfl fun i _ => ?_
  rw [Finset.mul_sum]
  refine Finset.sum_congr rfl fun c hc => ?_
  have : c + j * n < n * nrhs := by
    have h2 := Finset.mem_range.mp hc
    calc c + j * n < n + j * n := by omega
      _ = n * (j + 1) := by rw [Nat.mul_add, Nat.mul_one, Nat.mul_comm, Nat.add_comm]
      _ ≤ n * nrhs := Nat.mul_le_mul_left _ hj
  rw [if_pos this]

theorem residual_one (m n ldb ldx ldb' ldx' : Nat) (a b x : Nat → Cx K) :
    residual m n 1 ldb ldx a b x = residual m n 1 ldb' ldx' a b x := by
  unfold residual
  simp only [List.range_one, List.map_cons, List.map_nil, Nat.zero_mul]

/-- C146: with one right-hand side, as the scalar and the diagonal solver use it, the normal equations do what a linear
solver must do. -/
theorem normal_minimizes (cposv : Nat → Nat → (Nat → Cx K) → (Nat → Cx K) → Option (Nat → Cx K))
    (hc : SolvesHermitian cposv) : Minimizes (normalEquations cposv) 1 := by
  intro m n a b x hx y
  rw [residual_one m n _ _ m n a b x, residual_one m n _ _ m n a b y]
  exact normal_equations cposv hc m n 1 a b x hx y

/-- C146: and they succeed for independent columns. -/
theorem normal_succeeds (cposv : Nat → Nat → (Nat → Cx K) → (Nat → Cx K) → Option (Nat → Cx K))
    (hp : SucceedsPositive cposv) (nrhs : Nat) : Succeeds (normalEquations cposv) nrhs := by
  intro m n a b _ _ hi
  unfold normalEquations
  rw [Option.isSome_map]
  refine hp n nrhs _ _ ?_
  rintro x ⟨c0, hc0, hx⟩
  rw [list_sum]
  have h1 : ∀ r ∈ Finset.range n, (x r).conj * ((List.range n).map fun c => hermitian n (adaggera m n a) r c * x c).sum =
      ∑ i ∈ Finset.range m, (a (i + r * m) * x r).conj * ∑ c ∈ Finset.range n, a (i + c * m) * x c := by
    intro r hr
    rw [list_sum]
    have : ∀ c ∈ Finset.range n, hermitian n (adaggera m n a) r c * x c =
        ∑ i ∈ Finset.range m, (a (i + r * m)).conj * (a (i + c * m) * x c) := by
      intro c hc
      rw [hermitian_adaggera m n a r c (Finset.mem_range.mp hr) (Finset.mem_range.mp hc), Finset.sum_mul]
      exact Finset.sum_congr rfl fun i _ => by ring
    rw [Finset.sum_congr rfl this, Finset.sum_comm, Finset.mul_sum]
    refine Finset.sum_congr rfl fun i _ => ?_
    rw [← Finset.mul_sum, Cx.conj_mul]
    ring
  rw [Finset.sum_congr rfl h1, Finset.sum_comm]
  have h2 : ∀ i ∈ Finset.range m, ∑ r ∈ Finset.range n, (a (i + r * m) * x r).conj *
      ∑ c ∈ Finset.range n, a (i + c * m) * x c = Cx.ofReal (∑ c ∈ Finset.range n, a (i + c * m) * x c).normSq := by
    intro i _
    rw [← Finset.sum_mul, ← conj_finset_sum, mul_comm, Cx.mul_conj]
  rw [Finset.sum_congr rfl h2, re_sum]
  simp only [Cx.ofReal_re]
  have hnn : ∀ i ∈ Finset.range m, 0 ≤ (∑ c ∈ Finset.range n, a (i + c * m) * x c).normSq := fun i _ => Cx.normSq_nonneg _
  rcases lt_or_eq_of_le (Finset.sum_nonneg hnn) with h | h
  · exact h
  · exfalso
    refine hx (hi x ?_ c0 hc0)
    intro i him
    rw [list_sum]
    exact Cx.normSq_eq_zero.mp ((Finset.sum_eq_zero_iff_of_nonneg hnn).mp h.symm i (Finset.mem_range.mpr him))

/-- C146: whatever solver is selected, the scalar and diagonal solvers get one that minimizes residuals. -/
theorem make_minimizes (cgels cgelss : Lls K)
    (cposv : Nat → Nat → (Nat → Cx K) → (Nat → Cx K) → Option (Nat → Cx K)) (h1 : Minimizes cgels 1)
    (h2 : Minimizes cgelss 1) (h3 : SolvesHermitian cposv) (t : LlsType) :
    Minimizes (makeLls cgels cgelss cposv t) 1 := by
  cases t with
  | qr => exact qr_minimizes cgels 1 h1
  | svd => exact h2
  | normalEquations => exact normal_minimizes cposv h3

/-! ## Examples -/

/-- Solves systems with one unknown. -/
def exCposv (n _nrhs : Nat) (h b : Nat → Cx ℚ) : Option (Nat → Cx ℚ) :=
  if n = 1 ∧ (h 0).im = 0 ∧ (h 0).re ≠ 0 then some fun i => (b i).divReal (h 0).re else none

theorem exCposv_solves : SolvesHermitian exCposv := by
  intro n nrhs h b x hx p hp r hr
  unfold exCposv at hx
  split_ifs at hx with hc
  obtain ⟨rfl, him, hre⟩ := hc
  rw [Option.some.injEq] at hx
  subst hx
  have hr : r = 0 := by omega
  subst hr
  simp only [List.range_one, List.map_cons, List.map_nil, List.sum_cons, List.sum_nil, hermitian, Nat.le_refl, if_true,
    Nat.zero_mul, Nat.add_zero, Nat.mul_one, Nat.zero_add, add_zero]
  ext
  · simp only [Cx.mul_re, Cx.divReal, him, zero_mul, sub_zero]; rw [mul_div_cancel₀ _ hre]
  · simp only [Cx.mul_im, Cx.divReal, him, zero_mul, add_zero]; rw [mul_div_cancel₀ _ hre]

/-- With more right-hand sides the normal equations do not do the same as the other solvers: the columns of the
solutions are not at the distance of those of the right-hand sides, of which the second one has no solution here. No
solver uses it in this way. -/
theorem normal_columns : ∃ cposv : Nat → Nat → (Nat → Cx ℚ) → (Nat → Cx ℚ) → Option (Nat → Cx ℚ),
    SolvesHermitian cposv ∧ ¬ Minimizes (normalEquations cposv) 2 := by
  refine ⟨exCposv, exCposv_solves, fun h => ?_⟩
  have := h 2 1 (fun i => if i = 0 then ⟨2, 0⟩ else 0) (fun i => if i = 0 then ⟨2, 0⟩ else if i = 2 then ⟨4, 0⟩ else 0)
    (fun i => if i < 1 * 2 then (adaggerb 2 1 (fun i => if i = 0 then ⟨2, 0⟩ else 0)
      (fun i => if i = 0 then ⟨2, 0⟩ else if i = 2 then ⟨4, 0⟩ else 0) i).divReal 4
      else if i = 0 then ⟨2, 0⟩ else if i = 2 then ⟨4, 0⟩ else 0)
    (by
      unfold normalEquations exCposv
      rw [if_pos ⟨rfl, by decide +kernel, by decide +kernel⟩]
      have : (adaggera 2 1 (fun i => if i = 0 then (⟨2, 0⟩ : Cx ℚ) else 0) 0).re = 4 := by decide +kernel
      rw [this]
      rfl)
    (fun i => if i = 0 then ⟨1, 0⟩ else ⟨2, 0⟩)
  revert this
  decide +kernel

open Classical in
/-- A solver that gives a solution whenever there is one that minimizes the residuals. -/
noncomputable def exLls : Lls ℚ := fun m n nrhs a b =>
  if h : ∃ x, ∀ y, residual m n nrhs (max m n) (max m n) a b x ≤ residual m n nrhs (max m n) (max m n) a b y then
    some h.choose else none

theorem exLls_minimizes (nrhs : Nat) : Minimizes exLls nrhs := by
  intro m n a b x hx
  unfold exLls at hx
  split_ifs at hx with h
  rw [Option.some.injEq] at hx
  rw [← hx]
  exact h.choose_spec

theorem exLls_succeeds (nrhs : Nat) : Succeeds exLls nrhs := by
  intro m n a b _ hy _
  obtain ⟨y, hy⟩ := hy
  unfold exLls
  rw [dif_pos ⟨y, fun z => by rw [hy]; exact residual_nonneg _ _ _ _ _ _ _ _⟩]
  rfl

/-- Three antennas and two directions. The model of the first direction has different elements for each baseline. -/
def exModel (b s : Nat) : M2 ℚ :=
  if s = 0 then ⟨⟨1, b⟩, ⟨0, 2⟩, ⟨b, 1⟩, ⟨3, 0⟩⟩ else ⟨⟨2, 0⟩, ⟨1, 1⟩, ⟨0, b⟩, ⟨1, 1⟩⟩

/-- The solutions. -/
def exSols (i : Nat) : Cx ℚ := if i = 0 then ⟨1, 1⟩ else if i = 1 then ⟨2, 0⟩ else if i = 2 then ⟨0, 1⟩ else ⟨1, i⟩

/-- Visibilities without data. -/
def exBase : List (Vis ℚ) := [⟨0, 0, 1, exModel 1⟩, ⟨0, 0, 2, exModel 2⟩, ⟨0, 2, 1, exModel 3⟩]

/-- Visibilities with data that are predicted from Jones matrices. -/
def exVis (J : Nat → Nat → M2 ℚ) : List (Vis ℚ) := exBase.map fun v => ⟨predicted 2 J v, v.ant1, v.ant2, v.model⟩

theorem exLayout (J : Nat → Nat → M2 ℚ) : Layout 3 (exVis J) := by
  intro v hv
  simp only [exVis, exBase, List.map_cons, List.map_nil, List.mem_cons, List.not_mem_nil, or_false] at hv
  rcases hv with rfl | rfl | rfl <;> simp

theorem exExact (J : Nat → Nat → M2 ℚ) : ∀ v ∈ exVis J, v.data = predicted 2 J v := by
  intro v hv
  simp only [exVis, List.mem_map] at hv
  obtain ⟨v, -, rfl⟩ := hv
  rfl

example := scalar_least_squares exLls (exLls_minimizes 1) 3 2 (exVis (fullJones 2 exSols)) exSols (exLayout _)

example := diagonal_least_squares exLls (exLls_minimizes 1) 3 2 (exVis (fullJones 2 exSols)) exSols (exLayout _)

example := full_least_squares exLls (exLls_minimizes 2) 3 2 (exVis (scalarJones 2 exSols)) exSols (exLayout _)

/-- What the first baseline says about the solutions of its first antenna. -/
theorem exFirst (J : Nat → Nat → M2 ℚ) (g h : Nat → M2 ℚ)
    (hp : ∀ v ∈ exVis J, predicted 2 (withAntenna J 0 g) v = predicted 2 (withAntenna J 0 h) v) :
    g 0 * exModel 1 0 * (J 1 0).herm + g 1 * exModel 1 1 * (J 1 1).herm =
      h 0 * exModel 1 0 * (J 1 0).herm + h 1 * exModel 1 1 * (J 1 1).herm ∧
    g 0 * exModel 2 0 * (J 2 0).herm + g 1 * exModel 2 1 * (J 2 1).herm =
      h 0 * exModel 2 0 * (J 2 0).herm + h 1 * exModel 2 1 * (J 2 1).herm := by
  constructor
  · have := hp ⟨predicted 2 J ⟨0, 0, 1, exModel 1⟩, 0, 1, exModel 1⟩ (by simp [exVis, exBase])
    simpa [predicted, withAntenna, List.range_succ] using this
  · have := hp ⟨predicted 2 J ⟨0, 0, 2, exModel 2⟩, 0, 2, exModel 2⟩ (by simp [exVis, exBase])
    simpa [predicted, withAntenna, List.range_succ] using this

theorem exScalarDetermined (sols : Nat → Cx ℚ) (hs2 : sols 2 = ⟨0, 1⟩) (hs3 : sols 3 = ⟨1, 3⟩) :
    Determined 2 (scalarJones 2 sols) (exVis (scalarJones 2 sols)) 0
    fun g => ∃ y : Nat → Cx ℚ, g = fun s => scalarMatrix (y s) := by
  rintro g h ⟨y, rfl⟩ ⟨z, rfl⟩ hp s hs
  have h1 := (exFirst _ _ _ hp).1
  have ha := congrArg M2.a h1
  have hb := congrArg M2.b h1
  rw [Cx.ext_iff] at ha hb
  simp [exModel, hs2, hs3, scalarJones, scalarMatrix, M2.herm, Cx.conj] at ha hb
  obtain ⟨h1, h2⟩ := ha
  obtain ⟨h3, h4⟩ := hb
  have hs' : s = 0 ∨ s = 1 := by omega
  rcases hs' with rfl | rfl
  · have : y 0 = z 0 := by ext <;> linarith
    simp only [this]
  · have : y 1 = z 1 := by ext <;> linarith
    simp only [this]

example : ∃ next, scalarIteration exLls 3 2 (exVis (scalarJones 2 exSols)) exSols = some next ∧
    next 0 0 = some ⟨1, 1⟩ ∧ next 0 1 = some ⟨2, 0⟩ := by
  obtain ⟨next, h, hn⟩ := scalar_exact_partial exLls (exLls_minimizes 1) (exLls_succeeds 1) 3 2 _ exSols (exLayout _)
    (exExact _) 0 (by decide) (exScalarDetermined exSols rfl rfl)
  have hz : ¬ exSols (0 * 2) = 0 := by decide +kernel
  refine ⟨next, h, ?_, ?_⟩
  · rw [hn 0 (by decide), if_neg hz]; decide +kernel
  · rw [hn 1 (by decide), if_neg hz]; decide +kernel

/-- C145 fails when the first solution is zero: the second one is found but replaced by NaN. -/
theorem zero_first : ∃ next, scalarIteration exLls 3 2 (exVis (scalarJones 2 fun i => if i = 0 then 0 else exSols i))
    (fun i => if i = 0 then 0 else exSols i) = some next ∧ next 0 1 = none := by
  obtain ⟨next, h, hn⟩ := scalar_exact_partial exLls (exLls_minimizes 1) (exLls_succeeds 1) 3 2 _
    (fun i => if i = 0 then 0 else exSols i) (exLayout _) (exExact _) 0 (by decide)
    (exScalarDetermined (fun i => if i = 0 then 0 else exSols i) rfl rfl)
  exact ⟨next, h, by rw [hn 1 (by decide)]; rfl⟩

theorem exDiagonalDetermined : Determined 2 (diagonalJones 2 exSols) (exVis (diagonalJones 2 exSols)) 0
    fun g => ∃ x y : Nat → Cx ℚ, g = fun s => diagonalMatrix (x s) (y s) := by
  rintro g h ⟨x, y, rfl⟩ ⟨x', y', rfl⟩ hp s hs
  have h1 := (exFirst _ _ _ hp).1
  have ha := congrArg M2.a h1
  have hb := congrArg M2.b h1
  have hc := congrArg M2.c h1
  have hd := congrArg M2.d h1
  rw [Cx.ext_iff] at ha hb hc hd
  simp [exModel, exSols, diagonalJones, diagonalMatrix, M2.herm, Cx.conj] at ha hb hc hd
  obtain ⟨h1, h2⟩ := ha
  obtain ⟨h3, h4⟩ := hb
  obtain ⟨h5, h6⟩ := hc
  obtain ⟨h7, h8⟩ := hd
  have hs' : s = 0 ∨ s = 1 := by omega
  rcases hs' with rfl | rfl
  · have e1 : x 0 = x' 0 := by ext <;> linarith
    have e2 : y 0 = y' 0 := by ext <;> linarith
    simp only [e1, e2]
  · have e1 : x 1 = x' 1 := by ext <;> linarith
    have e2 : y 1 = y' 1 := by ext <;> linarith
    simp only [e1, e2]

example : ∃ next, diagonalIteration exLls 3 2 (exVis (diagonalJones 2 exSols)) exSols = some next ∧
    next 0 1 0 = some ⟨0, 1⟩ := by
  obtain ⟨next, h, hn⟩ := diagonal_exact_partial exLls (exLls_minimizes 1) (exLls_succeeds 1) 3 2 _ exSols (exLayout _)
    (exExact _) 0 (by decide) exDiagonalDetermined
  have hz : ¬ exSols (0 * 2 * 2 + 0) = 0 := by decide +kernel
  refine ⟨next, h, ?_⟩
  rw [hn 1 (by decide) 0 (by decide), if_neg hz]; decide +kernel

set_option maxHeartbeats 1000000 in
theorem exFullDetermined : Determined 2 (fullJones 2 exSols) (exVis (fullJones 2 exSols)) 0 fun _ => True := by
  rintro g h - - hp s hs
  obtain ⟨h1, h2⟩ := exFirst _ _ _ hp
  have ha := congrArg M2.a h1
  have hb := congrArg M2.b h1
  have hc := congrArg M2.c h1
  have hd := congrArg M2.d h1
  have ha' := congrArg M2.a h2
  have hb' := congrArg M2.b h2
  have hc' := congrArg M2.c h2
  have hd' := congrArg M2.d h2
  rw [Cx.ext_iff] at ha hb hc hd ha' hb' hc' hd'
  simp [exModel, exSols, fullJones, jonesAt, M2.herm, Cx.conj] at ha hb hc hd ha' hb' hc' hd'
  obtain ⟨h1, h2⟩ := ha
  obtain ⟨h3, h4⟩ := hb
  obtain ⟨h5, h6⟩ := hc
  obtain ⟨h7, h8⟩ := hd
  obtain ⟨i1, i2⟩ := ha'
  obtain ⟨i3, i4⟩ := hb'
  obtain ⟨i5, i6⟩ := hc'
  obtain ⟨i7, i8⟩ := hd'
  have hs' : s = 0 ∨ s = 1 := by omega
  rcases hs' with rfl | rfl
  · exact M2.ext (by ext <;> linarith only [h1, h2, h3, h4, i1, i2, i3, i4])
      (by ext <;> linarith only [h1, h2, h3, h4, i1, i2, i3, i4])
      (by ext <;> linarith only [h5, h6, h7, h8, i5, i6, i7, i8])
      (by ext <;> linarith only [h5, h6, h7, h8, i5, i6, i7, i8])
  · exact M2.ext (by ext <;> linarith only [h1, h2, h3, h4, i1, i2, i3, i4])
      (by ext <;> linarith only [h1, h2, h3, h4, i1, i2, i3, i4])
      (by ext <;> linarith only [h5, h6, h7, h8, i5, i6, i7, i8])
      (by ext <;> linarith only [h5, h6, h7, h8, i5, i6, i7, i8])

example : ∃ next, fullIteration exLls 3 2 (exVis (fullJones 2 exSols)) exSols = some next ∧
    next 0 0 2 = some ⟨0, 1⟩ ∧ next 0 1 3 = some ⟨1, 7⟩ := by
  obtain ⟨next, h, hn⟩ := full_exact_partial exLls (exLls_minimizes 2) (exLls_succeeds 2) 3 2 _ exSols (exLayout _)
    (exExact _) 0 (by decide) exFullDetermined
  have hz : ¬ exSols (0 * 2 * 4) = 0 := by decide +kernel
  refine ⟨next, h, ?_, ?_⟩
  · rw [hn 0 (by decide) 2 (by decide), if_neg hz]; decide +kernel
  · rw [hn 1 (by decide) 3 (by decide), if_neg hz]; decide +kernel

example := make_minimizes exLls exLls exCposv (exLls_minimizes 1) (exLls_minimizes 1) exCposv_solves .normalEquations

end DP3.DirectSolver
