import Verif.DirectSolver.Model
import Mathlib.Tactic.Abel

/-!
# What the loops that fill the matrices lead to

The rows of the matrix of an antenna are those of the visibilities in which it participates, in their order.
-/

namespace DP3.DirectSolver

set_option linter.unusedSectionVars false
set_option linter.unusedSimpArgs false

variable {K : Type} [CommRing K]

/-- All assignments of a loop, from the given positions. -/
def trace : (Nat → Nat) → List (Body K) → List (Write K)
  | _, [] => []
  | pos, b :: bs => b.writes pos ++ trace (b.bumps.foldl bump pos) bs

theorem run_eq (bs : List (Body K)) : ∀ (pos : Nat → Nat) (m : Mats K),
    (bs.foldlM runBody (pos, m)).map Prod.snd = (trace pos bs).foldlM Mats.set m := by
  induction bs with
  | nil => intro pos m; rfl
  | cons b bs ih =>
    intro pos m
    rw [trace, List.foldlM_append, List.foldlM_cons, runBody]
    cases h : (b.writes pos).foldlM Mats.set m with
    | none => simp
    | some m1 =>
      simp only [Option.map_some, Option.bind_eq_bind, Option.bind_some]
      exact ih _ _

theorem fill_eq (m : Mats K) (bs : List (Body K)) : fill m bs = (trace (fun _ => 0) bs).foldlM Mats.set m :=
  run_eq bs _ _

theorem fills_eq (f : Nat → List (Body K)) (ss : List Nat) : ∀ m : Mats K,
    ss.foldlM (fun gs s => fill gs (f s)) m = (ss.flatMap fun s => trace (fun _ => 0) (f s)).foldlM Mats.set m := by
  induction ss with
  | nil => intro m; rfl
  | cons s ss ih =>
    intro m
    rw [List.flatMap_cons, List.foldlM_append, List.foldlM_cons, fill_eq]
    cases h : (trace (fun _ => 0) (f s)).foldlM Mats.set m with
    | none => rfl
    | some m1 => exact ih m1

/-- Assignments that agree with `E`. -/
theorem setAll (E : Nat → Nat → Cx K) (ws : List (Write K)) : ∀ m : Mats K,
    (∀ w ∈ ws, w.slot < m.slots ∧ m.index w.slot w.row w.col < m.rows w.slot * m.cols ∧
      w.x = E w.slot (m.index w.slot w.row w.col)) →
    ∃ m', ws.foldlM Mats.set m = some m' ∧ m'.rows = m.rows ∧
      (∀ t i, (∃ w ∈ ws, w.slot = t ∧ m.index w.slot w.row w.col = i) → m'.val t i = E t i) ∧
      (∀ t i, m.val t i = E t i → m'.val t i = E t i) := by
  induction ws with
  | nil => intro m _; exact ⟨m, rfl, rfl, by simp, fun _ _ h => h⟩
  | cons w ws ih =>
    intro m h
    obtain ⟨h1, h2, h3⟩ := h w List.mem_cons_self
    have hset : m.set w = some (Mats.mk m.slots m.rows m.cols (fun t i =>
        if t = w.slot ∧ i = m.index w.slot w.row w.col then w.x else m.val t i)) := by
      unfold Mats.set; rw [if_pos ⟨h1, h2⟩]
    rw [List.foldlM_cons, hset]
    simp only [Option.bind_eq_bind, Option.bind_some]
    obtain ⟨m', hm', hr, hv, ho⟩ := ih (Mats.mk m.slots m.rows m.cols (fun t i =>
        if t = w.slot ∧ i = m.index w.slot w.row w.col then w.x else m.val t i))
      (fun w' hw' => h w' (List.mem_cons_of_mem _ hw'))
    refine ⟨m', hm', hr, ?_, ?_⟩
    · rintro t i ⟨w', hw', ht, hi⟩
      rcases List.mem_cons.mp hw' with rfl | hw'
      · refine ho t i ?_
        dsimp only
        rw [if_pos ⟨ht.symm, hi.symm⟩, h3, hi, ht]
      · exact hv t i ⟨w', hw', ht, hi⟩
    · intro t i hE
      refine ho t i ?_
      dsimp only
      split_ifs with hc
      · rw [h3, hc.1, hc.2]
      · exact hE

/-- What the loop bodies of the visibilities (or what else is looped over) assign: `R` has the rows that are added
to each matrix, `u` is the number of rows for one position, and `C` says which columns are filled. -/
structure Good {X : Type} (u : Nat) (body : X → Body K) (R : X → Nat → List (Nat → Cx K)) (C : Nat → Prop)
    (k : X) : Prop where
  bumps : ∀ pos t, ((body k).bumps.foldl bump pos t) * u = pos t * u + (R k t).length
  sound : ∀ pos, ∀ w ∈ (body k).writes pos, C w.col ∧ ∃ i : Nat,
    w.row = pos w.slot * u + i ∧ ((R k w.slot)[i]?).map (fun f => f w.col) = some w.x
  cover : ∀ pos t i, i < (R k t).length → ∀ c, C c →
    ∃ w ∈ (body k).writes pos, w.slot = t ∧ w.row = pos t * u + i ∧ w.col = c

variable {X : Type} {u : Nat} {body : X → Body K} {R : X → Nat → List (Nat → Cx K)} {C : Nat → Prop}

theorem trace_sound (ks : List X) : ∀ pos, (∀ k ∈ ks, Good u body R C k) →
    ∀ w ∈ trace pos (ks.map body), C w.col ∧ ∃ (i : Nat) (f : Nat → Cx K),
      w.row = pos w.slot * u + i ∧ (ks.flatMap fun k => R k w.slot)[i]? = some f ∧ f w.col = w.x := by
  induction ks with
  | nil => intro pos _ w hw; simp [trace] at hw
  | cons k ks ih =>
    intro pos hg w hw
    have hk := hg k List.mem_cons_self
    rw [List.map_cons, trace, List.mem_append] at hw
    rw [List.flatMap_cons]
    rcases hw with hw | hw
    · obtain ⟨hC, i, h1, h2⟩ := hk.sound pos w hw
      obtain ⟨f, h2, h3⟩ := Option.map_eq_some_iff.mp h2
      refine ⟨hC, i, f, h1, ?_, h3⟩
      have hi : i < (R k w.slot).length := (List.getElem?_eq_some_iff.mp h2).1
      rw [List.getElem?_append_left hi, h2]
    · obtain ⟨hC, i, f, h1, h2, h3⟩ := ih _ (fun k' h' => hg k' (List.mem_cons_of_mem _ h')) w hw
      refine ⟨hC, (R k w.slot).length + i, f, ?_, ?_, h3⟩
      · rw [h1, hk.bumps]; omega
      · rw [List.getElem?_append_right (by omega), Nat.add_sub_cancel_left, h2]

theorem trace_cover (ks : List X) : ∀ pos, (∀ k ∈ ks, Good u body R C k) →
    ∀ t i, i < (ks.flatMap fun k => R k t).length → ∀ c, C c →
      ∃ w ∈ trace pos (ks.map body), w.slot = t ∧ w.row = pos t * u + i ∧ w.col = c := by
  induction ks with
  | nil => intro pos _ t i hi; simp at hi
  | cons k ks ih =>
    intro pos hg t i hi c hc
    have hk := hg k List.mem_cons_self
    rw [List.flatMap_cons, List.length_append] at hi
    rw [List.map_cons, trace]
    by_cases h : i < (R k t).length
    · obtain ⟨w, hw, h1⟩ := hk.cover pos t i h c hc
      exact ⟨w, List.mem_append_left _ hw, h1⟩
    · obtain ⟨w, hw, h1, h2, h3⟩ := ih ((body k).bumps.foldl bump pos)
        (fun k' h' => hg k' (List.mem_cons_of_mem _ h')) t (i - (R k t).length) (by omega) c hc
      refine ⟨w, List.mem_append_right _ hw, h1, ?_, h3⟩
      rw [h2, hk.bumps]; omega

/-- Assignments that agree with rows `cont` and cover them. -/
theorem filled (slots : Nat) (rows : Nat → Nat) (cols : Nat) (ws : List (Write K)) (cont : Nat → List (Nat → Cx K))
    (sound : ∀ w ∈ ws, w.col < cols ∧ ∃ f, (cont w.slot)[w.row]? = some f ∧ f w.col = w.x)
    (cover : ∀ t i, i < (cont t).length → ∀ c < cols, ∃ w ∈ ws, w.slot = t ∧ w.row = i ∧ w.col = c)
    (hlen : ∀ t, (cont t).length ≤ rows t) (hslots : ∀ t, cont t ≠ [] → t < slots) :
    ∃ m', ws.foldlM Mats.set (reset slots rows cols) = some m' ∧ m'.rows = rows ∧
      ∀ t (i : Nat) f, (cont t)[i]? = some f → ∀ c < cols, m'.val t (i + c * rows t) = f c := by
  have key : ∀ t i c, i < (cont t).length → (i + c * rows t) % rows t = i ∧ (i + c * rows t) / rows t = c := by
    intro t i c hi
    have := hlen t
    constructor
    · rw [Nat.add_mul_mod_self_right, Nat.mod_eq_of_lt (by omega)]
    · rw [Nat.add_mul_div_right _ _ (by omega), Nat.div_eq_of_lt (by omega), Nat.zero_add]
  obtain ⟨m', h1, h2, h3, _⟩ := setAll
    (fun t i => ((cont t)[i % rows t]?.getD (fun _ => 0)) (i / rows t)) ws (reset slots rows cols) (by
      intro w hw
      obtain ⟨hc, f, hf, hx⟩ := sound w hw
      have hi : w.row < (cont w.slot).length := (List.getElem?_eq_some_iff.mp hf).1
      refine ⟨hslots _ ?_, ?_, ?_⟩
      · intro h; rw [h] at hi; simp at hi
      · show w.row + w.col * rows w.slot < rows w.slot * cols
        have hr := hlen w.slot
        calc w.row + w.col * rows w.slot < rows w.slot + w.col * rows w.slot := by omega
          _ = rows w.slot * (w.col + 1) := by rw [Nat.mul_add, Nat.mul_one, Nat.mul_comm, Nat.add_comm]
          _ ≤ rows w.slot * cols := Nat.mul_le_mul_left _ hc
      · show w.x = ((cont w.slot)[(w.row + w.col * rows w.slot) % rows w.slot]?.getD (fun _ => 0))
          ((w.row + w.col * rows w.slot) / rows w.slot)
        rw [(key _ _ w.col hi).1, (key _ _ w.col hi).2, hf, Option.getD_some, hx])
  refine ⟨m', h1, h2, ?_⟩
  intro t i f hf c hc
  have hi : i < (cont t).length := (List.getElem?_eq_some_iff.mp hf).1
  obtain ⟨w, hw, hs, hr, hcol⟩ := cover t i hi c hc
  rw [h3 t (i + c * rows t) ⟨w, hw, hs, by subst hs hr hcol; rfl⟩]
  rw [(key t i c hi).1, (key t i c hi).2, hf, Option.getD_some]

/-- The rows of one fill, from the bodies of all columns `s`. -/
theorem filled_bodies {u w : Nat} (hw : 0 < w) (slots : Nat) (rows : Nat → Nat) (nSub : Nat) (ks : List X)
    (body : Nat → X → Body K) (R : X → Nat → List (Nat → Cx K))
    (good : ∀ s < nSub, ∀ k ∈ ks, Good u (body s) R (fun c => c / w = s) k)
    (hlen : ∀ t, (ks.flatMap fun k => R k t).length ≤ rows t)
    (hslots : ∀ t, (ks.flatMap fun k => R k t) ≠ [] → t < slots) :
    ∃ m', (List.range nSub).foldlM (fun gs s => fill gs (ks.map (body s))) (reset slots rows (nSub * w)) = some m' ∧
      m'.rows = rows ∧ ∀ t (i : Nat) f, (ks.flatMap fun k => R k t)[i]? = some f → ∀ c < nSub * w,
        m'.val t (i + c * rows t) = f c := by
  rw [fills_eq]
  refine filled slots rows (nSub * w) _ (fun t => ks.flatMap fun k => R k t) ?_ ?_ hlen hslots
  · intro x hx
    obtain ⟨s, hs, hx⟩ := List.mem_flatMap.mp hx
    have hs := List.mem_range.mp hs
    obtain ⟨hC, i, f, h1, h2, h3⟩ := trace_sound ks (fun _ => 0) (good s hs) x hx
    refine ⟨?_, f, ?_, h3⟩
    · exact (Nat.div_lt_iff_lt_mul hw).mp (by rw [hC]; exact hs)
    · rw [h1]; simpa using h2
  · intro t i hi c hc
    have hs : c / w < nSub := (Nat.div_lt_iff_lt_mul hw).mpr hc
    obtain ⟨x, hx, h1, h2, h3⟩ := trace_cover ks (fun _ => 0) (good _ hs) t i hi c rfl
    exact ⟨x, List.mem_flatMap.mpr ⟨c / w, List.mem_range.mpr hs, hx⟩, h1, by simpa using h2, h3⟩

/-- The same for a single loop. -/
theorem filled_once {u : Nat} (slots : Nat) (rows : Nat → Nat) (cols : Nat) (ks : List X)
    (body : X → Body K) (R : X → Nat → List (Nat → Cx K))
    (good : ∀ k ∈ ks, Good u body R (fun c => c < cols) k)
    (hlen : ∀ t, (ks.flatMap fun k => R k t).length ≤ rows t)
    (hslots : ∀ t, (ks.flatMap fun k => R k t) ≠ [] → t < slots) :
    ∃ m', fill (reset slots rows cols) (ks.map body) = some m' ∧
      m'.rows = rows ∧ ∀ t (i : Nat) f, (ks.flatMap fun k => R k t)[i]? = some f → ∀ c < cols,
        m'.val t (i + c * rows t) = f c := by
  rw [fill_eq]
  refine filled slots rows cols _ (fun t => ks.flatMap fun k => R k t) ?_ ?_ hlen hslots
  · intro x hx
    obtain ⟨hC, i, f, h1, h2, h3⟩ := trace_sound ks (fun _ => 0) good x hx
    refine ⟨hC, f, ?_, h3⟩
    rw [h1]; simpa using h2
  · intro t i hi c hc
    obtain ⟨x, hx, h1, h2, h3⟩ := trace_cover ks (fun _ => 0) good t i hi c hc
    exact ⟨x, hx, h1, by simpa using h2, h3⟩

/-! ## Sums -/

/-- The sum over the rows of a list is that over their numbers. -/
theorem sum_rows {A : Type} [AddCommMonoid A] {Y : Type} (l : List Y) (f : Nat → A) (g : Y → A)
    (h : ∀ (i : Nat) y, l[i]? = some y → f i = g y) : ((List.range l.length).map f).sum = (l.map g).sum := by
  congr 1
  apply List.ext_getElem
  · simp
  · intro i h1 h2
    simp only [List.getElem_map, List.getElem_range]
    exact h i _ (List.getElem?_eq_getElem (by simpa using h2))

theorem sum_flatMap {A : Type} [AddCommMonoid A] {Y Z : Type} (l : List Y) (f : Y → List Z) (g : Z → A) :
    ((l.flatMap f).map g).sum = (l.map fun y => ((f y).map g).sum).sum := by
  induction l with
  | nil => rfl
  | cons y l ih => simp only [List.flatMap_cons, List.map_append, List.sum_append, List.map_cons, List.sum_cons, ih]

theorem sum_add {A : Type} [AddCommMonoid A] {Y : Type} (l : List Y) (f g : Y → A) :
    (l.map fun y => f y + g y).sum = (l.map f).sum + (l.map g).sum := by
  induction l with
  | nil => simp
  | cons y l ih => simp only [List.map_cons, List.sum_cons, ih]; abel

theorem sum_congr {A : Type} [AddCommMonoid A] {Y : Type} (l : List Y) (f g : Y → A) (h : ∀ y ∈ l, f y = g y) :
    (l.map f).sum = (l.map g).sum := by
  rw [List.map_congr_left h]

theorem conj_sum (l : List (Cx K)) : (l.sum).conj = (l.map Cx.conj).sum := by
  induction l with
  | nil => simp
  | cons x l ih => rw [List.sum_cons, List.map_cons, List.sum_cons, Cx.conj_add, ih]

theorem sum_mul {Y : Type} (l : List Y) (f : Y → Cx K) (x : Cx K) :
    (l.map f).sum * x = (l.map fun y => f y * x).sum := by
  induction l with
  | nil => simp
  | cons y l ih => rw [List.map_cons, List.map_cons, List.sum_cons, List.sum_cons, add_mul, ih]

theorem mul_sum {Y : Type} (l : List Y) (f : Y → Cx K) (x : Cx K) :
    x * (l.map f).sum = (l.map fun y => x * f y).sum := by
  rw [mul_comm, sum_mul]; simp only [mul_comm]

/-- Sums over an even number of terms in pairs. -/
theorem sum_pairs {A : Type} [AddCommMonoid A] (f : Nat → A) (n : Nat) :
    ((List.range (n * 2)).map f).sum = ((List.range n).map fun s => f (s * 2) + f (s * 2 + 1)).sum := by
  induction n with
  | zero => rfl
  | succ n ih =>
    rw [show (n + 1) * 2 = n * 2 + 1 + 1 by omega, List.range_succ, List.range_succ, List.range_succ]
    simp only [List.map_append, List.sum_append, List.map_cons, List.map_nil, List.sum_cons, List.sum_nil, ih]
    rw [show n * 2 = n * 2 by rfl]
    abel

end DP3.DirectSolver
