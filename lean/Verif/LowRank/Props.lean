import Verif.LowRank.EigenProps

/-!
# Directions, channel blocks and iterations of the low rank solver

C219, C220 and C221.
-/

namespace DP3.LowRank

set_option linter.unusedSimpArgs false
set_option linter.unusedSectionVars false

open ComplexConjugate

/-! ## The order of the directions -/

section Order
variable {F : Type} [AddCommMonoid F] [LinearOrder F]

/-- The power of a direction: the sum of the norms of its model data over all visibilities, of all channel blocks, of which
the weight is not zero. -/
def directionPower (blocks : List (List (F × (Nat → F)))) (d : Nat) : F :=
  ((blocks.flatten.filter fun x => x.1 ≠ 0).map fun x => x.2 d).sum

private theorem normSum_eq (blocks : List (List (F × (Nat → F)))) (d : Nat) : normSum blocks d = directionPower blocks d := by
  have h1 : ∀ (l : List (F × (Nat → F))) (s : F), l.foldl (fun s x => if x.1 ≠ 0 then s + x.2 d else s) s =
      s + ((l.filter fun x => x.1 ≠ 0).map fun x => x.2 d).sum := by
    intro l
    induction l with
    | nil => simp
    | cons x l ih =>
      intro s
      rw [List.foldl_cons, ih]
      by_cases hx : x.1 = 0
      · simp [hx]
      · simp [hx, add_assoc]
  have h2 : ∀ (bs : List (List (F × (Nat → F)))) (s : F), bs.foldl (fun s vis =>
      vis.foldl (fun s x => if x.1 ≠ 0 then s + x.2 d else s) s) s = s + directionPower bs d := by
    intro bs
    induction bs with
    | nil => simp [directionPower]
    | cons b bs ih =>
      intro s
      rw [List.foldl_cons, ih, h1]
      simp [directionPower, add_assoc]
  unfold normSum
  rw [h2, zero_add]

private instance : Std.Total (α := F × Nat) fun x y => y.1 < x.1 ∨ (¬ x.1 < y.1 ∧ y.2 ≤ x.2) where
  total := by
    intro a b
    rcases lt_trichotomy a.1 b.1 with h | h | h
    · exact Or.inr (Or.inl h)
    · rcases Nat.le_total a.2 b.2 with h' | h'
      · exact Or.inr (Or.inr ⟨by rw [h]; exact lt_irrefl _, h'⟩)
      · exact Or.inl (Or.inr ⟨by rw [h]; exact lt_irrefl _, h'⟩)
    · exact Or.inl (Or.inl h)

private instance : IsTrans (F × Nat) fun x y => y.1 < x.1 ∨ (¬ x.1 < y.1 ∧ y.2 ≤ x.2) where
  trans := by
    rintro a b c (h1 | ⟨h1, h2⟩) (h3 | ⟨h3, h4⟩)
    · exact Or.inl (lt_trans h3 h1)
    · exact Or.inl (lt_of_le_of_lt (not_lt.1 h3) h1)
    · exact Or.inl (lt_of_lt_of_le h3 (not_lt.1 h1))
    · exact Or.inr ⟨fun h => h1 (lt_of_lt_of_le h (not_lt.1 h3)), le_trans h4 h2⟩

/-- The order that is made from the present data: all directions, each once, and none before one with a larger
power. -/
private theorem normOrder_spec (nDir : Nat) (blocks : List (List (F × (Nat → F)))) :
    (normOrder nDir blocks).Perm (List.range nDir) ∧
    (normOrder nDir blocks).Pairwise fun d e => directionPower blocks e ≤ directionPower blocks d := by
  set l := (List.range nDir).map fun (d : Nat) => (normSum blocks d, d) with hl
  have hp := List.perm_insertionSort (fun x y : F × Nat => y.1 < x.1 ∨ (¬ x.1 < y.1 ∧ y.2 ≤ x.2)) l
  have hs := List.pairwise_insertionSort (fun x y : F × Nat => y.1 < x.1 ∨ (¬ x.1 < y.1 ∧ y.2 ≤ x.2)) l
  refine ⟨?_, ?_⟩
  · unfold normOrder
    refine (hp.map Prod.snd).trans (List.Perm.of_eq ?_)
    rw [hl, List.map_map]
    simp [Function.comp_def]
  · unfold normOrder
    rw [List.pairwise_map]
    have hmem : ∀ x ∈ l.insertionSort (fun x y : F × Nat => y.1 < x.1 ∨ (¬ x.1 < y.1 ∧ y.2 ≤ x.2)),
        x.1 = normSum blocks x.2 := by
      intro x hx
      have := hp.mem_iff.1 hx
      rw [hl, List.mem_map] at this
      obtain ⟨d, -, rfl⟩ := this
      rfl
    refine List.Pairwise.imp_of_mem ?_ hs
    intro a b ha hb hab
    rw [← normSum_eq, ← normSum_eq, ← hmem a ha, ← hmem b hb]
    rcases hab with h | h
    · exact h.le
    · exact not_lt.1 h.1

/-- C219: the order after a number of solves. -/
def orders (immediate : Bool) (nDir : Nat) (solves : List (List (List (F × (Nat → F))))) : List Nat :=
  solves.foldl (orderAfter immediate nDir) []

private theorem orders_append (immediate : Bool) (nDir : Nat) (solves : List (List (List (F × (Nat → F))))) :
    ∀ old, ∃ rest, solves.foldl (orderAfter immediate nDir) old = old ++ rest := by
  induction solves with
  | nil => exact fun old => ⟨[], by simp⟩
  | cons b bs ih =>
    intro old
    obtain ⟨rest, h⟩ := ih (orderAfter immediate nDir old b)
    exact ⟨_, by rw [List.foldl_cons, h, orderAfter, List.append_assoc]⟩

/-- C219: in every solve the directions that are used are all directions, each once; with immediate subtraction none is
before one with a larger power in the data of the *first* solve, and the vector with the order has as many elements
as there were solves times the number of directions. -/
theorem directions_partial (immediate : Bool) (nDir : Nat) (first : List (List (F × (Nat → F))))
    (later : List (List (List (F × (Nat → F))))) :
    ((orders immediate nDir (first :: later)).take nDir).Perm (List.range nDir) ∧
    (immediate = true → ((orders immediate nDir (first :: later)).take nDir).Pairwise
      fun d e => directionPower first e ≤ directionPower first d) ∧
    (immediate = false → (orders immediate nDir (first :: later)).take nDir = List.range nDir) ∧
    (orders immediate nDir (first :: later)).length = (later.length + 1) * nDir := by
  have hlen : ∀ b : List (List (F × (Nat → F))), (if immediate then normOrder nDir b else List.range nDir : List Nat).length = nDir := by
    intro b
    split
    · rw [(normOrder_spec nDir b).1.length_eq, List.length_range]
    · rw [List.length_range]
  have hfirst : (orders immediate nDir (first :: later)).take nDir =
      if immediate then normOrder nDir first else List.range nDir := by
    obtain ⟨rest, h⟩ := orders_append immediate nDir later (orderAfter immediate nDir [] first)
    unfold orders
    rw [List.foldl_cons, h, orderAfter, List.nil_append, List.take_left' (hlen first)]
  rw [hfirst]
  refine ⟨?_, ?_, ?_, ?_⟩
  · split
    · exact (normOrder_spec nDir first).1
    · exact List.Perm.refl _
  · intro h
    rw [if_pos h]
    exact (normOrder_spec nDir first).2
  · intro h
    rw [h]
    rfl
  · have : ∀ (l : List (List (List (F × (Nat → F))))) (old : List Nat),
        (l.foldl (orderAfter immediate nDir) old).length = old.length + l.length * nDir := by
      intro l
      induction l with
      | nil => simp
      | cons b bs ih =>
        intro old
        rw [List.foldl_cons, ih, orderAfter, List.length_append, hlen, List.length_cons]
        ring
    unfold orders
    rw [this]
    simp

/-- C219: the second solve uses the order of the first one, although its own data give another one. -/
theorem order_stale :
    let first : List (List (ℚ × (Nat → ℚ))) := [[(1, fun d => if d = 0 then 4 else 1)]]
    let second : List (List (ℚ × (Nat → ℚ))) := [[(1, fun d => if d = 0 then 1 else 4)]]
    (orders true 2 [first, second]).take 2 = [0, 1] ∧ directionPower second 0 < directionPower second 1 := by
  decide +kernel

end Order

/-! ## An iteration -/

section Iteration
open IterSolver (Kernel subtractDirection addDirection)

variable {V S N D O T : Type} [AddCommGroup V]

/-- The data of a visibility without what a solution for each direction predicts, except for direction `d`. -/
def without (k : Kernel V S N D O) (nSub nDirs : Nat) (s : Nat → Nat → S) (d : Nat) (v : IterSolver.Vis V) : V :=
  v.data - (((List.range nDirs).filter (· ≠ d)).map fun (e : Nat) => IterSolver.term k nSub (s e) e v).sum

private theorem zip_map (vs : List (IterSolver.Vis V)) (f : IterSolver.Vis V → V) (g : IterSolver.Vis V → V → V) :
    List.zipWith g vs (vs.map f) = vs.map fun v => g v (f v) := by
  induction vs with
  | nil => rfl
  | cons v vs ih => simp only [List.map_cons, List.zipWith_cons_cons, ih]

private theorem subtract_all (k : Kernel V S N D O) (nSub : Nat) (s : Nat → S) (vs : List (IterSolver.Vis V)) (l : List Nat) :
    ∀ f : IterSolver.Vis V → V, l.foldl (fun r d => subtractDirection k nSub s d vs r) (vs.map f) =
      vs.map fun v => f v - (l.map fun (d : Nat) => IterSolver.term k nSub s d v).sum := by
  induction l with
  | nil => intro f; simp
  | cons d l ih =>
    intro f
    rw [List.foldl_cons, subtractDirection, zip_map, ih]
    apply List.map_congr_left
    intro v _
    simp only [List.map_cons, List.sum_cons]
    abel

private theorem sum_split (l : List Nat) (hn : l.Nodup) (d : Nat) (hd : d ∈ l) (f : Nat → V) :
    (l.map f).sum = ((l.filter (· ≠ d)).map f).sum + f d := by
  induction l with
  | nil => simp at hd
  | cons e l ih =>
    rw [List.nodup_cons] at hn
    by_cases h : e = d
    · subst h
      rw [List.filter_cons_of_neg (by simp)]
      have : l.filter (· ≠ e) = l := List.filter_eq_self.2 fun x hx => by
        simp only [decide_eq_true_eq, ne_eq]
        rintro rfl
        exact hn.1 hx
      rw [this, List.map_cons, List.sum_cons]
      abel
    · rw [List.filter_cons_of_pos (by simpa using h), List.map_cons, List.sum_cons, List.map_cons, List.sum_cons,
        ih hn.2 (by rcases List.mem_cons.1 hd with h' | h'; exact absurd h'.symm h; exact h')]
      abel

/-- C220: without immediate subtraction, every direction is solved for, in the order of their numbers, with the data from
which all other directions with the present solutions are subtracted. -/
theorem iteration_parallel (k : Kernel V S N D O) (nSub nDirs : Nat) (ordering : List Nat)
    (ho : ordering.take nDirs = List.range nDirs) (iteration : Nat) (flat : T → Nat → S) (solve : Nat → List V → T → T)
    (s : Nat → S) (vs : List (IterSolver.Vis V)) (next : T) :
    (performIteration k nSub nDirs false ordering iteration flat solve s vs next).2 =
      (List.range nDirs).foldl (fun t d => solve d (vs.map (without k nSub nDirs (fun _ => s) d)) t) next := by
  unfold performIteration
  simp only [Bool.false_eq_true, if_false, ho]
  rw [subtract_all k nSub s vs (List.range nDirs) (·.data)]
  set copy := vs.map fun v => v.data - ((List.range nDirs).map fun (d : Nat) => IterSolver.term k nSub s d v).sum with hcopy
  have hstep : ∀ d ∈ List.range nDirs,
      addDirection k nSub s d vs copy = vs.map (without k nSub nDirs (fun _ => s) d) := by
    intro d hd
    rw [addDirection, hcopy, zip_map]
    apply List.map_congr_left
    intro v _
    unfold without
    rw [sum_split (List.range nDirs) List.nodup_range d hd]
    abel
  have hloop : ∀ (l : List Nat) (st : List V × T), l.Nodup → (∀ d ∈ l, d ∈ List.range nDirs) →
      (0 ∈ l → st.1 = copy) → (l.Pairwise (· < ·)) →
      (l.foldl (iterateDirection k nSub false flat solve s vs copy) st).2 =
        l.foldl (fun t d => solve d (vs.map (without k nSub nDirs (fun _ => s) d)) t) st.2 := by
    intro l
    induction l with
    | nil => intro st _ _ _ _; rfl
    | cons d l ih =>
      intro st hn hm h0 hp
      rw [List.foldl_cons, List.foldl_cons]
      have hres : (if d ≠ 0 ∧ !false then copy else st.1) = copy := by
        by_cases hd : d = 0
        · rw [if_neg (by simp [hd]), h0 (by simp [hd])]
        · rw [if_pos ⟨hd, rfl⟩]
      have h1 : iterateDirection k nSub false flat solve s vs copy st d =
          (vs.map (without k nSub nDirs (fun _ => s) d),
            solve d (vs.map (without k nSub nDirs (fun _ => s) d)) st.2) := by
        unfold iterateDirection
        simp only [hres, hstep d (hm d (by simp)), Bool.false_eq_true, if_false]
      rw [h1]
      rw [List.nodup_cons] at hn
      rw [List.pairwise_cons] at hp
      refine ih _ hn.2 (fun e he => hm e (by simp [he])) ?_ hp.2
      intro hz
      have := hp.1 0 hz
      omega
  exact hloop _ _ List.nodup_range (fun d hd => hd) (fun _ => rfl) List.pairwise_lt_range

/-- The tensor before each direction of `l`, when each direction `d` is solved for with the data from which the other
directions are subtracted: those that were solved for before with their new solutions `flat t`, the other ones with the
present solutions. -/
def gaussSeidel (k : Kernel V S N D O) (nSub nDirs : Nat) (flat : T → Nat → S) (solve : Nat → List V → T → T) (s : Nat → S)
    (vs : List (IterSolver.Vis V)) : List Nat → List Nat → T → T
  | _, [], t => t
  | done, d :: l, t =>
    gaussSeidel k nSub nDirs flat solve s vs (d :: done) l
      (solve d (vs.map (without k nSub nDirs (fun e => if e ∈ done then flat t else s) d)) t)

/-- C220: with immediate subtraction, the first `iteration + 1` directions of the order are solved for, each with the data
from which the other ones are subtracted, with their new solutions if they have these. The new solutions are those that
`flat` gives: see `flat_first` for which these are. -/
theorem iteration_immediate (k : Kernel V S N D O) (nSub nDirs : Nat) (ordering : List Nat)
    (ho : (ordering.take nDirs).Perm (List.range nDirs)) (iteration : Nat) (flat : T → Nat → S)
    (solve : Nat → List V → T → T) (s : Nat → S) (vs : List (IterSolver.Vis V)) (next : T)
    (hk : ∀ d r t e v, v ∈ vs → e ≠ d →
      IterSolver.term k nSub (flat (solve d r t)) e v = IterSolver.term k nSub (flat t) e v) :
    (performIteration k nSub nDirs true ordering iteration flat solve s vs next).2 =
      gaussSeidel k nSub nDirs flat solve s vs [] (ordering.take (min nDirs (iteration + 1))) next := by
  unfold performIteration
  simp only [if_true]
  rw [subtract_all k nSub s vs (List.range nDirs) (·.data)]
  set copy := vs.map fun v => v.data - ((List.range nDirs).map fun (d : Nat) => IterSolver.term k nSub s d v).sum with hcopy
  have hsub : ordering.take (min nDirs (iteration + 1)) = (ordering.take nDirs).take (iteration + 1) := by
    rw [List.take_take, min_comm]
  have hnd : (ordering.take (min nDirs (iteration + 1))).Nodup := by
    rw [hsub]
    exact (List.take_sublist _ _).nodup (ho.nodup_iff.2 List.nodup_range)
  have hmem : ∀ d ∈ ordering.take (min nDirs (iteration + 1)), d ∈ List.range nDirs := by
    intro d hd
    rw [hsub] at hd
    exact ho.mem_iff.1 ((List.take_sublist _ _).mem hd)
  have hloop : ∀ (l done : List Nat) (st : List V × T), l.Nodup → (∀ d ∈ l, d ∈ List.range nDirs ∧ d ∉ done) →
      st.1 = (vs.map fun v => v.data - ((List.range nDirs).map fun (e : Nat) =>
        IterSolver.term k nSub (if e ∈ done then flat st.2 else s) e v).sum) →
      (l.foldl (iterateDirection k nSub true flat solve s vs copy) st).2 =
        gaussSeidel k nSub nDirs flat solve s vs done l st.2 := by
    intro l
    induction l with
    | nil => intro done st _ _ _; rfl
    | cons d l ih =>
      intro done st hn hm hst
      rw [List.foldl_cons, gaussSeidel]
      rw [List.nodup_cons] at hn
      have hd := hm d (by simp)
      have hadd : addDirection k nSub s d vs st.1 =
          vs.map (without k nSub nDirs (fun e => if e ∈ done then flat st.2 else s) d) := by
        rw [addDirection, hst, zip_map]
        apply List.map_congr_left
        intro v _
        unfold without
        rw [sum_split (List.range nDirs) List.nodup_range d hd.1]
        rw [if_neg hd.2]
        abel
      have h1 : iterateDirection k nSub true flat solve s vs copy st d =
          (subtractDirection k nSub (flat (solve d (vs.map (without k nSub nDirs
              (fun e => if e ∈ done then flat st.2 else s) d)) st.2)) d vs
              (vs.map (without k nSub nDirs (fun e => if e ∈ done then flat st.2 else s) d)),
            solve d (vs.map (without k nSub nDirs (fun e => if e ∈ done then flat st.2 else s) d)) st.2) := by
        unfold iterateDirection
        simp only [Bool.not_true, Bool.false_eq_true, and_false, if_false, hadd, if_true]
      rw [h1]
      refine ih (d :: done) _ hn.2 ?_ ?_
      · intro e he
        refine ⟨(hm e (by simp [he])).1, ?_⟩
        rw [List.mem_cons, not_or]
        refine ⟨?_, (hm e (by simp [he])).2⟩
        rintro rfl
        exact hn.1 he
      · dsimp only
        rw [subtractDirection, zip_map]
        apply List.map_congr_left
        intro v hv
        have hk' := fun e he => hk d (vs.map (without k nSub nDirs (fun e => if e ∈ done then flat st.2 else s) d)) st.2 e
          v hv he
        generalize solve d (vs.map (without k nSub nDirs (fun e => if e ∈ done then flat st.2 else s) d)) st.2 = t' at hk' ⊢
        unfold without
        rw [sum_split (List.range nDirs) List.nodup_range d hd.1]
        rw [if_pos (List.mem_cons_self)]
        have : ((List.range nDirs).filter (· ≠ d)).map (fun (e : Nat) => IterSolver.term k nSub
              (if e ∈ d :: done then flat t' else s) e v) =
            ((List.range nDirs).filter (· ≠ d)).map fun (e : Nat) => IterSolver.term k nSub
              (if e ∈ done then flat st.2 else s) e v := by
          apply List.map_congr_left
          intro e he
          rw [List.mem_filter] at he
          have hne : e ≠ d := by simpa using he.2
          by_cases hdone : e ∈ done
          · rw [if_pos (List.mem_cons_of_mem _ hdone), if_pos hdone]
            exact hk' e hne
          · rw [if_neg hdone, if_neg]
            rw [List.mem_cons, not_or]
            exact ⟨hne, hdone⟩
        rw [this]
        abel
  exact hloop _ [] _ hnd (fun d hd => ⟨hmem d hd, by simp⟩) (by simp [hcopy])

/-- The vector `new_solutions` for a tensor with `size` solutions in each channel block, as used for the solution with an
index, DiagonalLowRankSolver.cc:240-241: the elements of all channel blocks one after the other. -/
def flatTensor (size : Nat) (t : Nat → Nat → S) (i : Nat) : S := t (i / size) (i % size)

/-- C220: the new solutions that are subtracted are those of the first channel block, in every channel block. -/
theorem flat_first (size : Nat) (t : Nat → Nat → S) (nAnt nSub a j : Nat) (hs : size = nAnt * nSub) (ha : a < nAnt)
    (hj : j < nSub) : flatTensor size t (a * nSub + j) = t 0 (a * nSub + j) := by
  have h : a * nSub + j < size := by
    calc a * nSub + j < a * nSub + nSub := by omega
      _ = (a + 1) * nSub := by ring
      _ ≤ nAnt * nSub := Nat.mul_le_mul_right _ ha
      _ = size := hs.symm
  rw [flatTensor, Nat.div_eq_of_lt h, Nat.mod_eq_of_lt h]

/-- A kernel for numbers. -/
private def numbers : Kernel ℤ ℤ ℤ ℤ ℤ := ⟨fun m a b => m * a * b, fun _ _ _ => 0, fun _ _ => 0, fun _ _ _ => 0,
  fun _ _ => 0, fun _ _ => 0⟩

/-- C220: in the second channel block the second direction gets a wrong residual: two antennas, two directions, the second
iteration. The first direction gets solutions 1 in the first channel block and 2 in the second one; the data of the second
one are 5 = 2 * 1 * 2 + 1, and the residual for the second direction is 5 - 1 * 1 * 1 instead of 1. -/
theorem wrong_channel_block :
    let vs : List (IterSolver.Vis ℤ) := [⟨5, 0, 1, fun _ => 1, fun d => d⟩]
    let solve := fun (d : Nat) (r : List ℤ) (t : List (Nat × List ℤ) × (Nat → Nat → ℤ)) =>
      ((d, r) :: t.1, fun (b i : Nat) => if b = 1 ∧ i % 2 = d then 2 else t.2 b i)
    (performIteration numbers 2 2 true [0, 1] 1 (fun t => flatTensor 4 t.2) solve (fun _ => 0) vs
      ([], fun _ _ => 1)).2.1 = [(1, [4]), (0, [5])] := by
  decide +kernel

end Iteration

/-! ## The loop -/

/-- C221: whatever the iterations give, the loop goes on until the largest number of iterations, and the result says that
the solutions have not converged and the constraints are not satisfied. -/
theorem never_converges (c : Limits) (env : Nat → Bool → Report) :
    solve c env = (max 1 (max c.minIterations c.maxIterations),
      (max 1 (max c.minIterations c.maxIterations) + 1, max 1 (max c.minIterations c.maxIterations) + 1)) := by
  set m := max c.minIterations c.maxIterations with hm
  have hloop : ∀ fuel i f, f.converged = false → f.satisfied = false → i < max 1 m → max 1 m - i ≤ fuel →
      ∃ p, loop c env fuel i f = (max 1 m, ⟨false, false, p⟩) := by
    intro fuel
    induction fuel with
    | zero => intro i f _ _ h1 h2; omega
    | succ fuel ih =>
      intro i f hc hs h1 h2
      have ha : (afterIteration f (env i f.previously)).converged = false := hc
      have hb : (afterIteration f (env i f.previously)).satisfied = false := hs
      rw [loop]
      simp only [reachedStop, ha, hb, Bool.and_false, Bool.false_and, Bool.or_false, Bool.and_eq_true, decide_eq_true_eq]
      split
      · rename_i h
        have : i + 1 = max 1 m := by omega
        refine ⟨(afterIteration f (env i f.previously)).previously, ?_⟩
        rw [this]
        generalize afterIteration f (env i f.previously) = f' at ha hb
        obtain ⟨c1, s1, p1⟩ := f'
        dsimp only at ha hb
        rw [ha, hb]
      · rename_i h
        refine ih _ _ ha hb ?_ (by omega)
        by_contra hge
        apply h
        omega
  obtain ⟨p, hp⟩ := hloop (m + 1) 0 ⟨false, false, false⟩ rfl rfl (by omega) (by omega)
  unfold solve
  rw [← hm, hp]
  simp [makeResult]

/-- C221: what a solver should do with the same reports: stop after the first iteration with convergence and satisfied
constraints. Here the first one has both, and the solver does 50 of them. -/
theorem goes_on : (solve ⟨0, 50, true⟩ fun _ _ => ⟨true, true, true⟩) = (50, (51, 51)) := by
  rw [never_converges]
  rfl

/-- C221: constraints are told correctly whether the solutions had converged in an earlier iteration. -/
theorem previously_converged (f : Flags) (reports : List Report) :
    (reports.foldl afterIteration f).previously = (f.previously || reports.any Report.converged) := by
  induction reports generalizing f with
  | nil => simp
  | cons r rs ih =>
    rw [List.foldl_cons, ih, List.any_cons]
    simp only [afterIteration]
    cases f.previously <;> cases r.converged <;> simp

/-! ## Examples -/

/-- A visibility of two antennas with gains 2, 2, i and i; only the elements 0 and 3 are finite. -/
private noncomputable def sample : Vis :=
  ⟨0, 0, 1, fun k => if k = 0 ∨ k = 3 then some (-2 * Complex.I) else none, fun _ => 1, fun _ => 1⟩

/-- Its gains. -/
private noncomputable def sampleGain (i : Nat) : ℂ := if i < 2 then 2 else Complex.I

example : Exact 0 [sample] sampleGain ∧ sampleGain 0 ≠ 0 := by
  refine ⟨?_, by simp [sampleGain]⟩
  intro v hv _ r c hr hc d hd
  rw [List.mem_singleton] at hv
  subst hv
  have h : (r = 0 ∧ c = 0) ∨ (r = 0 ∧ c = 1) ∨ (r = 1 ∧ c = 0) ∨ (r = 1 ∧ c = 1) := by omega
  rcases h with ⟨rfl, rfl⟩ | ⟨rfl, rfl⟩ | ⟨rfl, rfl⟩ | ⟨rfl, rfl⟩
  · simp [sample] at hd
    simp [sample, sampleGain, ← hd]
  · simp [sample] at hd
  · simp [sample] at hd
  · simp [sample] at hd
    simp [sample, sampleGain, ← hd]

example : about 0 [sample] 0 2 = [(-2 * Complex.I, 1, 1)] ∧ about 0 [sample] 2 0 = [(conj (-2 * Complex.I), 1, conj 1)] ∧
    about 0 [sample] 0 1 = [] := by
  simp [about, sample, List.range_succ]

example : (∀ t ∈ about 0 [sample] 0 2, 0 ≤ t.2.1) ∧ (∀ t ∈ about 0 [sample] 0 2, t.2.2 ≠ 0) ∧
    ∃ t ∈ about 0 [sample] 0 2, t.2.1 ≠ 0 := by
  simp [about, sample, List.range_succ]

/-- The same visibility with a model that is zero. -/
private noncomputable def sampleZero : Vis := { sample with model := fun _ => 0 }

example : correlation 0 [sample, sampleZero] 0 2 = none ∧ correlation 0 [sampleZero] 0 2 = some 0 := by
  have ha : about 0 [sample, sampleZero] 0 2 = [(-2 * Complex.I, 1, 1), (-2 * Complex.I, 1, 0)] := by
    simp [about, sample, sampleZero, List.range_succ]
  refine ⟨zero_model 0 _ 0 2 (-2 * Complex.I, 1, 0) (-2 * Complex.I, 1, 1) (by simp [ha]) rfl (by simp [ha]) (by simp [ha])
    (by simp) (by simp), ?_⟩
  simp [correlation, sums, Vis.entries, sampleZero, sample, List.filter_cons, Element.add]

example : about 0 [sample, sample] 0 2 = List.replicate 2 (-2 * Complex.I, 1, 1) := by
  simp [about, sample, List.range_succ, List.replicate]

example : variance 0 [sample, sample] 0 2 = 1 / 2 ∧ variance 0 [sample] 0 2 = 1 := by
  constructor
  · have := weight_of_equal 0 [sample, sample] 0 2 2 (by norm_num) (-2 * Complex.I) 1 one_pos 1 one_ne_zero
      (by simp [about, sample, List.range_succ, List.replicate])
    simpa using this
  · have := weight_of_equal 0 [sample] 0 2 1 (by norm_num) (-2 * Complex.I) 1 one_pos 1 one_ne_zero
      (by simp [about, sample, List.range_succ, List.replicate])
    simpa using this

example : (∑ j : Fin 4, conj (sampleGain j) * (if j.val = 0 then 1 else 0)) ≠ 0 := by
  simp [Fin.sum_univ_four, sampleGain]

example : normOrder 3 [[((1 : ℚ), fun d => d), (0, fun d => if d = 0 then 100 else 0)], [(2, fun d => if d = 1 then 5 else 0)]] = [1, 2, 0] := by
  decide +kernel

end DP3.LowRank
