import Verif.Clustering.Model
import Mathlib.Data.List.Nodup
import Mathlib.Data.List.Perm.Basic

/-!
# Properties of ProximityClustering (C41)
-/

namespace DP3.Clustering

set_option linter.unusedSectionVars false

variable {P : Type}

/-- The grouping that is meant: the first source takes all sources close to it, and the others are
grouped in the same way. -/
def greedy (close : Nat → Nat → Bool) : List Nat → List (List Nat)
  | [] => []
  | x :: xs => (x :: xs.filter (close x)) :: greedy close (xs.filter fun y => !close x y)
termination_by l => l.length
decreasing_by
  simp only [List.length_cons]
  rw [Nat.lt_succ_iff]
  simpa using List.length_filter_le (fun y : { y // y ∈ xs } => !close x y.1) xs.attach

/-- The mean position of one source is its position. -/
def MeanOfOne (g : Geometry P) : Prop := ∀ p, g.mean [p] = p

private theorem fold_spec (g : Geometry P) (index : Nat) (source : List Nat)
    (xs : List Nat) (done : List (List Nat)) (hd : done.length = index) (acc : List Nat)
    (tail : List (List Nat)) (c : Nat → Bool) (hc : ∀ x, near g source [x] = c x) :
    (xs.map fun i => [i]).foldl (groupStep g index source) (done ++ acc :: tail) =
      done ++ (acc ++ xs.filter c) :: (tail ++ (xs.filter fun y => !c y).map fun i => [i]) := by
  induction xs generalizing acc tail with
  | nil => simp
  | cons x xs ih =>
    rw [List.map_cons, List.foldl_cons]
    cases hx : c x with
    | true =>
      have : groupStep g index source (done ++ acc :: tail) [x] = done ++ (acc ++ [x]) :: tail := by
        unfold groupStep
        rw [hc x, hx, if_pos rfl]
        subst hd
        clear ih
        induction done with
        | nil => simp
        | cons d done ihd => simpa using ihd
      rw [this, ih]
      simp [hx]
    | false =>
      have : groupStep g index source (done ++ acc :: tail) [x] =
          done ++ acc :: (tail ++ [[x]]) := by
        unfold groupStep
        rw [hc x, hx, if_neg (by simp)]
        simp
      rw [this, ih]
      simp [hx]

private theorem loop_spec (g : Geometry P) (hm : MeanOfOne g) (fuel : Nat) :
    ∀ (done : List (List Nat)) (xs : List Nat), xs.length ≤ fuel →
      groupLoop g fuel done.length (done ++ xs.map fun i => [i]) =
        done ++ greedy (fun x y => g.close (g.pos x) (g.pos y)) xs := by
  induction fuel with
  | zero =>
    intro done xs h
    have : xs = [] := List.length_eq_zero_iff.mp (Nat.le_zero.mp h)
    subst this
    simp [groupLoop, greedy]
  | succ fuel ih =>
    intro done xs h
    cases xs with
    | nil => simp [groupLoop, greedy]
    | cons x xs =>
      unfold groupLoop
      rw [if_pos (by simp)]
      have hs : groupSource g done.length (done ++ (x :: xs).map fun i => [i]) =
          (done ++ [x :: xs.filter fun y => g.close (g.pos x) (g.pos y)]) ++
            (xs.filter fun y => !g.close (g.pos x) (g.pos y)).map fun i => [i] := by
        unfold groupSource
        have e1 : (done ++ (x :: xs).map fun i => [i]).drop (done.length + 1) =
            xs.map fun i => [i] := by
          rw [List.drop_append]
          simp
        have e2 : (done ++ (x :: xs).map fun i => [i]).take (done.length + 1) = done ++ [[x]] := by
          rw [List.take_append]
          simp [List.take_of_length_le]
        have e3 : (done ++ (x :: xs).map fun i => [i]).getD done.length [] = [x] := by
          simp [List.getD]
        rw [e1, e2, e3]
        rw [fold_spec g done.length [x] xs done rfl [x] [] (fun y => g.close (g.pos x) (g.pos y))
          (by intro y; simp [near, centroid, hm _])]
        simp
      rw [hs]
      have hl : done.length + 1 = (done ++ [x :: xs.filter fun y =>
          g.close (g.pos x) (g.pos y)]).length := by simp
      rw [hl, ih]
      · conv_rhs => rw [greedy]
        simp
      · have := List.length_filter_le (fun y => !g.close (g.pos x) (g.pos y)) xs
        simp only [List.length_cons] at h
        omega

/-- The groups are those of the greedy grouping of the sources in their order. -/
theorem group_spec (g : Geometry P) (hm : MeanOfOne g) (n : Nat) :
    group g n = greedy (fun x y => g.close (g.pos x) (g.pos y)) (List.range n) := by
  unfold group
  have := loop_spec g hm n [] (List.range n) (by simp)
  simpa using this

private theorem greedy_perm (close : Nat → Nat → Bool) (l : List Nat) :
    (greedy close l).flatten.Perm l := by
  induction l using greedy.induct close with
  | case1 => simp [greedy]
  | case2 x xs ih =>
    rw [List.unattach_filter (g := fun y => !close x y) (hf := fun _ _ => rfl), List.unattach_attach] at ih
    rw [greedy, List.flatten_cons, List.cons_append]
    apply List.Perm.cons
    have h1 := List.Perm.append_left (xs.filter (close x)) ih
    exact h1.trans (List.filter_append_perm (close x) xs)

private theorem greedy_head (close : Nat → Nat → Bool) (l : List Nat) :
    ∀ c ∈ greedy close l, ∃ x rest, c = x :: rest ∧ x ∈ l ∧ (∀ y ∈ rest, close x y = true) ∧
      ∀ y ∈ c, y ∈ l := by
  induction l using greedy.induct close with
  | case1 => simp [greedy]
  | case2 x xs ih =>
    rw [List.unattach_filter (g := fun y => !close x y) (hf := fun _ _ => rfl), List.unattach_attach] at ih
    intro c hc
    rw [greedy] at hc
    rcases List.mem_cons.mp hc with rfl | hc
    · refine ⟨x, _, rfl, by simp, ?_, ?_⟩
      · intro y hy
        exact (List.mem_filter.mp hy).2
      · intro y hy
        rcases List.mem_cons.mp hy with rfl | hy
        · simp
        · exact List.mem_cons_of_mem _ (List.mem_filter.mp hy).1
    · obtain ⟨z, rest, hz, hzl, hr, hall⟩ := ih c hc
      refine ⟨z, rest, hz, List.mem_cons_of_mem _ (List.mem_filter.mp hzl).1, hr, ?_⟩
      intro y hy
      exact List.mem_cons_of_mem _ (List.mem_filter.mp (hall y hy)).1

private theorem greedy_apart (close : Nat → Nat → Bool) (l : List Nat) :
    (greedy close l).Pairwise fun a b => ∀ x ∈ a.head?, ∀ y ∈ b, close x y = false := by
  induction l using greedy.induct close with
  | case1 => simp [greedy]
  | case2 x xs ih =>
    rw [List.unattach_filter (g := fun y => !close x y) (hf := fun _ _ => rfl), List.unattach_attach] at ih
    rw [greedy, List.pairwise_cons]
    refine ⟨?_, ih⟩
    intro b hb z hz y hy
    simp only [List.head?_cons, Option.mem_def, Option.some.injEq] at hz
    subst hz
    obtain ⟨_, _, _, _, _, hall⟩ := greedy_head close _ b hb
    have := (List.mem_filter.mp (hall y hy)).2
    simpa using this

/-- C41: every source is in exactly one group, exactly once. -/
theorem group_partition (g : Geometry P) (hm : MeanOfOne g) (n : Nat) :
    (group g n).flatten.Perm (List.range n) ∧ (group g n).flatten.Nodup := by
  rw [group_spec g hm]
  have h := greedy_perm (fun x y => g.close (g.pos x) (g.pos y)) (List.range n)
  exact ⟨h, h.nodup_iff.mpr List.nodup_range⟩

/-- C41: no group is empty, and all its sources are close to its first source. -/
theorem group_close (g : Geometry P) (hm : MeanOfOne g) (n : Nat) (c : List Nat)
    (hc : c ∈ group g n) :
    ∃ x rest, c = x :: rest ∧ ∀ y ∈ rest, g.close (g.pos x) (g.pos y) = true := by
  rw [group_spec g hm] at hc
  obtain ⟨x, rest, h1, -, h2, -⟩ := greedy_head _ _ c hc
  exact ⟨x, rest, h1, h2⟩

/-- No source could have been in an earlier group: it is not close to the first source of that
group. -/
theorem group_apart (g : Geometry P) (hm : MeanOfOne g) (n : Nat) :
    (group g n).Pairwise fun a b => ∀ x ∈ a.head?, ∀ y ∈ b, g.close (g.pos x) (g.pos y) = false := by
  rw [group_spec g hm]
  exact greedy_apart _ _

/-- Sources on a line, a mean that is rounded down, and a maximum distance of 4. -/
def exGeometry : Geometry Nat :=
  { pos := fun i => [10, 20, 12, 13, 14, 21].getD i 0
    mean := fun l => l.sum / l.length
    close := fun a b => decide ((a - b) + (b - a) < 4) }

example : MeanOfOne exGeometry := by intro p; simp [exGeometry]
/-- The last source of the first group moves its centroid, but the source at 14 stays out. -/
example : group exGeometry 6 = [[0, 2, 3], [1, 5], [4]] := by decide

end DP3.Clustering
