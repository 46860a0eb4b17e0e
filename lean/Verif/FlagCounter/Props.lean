import Verif.FlagCounter.Model
import Mathlib.Data.List.Perm.Basic
import Mathlib.Data.List.Count
import Mathlib.Data.List.Induction
import Mathlib.Tactic.Ring

/-!
# Properties of FlagCounter (C53, C77)
-/

namespace DP3.FlagCounter

set_option linter.unusedSectionVars false

/-- All calls, one after the other. -/
def run (c : Counter) (is : List Incr) : Option Counter := is.foldlM incr c

/-- The index is inside the vector. -/
def Incr.inRange (nbl nchan ncorr : Nat) : Incr → Prop
  | .baseline i => i < nbl
  | .channel i => i < nchan
  | .correlation i => i < ncorr

/-- The counts that are meant: how often each call was done. -/
def expected (nbl nchan ncorr : Nat) (is : List Incr) : Counter :=
  { baseline := (List.range nbl).map fun i => is.count (.baseline i),
    channel := (List.range nchan).map fun i => is.count (.channel i),
    correlation := (List.range ncorr).map fun i => is.count (.correlation i) }

private theorem bump_range (n i : Nat) (hi : i < n) (f g : Nat → Nat)
    (h : ∀ j, g j = if j = i then f j + 1 else f j) :
    bump ((List.range n).map f) i = some ((List.range n).map g) := by
  unfold bump
  rw [if_pos (by simpa using hi)]
  congr 1
  apply List.ext_getElem
  · simp
  · intro j h1 h2
    rw [List.getElem_modify]
    simp only [List.getElem_map, List.getElem_range, h]
    by_cases hj : i = j
    · simp [hj]
    · rw [if_neg hj, if_neg (fun e => hj e.symm)]

private theorem incr_expected (nbl nchan ncorr : Nat) (is : List Incr) (x : Incr)
    (hx : x.inRange nbl nchan ncorr) :
    incr (expected nbl nchan ncorr is) x = some (expected nbl nchan ncorr (is ++ [x])) := by
  cases x with
  | baseline i =>
    have hb := bump_range nbl i hx (fun j => is.count (Incr.baseline j))
      (fun j => (is ++ [Incr.baseline i]).count (Incr.baseline j)) (by
        intro j
        rw [List.count_append, List.count_singleton]
        by_cases h : j = i
        · simp [h]
        · have : ¬ i = j := fun e => h e.symm
          simp [h, this])
    simp only [incr, expected, hb, Option.map_some]
    simp [List.count_append, List.count_singleton]
  | channel i =>
    have hb := bump_range nchan i hx (fun j => is.count (Incr.channel j))
      (fun j => (is ++ [Incr.channel i]).count (Incr.channel j)) (by
        intro j
        rw [List.count_append, List.count_singleton]
        by_cases h : j = i
        · simp [h]
        · have : ¬ i = j := fun e => h e.symm
          simp [h, this])
    simp only [incr, expected, hb, Option.map_some]
    simp [List.count_append, List.count_singleton]
  | correlation i =>
    have hb := bump_range ncorr i hx (fun j => is.count (Incr.correlation j))
      (fun j => (is ++ [Incr.correlation i]).count (Incr.correlation j)) (by
        intro j
        rw [List.count_append, List.count_singleton]
        by_cases h : j = i
        · simp [h]
        · have : ¬ i = j := fun e => h e.symm
          simp [h, this])
    simp only [incr, expected, hb, Option.map_some]
    simp [List.count_append, List.count_singleton]

/-- One counter counts exactly how often each call was done. -/
theorem run_spec (nbl nchan ncorr : Nat) (is : List Incr)
    (h : ∀ x ∈ is, x.inRange nbl nchan ncorr) :
    run (init nbl nchan ncorr) is = some (expected nbl nchan ncorr is) := by
  induction is using List.reverseRecOn with
  | nil =>
    simp only [run, List.foldlM_nil, init, expected]
    have e : ∀ n : Nat, List.replicate n 0 = (List.range n).map fun _ => 0 := by
      intro n
      simp [List.map_const']
    simp only [List.count_nil, ← e]
    rfl
  | append_singleton is x ih =>
    have := ih fun y hy => h y (by simp [hy])
    unfold run at this ⊢
    rw [List.foldlM_append, this]
    show (some (expected nbl nchan ncorr is) >>= fun s => [x].foldlM incr s) = _
    simp [incr_expected nbl nchan ncorr is x (h x (by simp))]

/-- A call with an index outside the range is undefined behaviour. -/
theorem run_out_of_range (nbl nchan ncorr : Nat) (is : List Incr) (x : Incr)
    (h : ∀ y ∈ is, y.inRange nbl nchan ncorr) (hx : ¬ x.inRange nbl nchan ncorr) :
    run (init nbl nchan ncorr) (is ++ [x]) = none := by
  have := run_spec nbl nchan ncorr is h
  unfold run at this ⊢
  rw [List.foldlM_append, this]
  show (some (expected nbl nchan ncorr is) >>= fun s => [x].foldlM incr s) = _
  have : incr (expected nbl nchan ncorr is) x = none := by
    cases x <;> simp_all [incr, bump, expected, Incr.inRange]
  simp [this]

private theorem add_expected (nbl nchan ncorr : Nat) (a b : List Incr) :
    add (expected nbl nchan ncorr a) (expected nbl nchan ncorr b) =
      some (expected nbl nchan ncorr (a ++ b)) := by
  unfold add
  rw [if_pos (by simp [expected])]
  have e : ∀ (n : Nat) (f g : Nat → Nat), List.zipWith (· + ·) ((List.range n).map f)
      ((List.range n).map g) = (List.range n).map fun i => f i + g i := by
    intro n f g
    rw [List.zipWith_map]
    apply List.ext_getElem
    · simp
    · intro j h1 h2
      simp
  simp only [expected, e, List.count_append]

/-- C53: sum the counters of the threads, which together did the calls `all` in whatever order: the
counts are those of one counter that did all calls. -/
theorem threads_sum (nbl nchan ncorr : Nat) (parts : List (List Incr)) (all : List Incr)
    (hp : parts.flatten.Perm all) (h : ∀ x ∈ all, x.inRange nbl nchan ncorr) :
    (parts.foldlM (fun total is => (run (init nbl nchan ncorr) is).bind (add total))
      (init nbl nchan ncorr)) = run (init nbl nchan ncorr) all := by
  have key : ∀ (parts : List (List Incr)), (∀ x ∈ parts.flatten, x.inRange nbl nchan ncorr) →
      ∀ pre : List Incr,
      (parts.foldlM (fun total is => (run (init nbl nchan ncorr) is).bind (add total))
        (expected nbl nchan ncorr pre)) =
      some (expected nbl nchan ncorr (pre ++ parts.flatten)) := by
    intro parts
    induction parts with
    | nil => intro _ pre; simp
    | cons p parts ih =>
      intro hin pre
      rw [List.foldlM_cons, run_spec nbl nchan ncorr p
        (fun x hx => hin x (by simp [hx]))]
      show ((add (expected nbl nchan ncorr pre) (expected nbl nchan ncorr p)) >>= _) = _
      rw [add_expected]
      have := ih (fun x hx => hin x (by
        rw [List.flatten_cons]
        exact List.mem_append_right _ hx)) (pre ++ p)
      rw [List.flatten_cons, ← List.append_assoc]
      exact this
  have h0 : init nbl nchan ncorr = expected nbl nchan ncorr [] := by
    have := run_spec nbl nchan ncorr [] (by simp)
    simpa [run] using this
  rw [run_spec nbl nchan ncorr all h]
  conv_lhs => rw [show (parts.foldlM (fun total is =>
    (run (init nbl nchan ncorr) is).bind (add total)) (init nbl nchan ncorr)) =
    (parts.foldlM (fun total is => (run (init nbl nchan ncorr) is).bind (add total))
      (expected nbl nchan ncorr [])) by rw [← h0]]
  rw [key parts (fun x hx => h x (hp.mem_iff.mp hx)) []]
  simp only [List.nil_append, expected, hp.count_eq]

/-! ## C77 -/

/-- A baseline with the antenna. -/
def uses (a : Nat) (x : (Nat × Nat) × Nat) : Bool := x.1.1 == a || x.1.2 == a

/-- C77: the count of a station is the sum of the counts of the baselines with that station, an
autocorrelation counting once, and `nUsedAnt` is the number of those baselines. -/
theorem station_counts (nant : Nat) (ants : List (Nat × Nat)) (counts : List Nat) (a : Nat)
    (ha : a < nant) :
    (stationCounts nant ants counts).1[a]? =
        some (((ants.zip counts).filter (uses a)).map (·.2)).sum ∧
      (stationCounts nant ants counts).2[a]? =
        some ((ants.zip counts).filter (uses a)).length := by
  unfold stationCounts
  generalize ants.zip counts = xs
  induction xs using List.reverseRecOn with
  | nil => simp [ha]
  | append_singleton xs x ih =>
    rw [List.foldl_append, List.foldl_cons, List.foldl_nil]
    generalize xs.foldl stationStep (List.replicate nant 0, List.replicate nant 0) = acc at *
    obtain ⟨⟨a1, a2⟩, n⟩ := x
    have hstep : ∀ (v : List Nat) (k d : Nat), (v.modify k (· + d))[a]? =
        (v[a]?).map fun y => if k = a then y + d else y := by
      intro v k d
      rw [List.getElem?_modify]
      by_cases h : k = a <;> simp [h]
    unfold stationStep
    simp only [List.filter_append, List.map_append, List.sum_append, List.length_append]
    by_cases h12 : a1 = a2
    · subst h12
      simp only [ne_eq, not_true_eq_false, if_false, hstep, ih.1, ih.2, Option.map_some]
      by_cases h1 : a1 = a
      · simp [uses, h1]
      · simp [uses, h1]
    · simp only [ne_eq, h12, not_false_eq_true, if_true, hstep, ih.1, ih.2, Option.map_some]
      by_cases h1 : a1 = a
      · have h2 : ¬ a2 = a := fun e => h12 (h1.trans e.symm)
        simp [uses, h1, h2]
      · by_cases h2 : a2 = a
        · simp [uses, h1, h2]
        · simp [uses, h1, h2]

/-- C77: the flagged fraction of a station is at most one, when no baseline has more flags than
points. -/
theorem station_fraction (nant npoints : Nat) (ants : List (Nat × Nat)) (counts : List Nat)
    (hc : ∀ n ∈ counts, n ≤ npoints) (a : Nat) (ha : a < nant) (c u : Nat)
    (h1 : (stationCounts nant ants counts).1[a]? = some c)
    (h2 : (stationCounts nant ants counts).2[a]? = some u) : c ≤ u * npoints := by
  obtain ⟨e1, e2⟩ := station_counts nant ants counts a ha
  rw [e1] at h1
  rw [e2] at h2
  simp only [Option.some.injEq] at h1 h2
  subst h1 h2
  have : ∀ l : List ((Nat × Nat) × Nat), (∀ x ∈ l, x.2 ≤ npoints) →
      (l.map (·.2)).sum ≤ l.length * npoints := by
    intro l
    induction l with
    | nil => simp
    | cons x l ih =>
      intro h
      have h1 := h x (by simp)
      have h2 := ih fun y hy => h y (by simp [hy])
      simp only [List.map_cons, List.sum_cons, List.length_cons, Nat.add_mul, Nat.one_mul]
      omega
  apply this
  intro x hx
  exact hc _ (List.of_mem_zip (List.mem_filter.mp hx).1).2

example : run (init 2 3 1) [.baseline 1, .channel 2, .baseline 1, .correlation 0] =
    some ⟨[0, 2], [0, 0, 1], [1]⟩ := by decide
example : [[Incr.baseline 1], [.channel 0, .baseline 1]].flatten.Perm
    [.channel 0, .baseline 1, .baseline 1] := by decide
example : stationCounts 3 [(0, 0), (0, 1), (1, 2)] [4, 3, 1] = ([7, 4, 1], [2, 2, 1]) := by decide

end DP3.FlagCounter
