import Verif.PredictStep.Lemmas
import Mathlib.Tactic.Linarith
import Mathlib.Tactic.Ring
import Mathlib.Algebra.Group.Nat.Hom

namespace DP3.PredictStep

set_option linter.unusedSimpArgs false
set_option linter.unusedSectionVars false

variable {C V W : Type} [AddCommGroup V]

/-! ### C167: prediction with the beam -/

/-- The model of a patch list: all components, with the beam of their patch evaluated for an update at
time `u`. -/
def modelAt (o : Ops C V W) (interval u : ℚ) (ps : List (List C)) : V :=
  (ps.zipIdx.map fun p => (p.1.map fun x => o.apply (o.comp p.2 (u + 1 / 2 * interval) u) (o.sim x)).sum).sum

/-- **Prediction with the beam does not depend on the threads**: for any division of the sources into
ranges and any order in which threads finish, each time slot gets the sum over all components with the
beam values of their patch, from the last update of the beam; that update was at most one interval ago. -/
theorem beam_partial (o : Ops C V W) (interval : ℚ) (order : List V → List V) (hord : ∀ l, (order l).Perm l)
    (ps : List (List C)) (parts : List (List (C × Nat))) (hparts : parts.flatten = sourceList ps)
    (hne : ∀ p ∈ parts, p ≠ []) (caches : Nat → List W) (ts : List ℚ)
    (h0 : ∀ t, ts.head? = some t → interval ≤ |t|) :
    ∃ us : List ℚ, predictAll o interval order parts ⟨0, caches⟩ ts = some (us.map fun u => modelAt o interval u ps) ∧
      us.length = ts.length ∧ ∀ (i : Nat) t u, ts[i]? = some t → us[i]? = some u →
        (∃ j : Nat, j ≤ i ∧ ts[j]? = some u) ∧ (u = t ∨ |t - u| < interval) := by
  have hR : ∀ p ∈ parts, Ranged p := by
    intro p hp
    refine ⟨hne p hp, ?_⟩
    have hs := sourceListFrom_sorted 0 ps
    rw [show sourceListFrom 0 ps = sourceList ps from rfl, ← hparts] at hs
    exact List.Pairwise.sublist (List.sublist_flatten_of_mem hp) hs
  obtain ⟨us, h1, h2, h3⟩ := predictAll_ok o interval order hord parts hR ts ⟨0, caches⟩
    (fun t ht hlt => absurd hlt (not_lt.2 (by simpa using h0 t ht)))
  refine ⟨us, ?_, h2, ?_⟩
  · rw [h1, hparts]
    congr 1
    apply List.map_congr_left
    intro u _
    exact sourceListFrom_sum (fun x n => o.apply (o.comp n (u + 1 / 2 * interval) u) (o.sim x)) 0 ps
  · intro i t u ht hu
    obtain ⟨a, b⟩ := h3 i t u ht hu
    refine ⟨?_, a⟩
    rcases b with b | ⟨_, b⟩
    · exact b
    · exfalso
      cases hts : ts with
      | nil => rw [hts] at ht; simp at ht
      | cons t0 ts' =>
        have := b t0 (by rw [hts]; rfl)
        have h4 := h0 t0 (by rw [hts]; rfl)
        simp only [sub_zero] at this
        exact absurd this (not_lt.2 h4)

/-- Multiplying integers by beam values. -/
def exOps : Ops ℤ ℤ ℤ := ⟨id, fun p τ _ => p + τ.floor, fun w => AddMonoidHom.mulLeft w, 0⟩

/-- A patch is divided over two threads. -/
example := beam_partial exOps 10 List.reverse (fun l => List.reverse_perm l) [[1, 2, 3], [4]]
  [[(1, 0), (2, 0)], [(3, 0), (4, 1)]] rfl (by simp) (fun _ => []) [100, 104, 108, 112]
  (by intro t ht; simp at ht; subst ht; decide +kernel)

/-- **The beam is at most half an interval old or new**: when times do not decrease, the time for which
the beam is evaluated differs at most half an interval from the time of the data. -/
theorem beam_age (o : Ops C V W) (interval : ℚ) (hi : 0 ≤ interval) (order : List V → List V)
    (hord : ∀ l, (order l).Perm l) (ps : List (List C)) (parts : List (List (C × Nat)))
    (hparts : parts.flatten = sourceList ps) (hne : ∀ p ∈ parts, p ≠ []) (caches : Nat → List W) (ts : List ℚ)
    (h0 : ∀ t, ts.head? = some t → interval ≤ |t|) (hs : ts.Pairwise (· ≤ ·)) :
    ∃ us : List ℚ, predictAll o interval order parts ⟨0, caches⟩ ts = some (us.map fun u => modelAt o interval u ps) ∧
      us.length = ts.length ∧ ∀ (i : Nat) t u, ts[i]? = some t → us[i]? = some u →
        |t - (u + 1 / 2 * interval)| ≤ 1 / 2 * interval := by
  obtain ⟨us, h1, h2, h3⟩ := beam_partial o interval order hord ps parts hparts hne caches ts h0
  refine ⟨us, h1, h2, fun i t u ht hu => ?_⟩
  obtain ⟨⟨j, hj, hju⟩, h4⟩ := h3 i t u ht hu
  have hle : u ≤ t := by
    rcases Nat.lt_or_eq_of_le hj with hlt | rfl
    · obtain ⟨hj', e1⟩ := List.getElem?_eq_some_iff.1 hju
      obtain ⟨hi', e2⟩ := List.getElem?_eq_some_iff.1 ht
      have := (List.pairwise_iff_getElem.1 hs) j i hj' hi' hlt
      rwa [e1, e2] at this
    · rw [ht, Option.some.injEq] at hju
      rw [hju]
  rcases h4 with rfl | h4
  · rw [show u - (u + 1 / 2 * interval) = -(1 / 2 * interval) by ring, abs_neg, abs_of_nonneg (by linarith)]
  · rw [abs_lt] at h4
    rw [abs_le]
    constructor <;> linarith

example := beam_age exOps 10 (by decide +kernel) List.reverse (fun l => List.reverse_perm l) [[1, 2, 3], [4]]
  [[(1, 0), (2, 0)], [(3, 0), (4, 1)]] rfl (by simp) (fun _ => []) [100, 104, 108, 112]
  (by intro t ht; simp at ht; subst ht; decide +kernel) (by decide +kernel)

/-- **Without the beam** the division over threads has no effect either. -/
theorem plain_threads (o : Ops C V W) (order : List V → List V) (hord : ∀ l, (order l).Perm l)
    (ps : List (List C)) (parts : List (List (C × Nat))) (hparts : parts.flatten = sourceList ps) :
    predictPlain o order parts = (ps.flatten.map o.sim).sum := by
  have hr : ∀ xs : List (C × Nat), rangePlain o xs = (xs.map (fun s => o.sim s.1)).sum := by
    intro xs
    unfold rangePlain
    have : ∀ a : V, xs.foldl (fun m s => m + o.sim s.1) a = a + (xs.map (fun s => o.sim s.1)).sum := by
      induction xs with
      | nil => intro a; simp
      | cons x xs ih => intro a; simp [ih, add_assoc]
    rw [this, zero_add]
  have hfl : ∀ (n : Nat) (ps : List (List C)), ((sourceListFrom n ps).map (fun s => o.sim s.1)) = ps.flatten.map o.sim := by
    intro n ps
    induction ps generalizing n with
    | nil => rfl
    | cons p ps ih => simp [sourceListFrom, ih]
  unfold predictPlain
  rw [foldl_add_sum, zero_add, (hord _).sum_eq,
    show parts.map (rangePlain o) = parts.map (fun p => (p.map (fun s => o.sim s.1)).sum) from
      List.map_congr_left (fun p _ => hr p), sum_flatten, hparts]
  exact congrArg List.sum (hfl 0 ps)

example := plain_threads exOps List.reverse (fun l => List.reverse_perm l) [[1, 2, 3], [4]]
  [[(1, 0), (2, 0)], [(3, 0), (4, 1)]] rfl

/-- **The ranges have to be the same for all time slots**: when the division changes between two time
slots without an update of the beam then the wrong beam values are used. -/
theorem other_ranges_wrong : ∃ (o : Ops ℤ ℤ ℤ) (ps : List (List ℤ)) (parts parts' : List (List (ℤ × Nat))),
    parts.flatten = sourceList ps ∧ parts'.flatten = sourceList ps ∧ (∀ p ∈ parts ++ parts', p ≠ []) ∧
    ∃ v, ((predict o 10 id parts ⟨0, fun _ => []⟩ 100).bind fun r =>
        (predict o 10 id parts' r.2 104).map (·.1)) = some v ∧ v ≠ modelAt o 10 100 ps :=
  ⟨exOps, [[1, 2, 3], [4]], [[(1, 0), (2, 0)], [(3, 0), (4, 1)]], [[(1, 0), (2, 0), (3, 0)], [(4, 1)]],
    rfl, rfl, by decide, 1050, by decide +kernel, by decide +kernel⟩

/-! ### C168: the direction of the beam -/

/-- **Telescope and direction are for different times**: with a positive interval the beam values are
computed for a telescope half an interval later than the time for which the direction of the patch is
converted; a beam that depends on the difference is wrong for every time slot. -/
theorem direction_late (interval : ℚ) (hi : 0 < interval) (t : ℚ) (h0 : interval ≤ |t|) :
    ∃ s, predict (⟨id, fun _ τ u => τ - u, fun w => AddMonoidHom.mulLeft w, 0⟩ : Ops ℚ ℚ ℚ) interval id
        [[(1, 0)]] ⟨0, fun _ => []⟩ t = some (interval / 2, s) ∧
      interval / 2 ≠ (fun τ u : ℚ => τ - u) (t + 1 / 2 * interval) (t + 1 / 2 * interval) * 1 := by
  have hu : update interval 0 t = some (t + 1 / 2 * interval, t) := if_pos (by simpa using h0)
  refine ⟨⟨t, fun j => if j = 0 then [t + 1 / 2 * interval - t] else []⟩, ?_, ?_⟩
  · simp only [predict, hu, threads, rangeStep, resize, addBeam, sourceStep, List.foldlM_cons, List.foldlM_nil]
    simp
    ring
  · simp
    exact ne_of_gt hi

example := direction_late 120 (by decide +kernel) 4900000000 (by decide +kernel)

/-! ### C169: operations -/

/-- **Operations without a name**: the main data get the corrected model, the data plus that model or the
data minus that model; extra data are kept. -/
theorem operation_main (op : Op) (f : Option (V → V)) (m : V) (x : V) (e : String → Option V) :
    processOne op "" f m ⟨some x, e⟩ = some ⟨some (match op with
      | .replace => (f.getD id) m
      | .add => x + (f.getD id) m
      | .subtract => x - (f.getD id) m), e⟩ := by
  cases op <;> cases f <;> simp [processOne, Buf.put, Buf.get, applyCal, add_comm]

example := operation_main .subtract (some (fun v : ℤ => 2 * v)) 3 10 (fun _ => none)

/-- **Operations with a name, without solutions**: the main data and other extra data are kept. -/
theorem operation_named_partial (op : Op) (name : String) (hn : name ≠ "") (m : V) (x : V) (e : String → Option V) :
    ∃ e', processOne op name none m ⟨some x, e⟩ = some ⟨some x, e'⟩ ∧
      e' name = some (match op with | .replace => m | .add => x + m | .subtract => x - m) ∧
      ∀ n, n ≠ name → e' n = e n := by
  cases op <;> simp [processOne, Buf.put, Buf.get, applyCal, hn, add_comm]
  all_goals
    intro n h
    simp [h]

example := operation_named_partial .add "model" (by decide) (3 : ℤ) 10 (fun _ => none)

/-- **With a name the solutions are not applied**: the result does not depend on them. -/
theorem named_uncorrected (op : Op) (name : String) (hn : name ≠ "") (f : V → V) (m : V) (b : Buf V) :
    processOne op name (some f) m b = processOne op name none m b := by
  have h : applyCal (some f) (Buf.put { b with main := none } name m) =
      applyCal none (Buf.put { b with main := none } name m) := by
    simp [applyCal, Buf.put, hn]
  have ht : (op != .replace || name != "") = true := by simp [hn]
  unfold processOne
  simp only [ht, if_true]
  rw [h]

example := named_uncorrected .replace "model" (by decide) (fun v : ℤ => 2 * v) 3 ⟨some 10, fun _ => none⟩

/-- The sum of the corrected models of directions. -/
def corrected (ms : List (V × (V → V))) : V := (ms.map fun m => m.2 m.1).sum

theorem h5_add (op : Op) (ms : List (V × (V → V))) (i : Nat) (hi : op ≠ .subtract ∧ (op = .add ∨ 0 < i)) (x : V)
    (e : String → Option V) : h5Chain op "" i ms ⟨some x, e⟩ = some ⟨some (x + corrected ms), e⟩ := by
  have hop : ∀ j, op = .add ∨ 0 < j → h5Op op j = .add := by
    intro j hj
    obtain ⟨h1, _⟩ := hi
    cases op with
    | replace => rcases hj with h | h
                 · cases h
                 · simp [h5Op, h]
    | add => simp [h5Op]
    | subtract => exact absurd rfl h1
  induction ms generalizing i x with
  | nil => simp [h5Chain, corrected]
  | cons m ms ih =>
    have : processOne (h5Op op i) "" (some m.2) m.1 ⟨some x, e⟩ = some ⟨some (x + m.2 m.1), e⟩ := by
      rw [hop i hi.2, operation_main]; rfl
    rw [h5Chain, this]
    dsimp only
    rw [ih (i + 1) ⟨hi.1, Or.inr (by omega)⟩]
    simp [corrected, add_assoc]

/-- **All directions of an H5Parm are predicted once**: replace gives the sum of the corrected models,
add gives the data plus that sum and subtract the data minus that sum. -/
theorem h5_all (op : Op) (ms : List (V × (V → V))) (hm : ms ≠ []) (x : V) (e : String → Option V) :
    h5Chain op "" 0 ms ⟨some x, e⟩ = some ⟨some (match op with
      | .replace => corrected ms
      | .add => x + corrected ms
      | .subtract => x - corrected ms), e⟩ := by
  cases op with
  | replace =>
    cases ms with
    | nil => exact absurd rfl hm
    | cons m ms =>
      have : processOne (h5Op .replace 0) "" (some m.2) m.1 ⟨some x, e⟩ = some ⟨some (m.2 m.1), e⟩ := by
        rw [show h5Op .replace 0 = .replace from rfl, operation_main]; rfl
      rw [h5Chain, this]
      dsimp only
      rw [h5_add .replace ms 1 ⟨by simp, Or.inr (by omega)⟩]
      simp [corrected]
  | add => exact h5_add .add ms 0 ⟨by simp, Or.inl rfl⟩ x e
  | subtract =>
    dsimp only
    clear hm
    generalize 0 = i
    induction ms generalizing i x with
    | nil => simp [h5Chain, corrected]
    | cons m ms ih =>
      have : processOne (h5Op .subtract i) "" (some m.2) m.1 ⟨some x, e⟩ = some ⟨some (x - m.2 m.1), e⟩ := by
        rw [show h5Op .subtract i = .subtract by simp [h5Op], operation_main]; rfl
      rw [h5Chain, this]
      dsimp only
      rw [ih]
      simp [corrected, sub_sub]

example := h5_all .replace [((3 : ℤ), fun v => 2 * v), (5, fun v => v)] (by simp) 100 (fun _ => none)

/-- **With a name only the last direction is kept**, without its solutions and with the main data added. -/
theorem h5_named_wrong (name : String) (hn : name ≠ "") (ms : List (V × (V → V))) (m : V × (V → V)) (hm : ms ≠ [])
    (x : V) (e : String → Option V) :
    ∃ e', h5Chain .replace name 0 (ms ++ [m]) ⟨some x, e⟩ = some ⟨some x, e'⟩ ∧ e' name = some (x + m.1) := by
  have key : ∀ (ms : List (V × (V → V))) (i : Nat) (e : String → Option V), (ms ≠ [] ∨ 0 < i) →
      ∃ e', h5Chain .replace name i (ms ++ [m]) ⟨some x, e⟩ = some ⟨some x, e'⟩ ∧ e' name = some (x + m.1) := by
    intro ms
    induction ms with
    | nil =>
      intro i e hi
      have hi : 0 < i := by simpa using hi
      obtain ⟨e', h1, h2, _⟩ := operation_named_partial .add name hn m.1 x e
      refine ⟨e', ?_, h2⟩
      rw [List.nil_append, h5Chain, show h5Op .replace i = .add by simp [h5Op, hi], named_uncorrected _ _ hn, h1]
      rfl
    | cons a ms ih =>
      intro i e _
      obtain ⟨e1, h1, _⟩ := operation_named_partial (h5Op .replace i) name hn a.1 x e
      obtain ⟨e', h2, h3⟩ := ih (i + 1) e1 (Or.inr (by omega))
      refine ⟨e', ?_, h3⟩
      rw [List.cons_append, h5Chain, named_uncorrected _ _ hn, h1]
      exact h2
  exact key ms 0 e (Or.inl hm)

example := h5_named_wrong "model" (by decide) [((3 : ℤ), fun v => 2 * v)] (5, fun v => v) (by simp) 100 (fun _ => none)

/-! ### C170: copying unpolarized models -/

variable {K : Type} [Zero K]

/-- **Four correlations**: an unpolarized model goes to the first and last correlation; the others are
zero. -/
theorem copy_four (buffer dest : List K) (h : dest.length = buffer.length * 4) :
    copyStokesI buffer dest = some (buffer.flatMap fun v => [v, 0, 0, v]) := by
  have key : ∀ (b : List K) (n : Nat) (pre d : List K), pre.length = 4 * n → d.length = b.length * 4 →
      (b.zipIdx n).foldlM (fun d (x : K × Nat) =>
        if 4 * x.2 + 3 < d.length then
          some ((((d.set (4 * x.2) x.1).set (4 * x.2 + 1) 0).set (4 * x.2 + 2) 0).set (4 * x.2 + 3) x.1)
        else none) (pre ++ d) = some (pre ++ b.flatMap fun v => [v, 0, 0, v]) := by
    intro b
    induction b with
    | nil =>
      intro n pre d _ hd
      have : d = [] := List.length_eq_zero_iff.1 (by simpa using hd)
      simp [this]
    | cons v b ih =>
      intro n pre d hp hd
      match d, hd with
      | [], hd => simp at hd
      | [_], hd => simp at hd; omega
      | [_, _], hd => simp at hd; omega
      | [_, _, _], hd => simp at hd; omega
      | a0 :: a1 :: a2 :: a3 :: d, hd =>
        rw [List.zipIdx_cons, List.foldlM_cons]
        have hlt : 4 * n + 3 < (pre ++ a0 :: a1 :: a2 :: a3 :: d).length := by simp; omega
        simp only [hlt, if_true]
        have e : (((((pre ++ a0 :: a1 :: a2 :: a3 :: d).set (4 * n) v).set (4 * n + 1) 0).set (4 * n + 2) 0).set
            (4 * n + 3) v) = (pre ++ [v, 0, 0, v]) ++ d := by
          rw [List.set_append_right _ _ (by omega), List.set_append_right _ _ (by omega),
            List.set_append_right _ _ (by omega), List.set_append_right _ _ (by omega)]
          simp [hp]
        show (b.zipIdx (n + 1)).foldlM _ _ = _
        rw [e, ih (n + 1) (pre ++ [v, 0, 0, v]) d (by simp; omega) (by simp at hd; omega)]
        simp
  have := key buffer 0 [] dest rfl h
  simpa [copyStokesI] using this

example := copy_four [(7 : ℤ), 9] [0, 0, 0, 0, 0, 0, 0, 0] rfl

/-- **Fewer correlations**: with less than four correlations the copy writes outside the data. -/
theorem copy_fewer (buffer dest : List K) (ncorr : Nat) (hn : ncorr < 4) (hb : buffer ≠ [])
    (h : dest.length = buffer.length * ncorr) : copyStokesI buffer dest = none := by
  have key : ∀ (b : List K) (n : Nat) (d : List K), d.length < 4 * (n + b.length) → b ≠ [] →
      (b.zipIdx n).foldlM (fun d (x : K × Nat) =>
        if 4 * x.2 + 3 < d.length then
          some ((((d.set (4 * x.2) x.1).set (4 * x.2 + 1) 0).set (4 * x.2 + 2) 0).set (4 * x.2 + 3) x.1)
        else none) d = none := by
    intro b
    induction b with
    | nil => intro n d _ h; exact absurd rfl h
    | cons v b ih =>
      intro n d hd _
      rw [List.zipIdx_cons, List.foldlM_cons]
      by_cases hlt : 4 * n + 3 < d.length
      · simp only [hlt, if_true]
        show (b.zipIdx (n + 1)).foldlM _ _ = _
        apply ih (n + 1)
        · simp at hd ⊢; omega
        · rintro rfl; simp at hd; omega
      · simp only [hlt, if_false]; rfl
  apply key buffer 0 dest _ hb
  have : 0 < buffer.length := List.length_pos_iff.2 hb
  rw [h, Nat.zero_add, Nat.mul_comm]
  exact Nat.mul_lt_mul_of_pos_right hn this

example := copy_fewer [(7 : ℤ), 9] [0, 0, 0, 0] 2 (by decide) (by simp) rfl

/-! ### C171: weights -/

/-- **The check on updating weights never fires**: it looks at another key than the one of the sub step. -/
theorem weights_not_checked (ps : String → Option Bool) (pfx : String) (op : Op)
    (h : ps (pfx ++ "applycal.applycal.updateweights") = none) : setApplyCalOk ps pfx op = true := by
  unfold setApplyCalOk
  rw [String.append_assoc]
  have : "applycal." ++ "applycal.updateweights" = "applycal.applycal.updateweights" := by decide
  rw [this, h]
  simp

/-- A parset that asks for updating the weights. -/
example : (fun k : String => if k = "predict.applycal.updateweights" then some true else none)
    "predict.applycal.updateweights" = some true ∧
    setApplyCalOk (fun k => if k = "predict.applycal.updateweights" then some true else none) "predict." .add = true :=
  ⟨by decide, weights_not_checked _ _ _ (by decide)⟩

end DP3.PredictStep
