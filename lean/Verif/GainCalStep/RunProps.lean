import Verif.GainCalStep.Model
import Mathlib.Tactic.Ring
import Mathlib.Tactic.Linarith

/-!
# C208: solution intervals
-/

namespace DP3.GainCalStep

set_option linter.unusedSimpArgs false
set_option linter.unusedSectionVars false

variable {A B S F : Type}

/-- The buffers of the solution intervals of `n` time slots. -/
def intervals (n : Nat) (bs : List B) : List (List B) :=
  (List.range ((bs.length + n - 1) / n)).map fun k => (bs.drop (k * n)).take n

/-- The first `q` of them. -/
def firstIntervals (n q : Nat) (bs : List B) : List (List B) := (List.range q).map fun k => (bs.drop (k * n)).take n

/-- The solutions of consecutive intervals, and the state of the solver after them. -/
def solutions (calib : A → List B → A × S) : A → List (List B) → A × List S
  | a, [] => (a, [])
  | a, g :: gs => ((solutions calib (calib a g).1 gs).1, (calib a g).2 :: (solutions calib (calib a g).1 gs).2)

/-- Each buffer of the intervals with the solution of its interval. -/
def withSolution : List (List B) → List S → List (B × Option S)
  | g :: gs, s :: ss => g.map (fun b => (b, some s)) ++ withSolution gs ss
  | _, _ => []

theorem solutions_append (calib : A → List B → A × S) (gs : List (List B)) (g : List B) : ∀ a,
    solutions calib a (gs ++ [g]) = ((calib (solutions calib a gs).1 g).1,
      (solutions calib a gs).2 ++ [(calib (solutions calib a gs).1 g).2]) := by
  induction gs with
  | nil => intro a; rfl
  | cons x gs ih =>
    intro a
    simp only [List.cons_append, solutions, ih]

theorem solutions_length (calib : A → List B → A × S) (gs : List (List B)) : ∀ a,
    (solutions calib a gs).2.length = gs.length := by
  induction gs with
  | nil => intro a; rfl
  | cons x gs ih => intro a; simp [solutions, ih]

private theorem withSolution_append (gs : List (List B)) (g : List B) (s : S) : ∀ ss : List S, ss.length = gs.length →
    withSolution (gs ++ [g]) (ss ++ [s]) = withSolution gs ss ++ g.map fun b => (b, some s) := by
  induction gs with
  | nil =>
    intro ss h
    obtain rfl := List.eq_nil_of_length_eq_zero h
    simp [withSolution]
  | cons x gs ih =>
    intro ss h
    cases ss with
    | nil => simp at h
    | cons y ss => simp [withSolution, ih ss (by simpa using h)]

/-- C208: the intervals are the buffers in order, `n` each, but for the last one, which can have fewer. -/
theorem intervals_spec (n : Nat) (hn : 0 < n) (bs : List B) :
    (intervals n bs).flatten = bs ∧ ∀ (k : Nat) g, (intervals n bs)[k]? = some g →
      g ≠ [] ∧ g.length ≤ n ∧ (k + 1 < (intervals n bs).length → g.length = n) ∧
      ∀ i, i < g.length → g[i]? = bs[k * n + i]? := by
  constructor
  · have key : ∀ q, (firstIntervals n q bs).flatten = bs.take (q * n) := by
      intro q
      induction q with
      | zero => simp [firstIntervals]
      | succ q ih =>
        unfold firstIntervals at ih ⊢
        rw [List.range_succ, List.map_append, List.flatten_append, ih]
        simp only [List.map_cons, List.map_nil, List.flatten_cons, List.flatten_nil, List.append_nil]
        rw [Nat.succ_mul, List.take_add]
    have := key ((bs.length + n - 1) / n)
    unfold firstIntervals at this
    unfold intervals
    rw [this, List.take_of_length_le]
    have h1 := Nat.div_add_mod (bs.length + n - 1) n
    have h2 := Nat.mod_lt (bs.length + n - 1) hn
    rw [mul_comm] at h1
    omega
  · intro k g hg
    have hlen : (intervals n bs).length = (bs.length + n - 1) / n := by simp [intervals]
    have hk : k < (bs.length + n - 1) / n := by
      have := (List.getElem?_eq_some_iff.mp hg).1
      rwa [hlen] at this
    have hg' : (bs.drop (k * n)).take n = g := by
      simp only [intervals, List.getElem?_map, List.getElem?_range hk, Option.map_some] at hg
      exact Option.some.inj hg
    have hkn : k * n < bs.length := by
      have h1 : k + 1 ≤ (bs.length + n - 1) / n := hk
      have h2 := (Nat.le_div_iff_mul_le hn).mp h1
      rw [Nat.succ_mul] at h2
      omega
    have hl : g.length = min n (bs.length - k * n) := by rw [← hg']; simp
    refine ⟨?_, by omega, ?_, ?_⟩
    · intro h
      rw [h] at hl
      simp at hl
      omega
    · intro h
      rw [hlen] at h
      have h1 : k + 1 + 1 ≤ (bs.length + n - 1) / n := h
      have h2 := (Nat.le_div_iff_mul_le hn).mp h1
      have h3 : (k + 1 + 1) * n = k * n + n + n := by ring
      omega
    · intro i hi
      rw [← hg', List.getElem?_take_of_lt (by omega), List.getElem?_drop]

/-! ### The invariant -/

private theorem firstIntervals_snoc (n q : Nat) (bs : List B) :
    firstIntervals n (q + 1) bs = firstIntervals n q bs ++ [(bs.drop (q * n)).take n] := by
  simp [firstIntervals, List.range_succ]

private theorem firstIntervals_append (n q : Nat) (bs : List B) (b : B) (h : q * n ≤ bs.length) :
    firstIntervals n q (bs ++ [b]) = firstIntervals n q bs := by
  unfold firstIntervals
  refine List.map_congr_left ?_
  intro k hk
  have hk := List.mem_range.mp hk
  have h1 : (k + 1) * n ≤ q * n := Nat.mul_le_mul_right n hk
  rw [Nat.succ_mul] at h1
  rw [List.drop_append_of_le_length (by omega), List.take_append_of_le_length (by simp; omega)]

variable [Field F]

/-- The state after the buffers `pre`, of which the first `q` intervals are complete. -/
structure Inv (c : Config F) (calib : A → List B → A × S) (alg : A) (pre : List B) (q : Nat) (s : State A B S F) :
    Prop where
  len : pre.length = q * c.solInt + s.step
  lt : s.step < c.solInt
  data : s.step ≠ 0 → s.data = pre.drop (q * c.solInt)
  heldLen : c.apply = true → s.held.length = c.solInt
  held : c.apply = true → ∀ i, i < s.step → s.held[i]? = some (pre[q * c.solInt + i]?)
  algE : s.alg = (solutions calib alg (firstIntervals c.solInt q pre)).1
  sols : s.writes.flatMap Prod.snd ++ s.sols = (solutions calib alg (firstIntervals c.solInt q pre)).2
  upd : s.updates = s.sols.length
  few : c.h5 = false → s.updates < c.perUpdate
  noWrite : c.h5 = true → s.writes = []
  chunk : s.chunkStart = c.startTime + (s.writes.length : F) * ((c.solInt : F) * (c.perUpdate : F) * c.interval)
  writes : ∀ (k : Nat) w, s.writes[k]? = some w → w.2.length = c.perUpdate ∧
    w.1 = c.startTime + (k : F) * ((c.solInt : F) * (c.perUpdate : F) * c.interval)
  out : s.out = if c.apply then withSolution (firstIntervals c.solInt q pre) (solutions calib alg (firstIntervals c.solInt q pre)).2
    else pre.map fun b => (b, none)

private theorem corrected_spec (s : S) : ∀ (n : Nat) (held : List (Option B)) (g : List B), g.length = n →
    (∀ i, i < n → held[i]? = some (g[i]?)) → corrected s n held = some (g.map fun b => (b, some s)) := by
  intro n
  induction n with
  | zero =>
    intro held g hg _
    obtain rfl := List.eq_nil_of_length_eq_zero hg
    rfl
  | succ n ih =>
    intro held g hg h
    cases g with
    | nil => simp at hg
    | cons b g =>
      cases held with
      | nil => have := h 0 (by omega); simp at this
      | cons x held =>
        have h0 := h 0 (by omega)
        simp only [List.getElem?_cons_zero, Option.some.injEq] at h0
        subst h0
        rw [corrected, ih held g (by simpa using hg) (fun i hi => by simpa using h (i + 1) (by omega))]
        rfl

private theorem inv_start (c : Config F) (calib : A → List B → A × S) (alg : A) (hn : 0 < c.solInt)
    (hp : c.h5 = false → 0 < c.perUpdate) (ha : c.apply = true → c.solint ≠ 0) :
    Inv c calib alg [] 0 (start c alg) where
  len := by simp [start]
  lt := hn
  data := fun h => absurd rfl h
  heldLen := by
    intro h
    have := ha h
    simp [start, h, Config.solInt, this]
  held := fun _ i hi => absurd hi (by simp [start])
  algE := rfl
  sols := rfl
  upd := rfl
  few := hp
  noWrite := fun _ => rfl
  chunk := by simp [start]
  writes := fun k w h => by simp [start] at h
  out := by cases h : c.apply <;> simp [start, h, withSolution, firstIntervals]

/-- After `store`, in the terms of the invariant before. -/
private theorem store_spec (c : Config F) (calib : A → List B → A × S) (alg : A) (pre : List B) (q : Nat)
    (s : State A B S F) (h : Inv c calib alg pre q s) (b : B) :
    ∃ held, store c s b = some { s with data := (pre ++ [b]).drop (q * c.solInt), held := held, step := s.step + 1 } ∧
      (c.apply = true → held.length = c.solInt ∧
        ∀ i, i < s.step + 1 → held[i]? = some ((pre ++ [b])[q * c.solInt + i]?)) := by
  have hl := h.len
  have hdata : (if s.step = 0 then [b] else s.data ++ [b]) = (pre ++ [b]).drop (q * c.solInt) := by
    rw [List.drop_append_of_le_length (by omega)]
    split_ifs with h0
    · rw [List.drop_of_length_le (by omega)]; rfl
    · rw [h.data h0]
  unfold store
  simp only [hdata]
  cases ha : c.apply with
  | false => exact ⟨s.held, by simp, fun h => by cases h⟩
  | true =>
    have hh := h.heldLen ha
    rw [if_pos rfl, if_pos (by rw [hh]; exact h.lt)]
    refine ⟨_, rfl, fun _ => ⟨by simpa using hh, ?_⟩⟩
    intro i hi
    by_cases hi' : i = s.step
    · subst hi'
      rw [List.getElem?_set_self (by rw [hh]; exact h.lt), ← hl, List.getElem?_append_right (le_refl _)]
      simp
    · rw [List.getElem?_set_ne (by omega), h.held ha i (by omega), List.getElem?_append_left (by omega)]

private theorem inv_process (c : Config F) (calib : A → List B → A × S) (alg : A) (pre : List B) (q : Nat)
    (s : State A B S F) (hp : c.h5 = false → 0 < c.perUpdate) (h : Inv c calib alg pre q s) (b : B) :
    ∃ s' q', process c calib s b = some s' ∧ Inv c calib alg (pre ++ [b]) q' s' := by
  obtain ⟨held, e1, e2⟩ := store_spec c calib alg pre q s h b
  have hl := h.len
  have hn : 0 < c.solInt := lt_of_le_of_lt (Nat.zero_le _) h.lt
  unfold process
  rw [e1, Option.bind_some]
  unfold endInterval
  by_cases hs : s.step + 1 = c.solInt
  · rw [if_pos hs]
    -- the interval is complete
    have hg : ((pre ++ [b]).drop (q * c.solInt)).take c.solInt = (pre ++ [b]).drop (q * c.solInt) :=
      List.take_of_length_le (by simp; omega)
    have hfi : firstIntervals c.solInt (q + 1) (pre ++ [b]) =
        firstIntervals c.solInt q pre ++ [(pre ++ [b]).drop (q * c.solInt)] := by
      rw [firstIntervals_snoc, firstIntervals_append _ _ _ _ (by omega), hg]
    set g := (pre ++ [b]).drop (q * c.solInt) with hgdef
    have hsol : solutions calib alg (firstIntervals c.solInt (q + 1) (pre ++ [b])) =
        ((calib s.alg g).1, (solutions calib alg (firstIntervals c.solInt q pre)).2 ++ [(calib s.alg g).2]) := by
      rw [hfi, solutions_append, ← h.algE]
    have hglen : g.length = c.solInt := by rw [hgdef]; simp; omega
    have hsolve : ∃ out, solve c calib c.solInt { s with data := g, held := held, step := s.step + 1 } =
        some ⟨(calib s.alg g).1, g, held, 0, s.sols ++ [(calib s.alg g).2], s.updates, s.chunkStart, out, s.writes⟩ ∧
        out = if c.apply then withSolution (firstIntervals c.solInt (q + 1) (pre ++ [b]))
          (solutions calib alg (firstIntervals c.solInt (q + 1) (pre ++ [b]))).2 else pre.map fun b => (b, none) := by
      have ho := h.out
      unfold solve
      simp only
      cases ha : c.apply with
      | false =>
        rw [ha] at ho
        exact ⟨s.out, by simp, by simpa using ho⟩
      | true =>
        rw [ha] at ho
        simp only [if_true] at ho ⊢
        rw [corrected_spec (calib s.alg g).2 c.solInt held g hglen (fun i hi => by
          rw [(e2 ha).2 i (by omega), hgdef, List.getElem?_drop])]
        refine ⟨_, rfl, ?_⟩
        rw [hsol, hfi, withSolution_append _ _ _ _ (solutions_length _ _ _), ← ho]
    obtain ⟨out, hso, hout⟩ := hsolve
    rw [hso]
    simp only [Option.map_some]
    refine ⟨_, q + 1, rfl, ?_⟩
    have hsols := h.sols
    have hupd := h.upd
    have hq1 : (pre ++ [b]).length = (q + 1) * c.solInt := by rw [Nat.succ_mul]; simp; omega
    unfold flush
    simp only
    by_cases hf : c.h5 = false ∧ s.updates + 1 = c.perUpdate
    · rw [if_pos hf]
      unfold pass
      have ha : ∀ t : State A B S F, t.step = 0 → t.data = g → t.held = held → t.alg = (calib s.alg g).1 →
          t.sols = [] → t.updates = 0 →
          t.writes = s.writes ++ [(s.chunkStart, s.sols ++ [(calib s.alg g).2])] →
          t.chunkStart = s.chunkStart + (c.solInt : F) * (c.perUpdate : F) * c.interval →
          (t.out = if c.apply then withSolution (firstIntervals c.solInt (q + 1) (pre ++ [b]))
            (solutions calib alg (firstIntervals c.solInt (q + 1) (pre ++ [b]))).2
            else (pre ++ [b]).map fun b => (b, none)) → Inv c calib alg (pre ++ [b]) (q + 1) t := by
        intro t t1 t2 t3 t4 t5 t6 t7 t8 t9
        refine ⟨by rw [t1, hq1]; rfl, by rw [t1]; exact hn, fun h => absurd t1 h, fun ha => by rw [t3]; exact (e2 ha).1,
          fun _ i hi => by omega, by rw [t4, hsol], ?_, by rw [t6, t5]; rfl, fun h => by rw [t6]; exact hp h,
          (fun h5 => by rw [hf.1] at h5; cases h5), ?_, ?_, t9⟩
        · rw [t7, t5, hsol, List.flatMap_append, ← hsols]; simp
        · rw [t8, t7, h.chunk]; push_cast [List.length_append, List.length_singleton]; ring
        · intro k w hw
          rw [t7] at hw
          by_cases hk : k < s.writes.length
          · rw [List.getElem?_append_left hk] at hw
            exact h.writes k w hw
          · rw [List.getElem?_append_right (by omega)] at hw
            have hk0 : k - s.writes.length = 0 := by
              by_contra hne
              rw [List.getElem?_eq_none (by simp; omega)] at hw
              cases hw
            rw [hk0] at hw
            obtain rfl := Option.some.inj hw
            have hke : k = s.writes.length := by omega
            refine ⟨by simp; omega, by rw [hke]; exact h.chunk⟩
      cases hap : c.apply with
      | true =>
        simp only [if_true]
        refine ha _ rfl rfl rfl rfl rfl rfl rfl rfl ?_
        rw [hap] at hout ⊢
        exact hout
      | false =>
        simp only [Bool.false_eq_true, if_false]
        refine ha _ rfl rfl rfl rfl rfl rfl rfl rfl ?_
        rw [hap] at hout ⊢
        simp only [Bool.false_eq_true, if_false] at hout ⊢
        rw [hout, List.map_append]; rfl
    · rw [if_neg hf]
      unfold pass
      have ha : ∀ t : State A B S F, t.step = 0 → t.data = g → t.held = held → t.alg = (calib s.alg g).1 →
          t.sols = s.sols ++ [(calib s.alg g).2] → t.updates = s.updates + 1 → t.writes = s.writes →
          t.chunkStart = s.chunkStart →
          (t.out = if c.apply then withSolution (firstIntervals c.solInt (q + 1) (pre ++ [b]))
            (solutions calib alg (firstIntervals c.solInt (q + 1) (pre ++ [b]))).2
            else (pre ++ [b]).map fun b => (b, none)) → Inv c calib alg (pre ++ [b]) (q + 1) t := by
        intro t t1 t2 t3 t4 t5 t6 t7 t8 t9
        refine ⟨by rw [t1, hq1]; rfl, by rw [t1]; exact hn, fun h => absurd t1 h, fun ha => by rw [t3]; exact (e2 ha).1,
          fun _ i hi => by omega, by rw [t4, hsol], ?_, by rw [t6, t5]; simp [hupd], ?_,
          fun h5 => by rw [t7]; exact h.noWrite h5, by rw [t8, t7]; exact h.chunk,
          fun k w hw => h.writes k w (by rwa [t7] at hw), t9⟩
        · rw [t7, t5, hsol, ← List.append_assoc, hsols]
        · intro h5
          have h1 := h.few h5
          have h2 : ¬ s.updates + 1 = c.perUpdate := fun e => hf ⟨h5, e⟩
          omega
      cases hap : c.apply with
      | true =>
        simp only [if_true]
        refine ha _ rfl rfl rfl rfl rfl rfl rfl rfl ?_
        rw [hap] at hout ⊢
        exact hout
      | false =>
        simp only [Bool.false_eq_true, if_false]
        refine ha _ rfl rfl rfl rfl rfl rfl rfl rfl ?_
        rw [hap] at hout ⊢
        simp only [Bool.false_eq_true, if_false] at hout ⊢
        rw [hout, List.map_append]; rfl
  · rw [if_neg hs]
    simp only [Option.map_some]
    refine ⟨_, q, rfl, ?_⟩
    have hnf : ¬ (c.h5 = false ∧ s.updates = c.perUpdate) := by
      rintro ⟨h5, e⟩
      have := h.few h5
      omega
    have hfi := firstIntervals_append c.solInt q pre b (by omega)
    unfold flush
    simp only
    rw [if_neg hnf]
    unfold pass
    have hl' := h.lt
    have ha : ∀ t : State A B S F, t.step = s.step + 1 → t.data = (pre ++ [b]).drop (q * c.solInt) → t.held = held →
        t.alg = s.alg → t.sols = s.sols → t.updates = s.updates → t.writes = s.writes → t.chunkStart = s.chunkStart →
        (t.out = if c.apply then withSolution (firstIntervals c.solInt q (pre ++ [b]))
          (solutions calib alg (firstIntervals c.solInt q (pre ++ [b]))).2
          else (pre ++ [b]).map fun b => (b, none)) → Inv c calib alg (pre ++ [b]) q t := by
      intro t t1 t2 t3 t4 t5 t6 t7 t8 t9
      refine ⟨by rw [t1]; simp; omega, by rw [t1]; omega, fun _ => t2, fun ha => by rw [t3]; exact (e2 ha).1,
        fun ha i hi => by rw [t3]; exact (e2 ha).2 i (by omega), by rw [t4, hfi]; exact h.algE,
        by rw [t7, t5, hfi]; exact h.sols, by rw [t6, t5]; exact h.upd, fun h5 => by rw [t6]; exact h.few h5,
        fun h5 => by rw [t7]; exact h.noWrite h5, by rw [t8, t7]; exact h.chunk,
        fun k w hw => h.writes k w (by rwa [t7] at hw), t9⟩
    have ho := h.out
    cases hap : c.apply with
    | true =>
      simp only [if_true]
      refine ha _ rfl rfl rfl rfl rfl rfl rfl rfl ?_
      rw [hap] at ho ⊢
      rw [hfi]
      exact ho
    | false =>
      simp only [Bool.false_eq_true, if_false]
      refine ha _ rfl rfl rfl rfl rfl rfl rfl rfl ?_
      rw [hap] at ho ⊢
      simp only [Bool.false_eq_true, if_false] at ho ⊢
      rw [ho, List.map_append]; rfl

private theorem inv_all (c : Config F) (calib : A → List B → A × S) (alg : A) (hp : c.h5 = false → 0 < c.perUpdate)
    (bs : List B) : ∀ (pre : List B) (q : Nat) (s : State A B S F), Inv c calib alg pre q s →
    ∃ s' q', processAll c calib s bs = some s' ∧ Inv c calib alg (pre ++ bs) q' s' := by
  induction bs with
  | nil => intro pre q s h; exact ⟨s, q, rfl, by rwa [List.append_nil]⟩
  | cons b bs ih =>
    intro pre q s h
    obtain ⟨s1, q1, e1, h1⟩ := inv_process c calib alg pre q s hp h b
    obtain ⟨s2, q2, e2, h2⟩ := ih (pre ++ [b]) q1 s1 h1
    refine ⟨s2, q2, ?_, by simpa using h2⟩
    unfold processAll
    rw [e1, Option.bind_some, e2]

/-- C208 (see `solint_zero` for what is missing): every solution is made from the buffers of its interval; all buffers
are passed on in order, each with the solution of its interval if solutions are applied; and all solutions are
written once, in order: with a ParmDB in parts of `timeslotsperparmupdate` intervals, of which the start times are
those of their first interval. -/
theorem gaincal_run_partial (c : Config F) (calib : A → List B → A × S) (alg : A) (bs : List B) (hn : 0 < c.solInt)
    (hp : c.h5 = false → 0 < c.perUpdate) (ha : c.apply = true → c.solint ≠ 0) :
    ∃ s, run c calib alg bs = some s ∧
      s.out = (if c.apply then
        withSolution (intervals c.solInt bs) (solutions calib alg (intervals c.solInt bs)).2
        else bs.map fun b => (b, none)) ∧
      s.writes.flatMap Prod.snd = (solutions calib alg (intervals c.solInt bs)).2 ∧
      (c.h5 = true → s.writes.length ≤ 1) ∧
      ∀ (k : Nat) w, s.writes[k]? = some w → w.2 ≠ [] ∧
        w.1 = c.startTime + (k : F) * ((c.solInt : F) * (c.perUpdate : F) * c.interval) ∧
        (c.h5 = false → w.2.length ≤ c.perUpdate ∧ (k + 1 < s.writes.length → w.2.length = c.perUpdate)) := by
  obtain ⟨s, q, e, h⟩ := inv_all c calib alg hp bs [] 0 _ (inv_start c calib alg hn hp ha)
  rw [List.nil_append] at h
  have hl := h.len
  have hlt := h.lt
  -- the last interval
  have hlast : ∃ s1, (if s.step ≠ 0 then solve c calib s.step s else some s) = some s1 ∧ s1.writes = s.writes ∧
      s1.chunkStart = s.chunkStart ∧
      s1.writes.flatMap Prod.snd ++ s1.sols = (solutions calib alg (intervals c.solInt bs)).2 ∧
      (c.h5 = false → s1.sols.length ≤ c.perUpdate) ∧
      s1.out = (if c.apply then
        withSolution (intervals c.solInt bs) (solutions calib alg (intervals c.solInt bs)).2
        else bs.map fun b => (b, none)) := by
    by_cases h0 : s.step = 0
    · rw [if_neg (by simpa using h0)]
      have hq : (bs.length + c.solInt - 1) / c.solInt = q := by
        rw [hl, h0, Nat.add_zero]
        rw [show q * c.solInt + c.solInt - 1 = (c.solInt - 1) + c.solInt * q by rw [mul_comm c.solInt q]; omega,
          Nat.add_mul_div_left _ _ hn, Nat.div_eq_of_lt (by omega), Nat.zero_add]
      have hi : intervals c.solInt bs = firstIntervals c.solInt q bs := by simp only [intervals, firstIntervals, hq]
      refine ⟨s, rfl, rfl, rfl, by rw [hi]; exact h.sols, fun h5 => ?_, by rw [hi]; exact h.out⟩
      have := h.few h5
      rw [h.upd] at this
      omega
    · rw [if_pos h0]
      have hq : (bs.length + c.solInt - 1) / c.solInt = q + 1 := by
        rw [hl]
        rw [show q * c.solInt + s.step + c.solInt - 1 = (s.step - 1) + c.solInt * (q + 1) by
          rw [Nat.mul_succ, mul_comm c.solInt q]; omega,
          Nat.add_mul_div_left _ _ hn, Nat.div_eq_of_lt (by omega), Nat.zero_add]
      have hg : (bs.drop (q * c.solInt)).take c.solInt = bs.drop (q * c.solInt) :=
        List.take_of_length_le (by simp; omega)
      have hi : intervals c.solInt bs = firstIntervals c.solInt q bs ++ [s.data] := by
        have : intervals c.solInt bs = firstIntervals c.solInt (q + 1) bs := by
          simp only [intervals, firstIntervals, hq]
        rw [this, firstIntervals_snoc, hg, h.data h0]
      have hsol : (solutions calib alg (intervals c.solInt bs)).2 =
          (solutions calib alg (firstIntervals c.solInt q bs)).2 ++ [(calib s.alg s.data).2] := by
        rw [hi, solutions_append, ← h.algE]
      have hlen : s.data.length = s.step := by rw [h.data h0]; simp; omega
      have ho := h.out
      have hfew : c.h5 = false → (s.sols ++ [(calib s.alg s.data).2]).length ≤ c.perUpdate := by
        intro h5
        have := h.few h5
        rw [h.upd] at this
        simp; omega
      unfold solve
      simp only
      cases hap : c.apply with
      | false =>
        rw [hap] at ho
        refine ⟨_, rfl, rfl, rfl, ?_, hfew, by simpa using ho⟩
        simp only
        rw [← List.append_assoc, h.sols, hsol]
      | true =>
        rw [hap] at ho
        simp only [if_true] at ho ⊢
        rw [corrected_spec (calib s.alg s.data).2 s.step s.held s.data hlen (fun i hi => by
          rw [h.held hap i hi, h.data h0, List.getElem?_drop])]
        refine ⟨_, rfl, rfl, rfl, ?_, hfew, ?_⟩
        · simp only
          rw [← List.append_assoc, h.sols, hsol]
        · simp only
          rw [hsol, hi, withSolution_append _ _ _ _ (solutions_length _ _ _), ← ho]
  obtain ⟨s1, f1, f2, f3, f4, f5, f6⟩ := hlast
  unfold run
  rw [e, Option.bind_some]
  unfold finish
  rw [f1, Option.map_some]
  have hw : ∀ (k : Nat) w, s.writes[k]? = some w → w.2 ≠ [] ∨ c.perUpdate = 0 := by
    intro k w hk
    rcases Nat.eq_zero_or_pos c.perUpdate with h0 | h0
    · exact .inr h0
    · left
      intro hne
      have := (h.writes k w hk).1
      rw [hne] at this
      simp at this
      omega
  have hnw : ∀ (k : Nat) w, s.writes[k]? = some w → c.h5 = false := by
    intro k w hk
    by_contra hne
    have := h.noWrite (by simpa using hne)
    rw [this] at hk
    simp at hk
  by_cases hs : s1.sols = []
  · rw [if_neg (by simpa using hs)]
    refine ⟨s1, rfl, f6, by rw [← f4, hs, List.append_nil], fun h5 => by rw [f2, h.noWrite h5]; simp, ?_⟩
    intro k w hk
    rw [f2] at hk
    have h5 := hnw k w hk
    obtain ⟨g1, g2⟩ := h.writes k w hk
    refine ⟨?_, g2, fun _ => ⟨by omega, fun _ => g1⟩⟩
    rcases hw k w hk with hx | hx
    · exact hx
    · have := hp h5; omega
  · rw [if_pos hs]
    refine ⟨_, rfl, f6, by simp only [List.flatMap_append]; rw [← f4]; simp, ?_, ?_⟩
    · intro h5
      simp [f2, h.noWrite h5]
    · intro k w hk
      simp only [f2, f3] at hk ⊢
      by_cases hkl : k < s.writes.length
      · rw [List.getElem?_append_left hkl] at hk
        have h5 := hnw k w hk
        obtain ⟨g1, g2⟩ := h.writes k w hk
        refine ⟨?_, g2, fun _ => ⟨by omega, fun _ => g1⟩⟩
        rcases hw k w hk with hx | hx
        · exact hx
        · have := hp h5; omega
      · rw [List.getElem?_append_right (by omega)] at hk
        have hk0 : k - s.writes.length = 0 := by
          by_contra hne
          rw [List.getElem?_eq_none (by simp; omega)] at hk
          cases hk
        rw [hk0] at hk
        obtain rfl := Option.some.inj hk
        have hke : k = s.writes.length := by omega
        refine ⟨hs, by rw [hke]; exact h.chunk, fun h5 => ⟨f5 h5, fun hlt2 => ?_⟩⟩
        simp at hlt2
        omega

/-- A run for the examples: the solution of an interval is the sum of its buffers, and the solver counts. -/
def sampleConfig (apply h5 : Bool) (solint : Nat) : Config ℚ := ⟨solint, 5, 10, 100, 2, apply, h5⟩

example : ((run (sampleConfig true false 2) (fun (a : ℕ) (l : List ℕ) => (a + 1, (a, l.sum))) 0 [1, 2, 3, 4, 5]).map
    fun s => (s.out, s.writes)) =
    some ([(1, some (0, 3)), (2, some (0, 3)), (3, some (1, 7)), (4, some (1, 7)), (5, some (2, 5))],
      [(100, [(0, 3), (1, 7)]), (140, [(2, 5)])]) := by decide +kernel

example : 0 < (sampleConfig true false 2).solInt ∧ ((sampleConfig true false 2).h5 = false →
    0 < (sampleConfig true false 2).perUpdate) ∧
    ((sampleConfig true false 2).apply = true → (sampleConfig true false 2).solint ≠ 0) := by decide +kernel

/-- C208: with `solint=0` (one interval) and applying the solutions, the first buffer already is put outside of the
vector of buffers, which got its size before the number of time slots was known. -/
theorem solint_zero (c : Config F) (calib : A → List B → A × S) (alg : A) (b : B) (bs : List B)
    (h0 : c.solint = 0) (ha : c.apply = true) : run c calib alg (b :: bs) = none := by
  simp [run, processAll, process, store, start, h0, ha]

end DP3.GainCalStep
