import Verif.DemixTimes.Spec
import Mathlib.Data.List.Perm.Basic
import Mathlib.Data.Nat.ModEq

/-!
# Groups of times and the loop over the slots
-/

namespace DP3.DemixTimes

set_option linter.unusedSimpArgs false

variable {B A R F FS G : Type}

/-! ## Groups -/

theorem full_length (n : Nat) (l : List B) : (full n l).length = l.length / n := by
  unfold full
  simp

theorem rest_length (n : Nat) (l : List B) : (rest n l).length = l.length % n := by
  unfold rest
  rw [List.length_drop]
  have := Nat.div_add_mod l.length n
  have h2 : n * (l.length / n) = l.length / n * n := Nat.mul_comm _ _
  omega

theorem full_getElem? (n : Nat) (l : List B) (i : Nat) : (full n l)[i]? = if i < l.length / n then some ((l.drop (i * n)).take n) else none := by
  unfold full
  rw [List.getElem?_map]
  by_cases h : i < l.length / n
  · rw [if_pos h, List.getElem?_range h]
    rfl
  · rw [if_neg h, List.getElem?_eq_none (by simpa using Nat.le_of_not_lt h)]
    rfl

theorem snoc_full {n : Nat} (hn : 0 < n) (l : List B) (x : B) (h : (l.length + 1) % n = 0) :
    full n (l ++ [x]) = full n l ++ [rest n l ++ [x]] ∧ rest n (l ++ [x]) = [] := by
  have hdiv : (l.length + 1) / n = l.length / n + 1 := by
    have := Nat.succ_div (a := l.length) (b := n)
    rw [this, if_pos (Nat.dvd_of_mod_eq_zero h)]
  have hmul : (l.length / n + 1) * n = l.length + 1 := by
    rw [← hdiv]
    exact Nat.div_mul_cancel (Nat.dvd_of_mod_eq_zero h)
  constructor
  · apply List.ext_getElem?
    intro i
    rw [full_getElem?, List.length_append, List.length_singleton, hdiv]
    by_cases hi : i < l.length / n
    · rw [if_pos (by omega), List.getElem?_append_left (by rw [full_length]; exact hi), full_getElem?, if_pos hi]
      have hle : i * n + n ≤ l.length := by
        have h1 : (i + 1) * n ≤ l.length / n * n := Nat.mul_le_mul_right n hi
        have h2 := Nat.div_mul_le_self l.length n
        rw [Nat.add_mul, Nat.one_mul] at h1
        omega
      rw [List.drop_append_of_le_length (by omega), List.take_append_of_le_length (by rw [List.length_drop]; omega)]
    · by_cases hi2 : i = l.length / n
      · rw [if_pos (by omega), List.getElem?_append_right (by rw [full_length]; omega), full_length, hi2, Nat.sub_self]
        simp only [List.getElem?_cons_zero, Option.some.injEq]
        unfold rest
        have h2 := Nat.div_mul_le_self l.length n
        rw [List.drop_append_of_le_length h2, List.take_of_length_le]
        rw [List.length_append, List.length_drop, List.length_singleton]
        rw [Nat.add_mul, Nat.one_mul] at hmul
        omega
      · rw [if_neg (by omega), List.getElem?_eq_none]
        rw [List.length_append, full_length, List.length_singleton]
        omega
  · apply List.length_eq_zero_iff.mp
    rw [rest_length, List.length_append, List.length_singleton, h]

theorem snoc_rest {n : Nat} (l : List B) (x : B) (h : (l.length + 1) % n ≠ 0) :
    full n (l ++ [x]) = full n l ∧ rest n (l ++ [x]) = rest n l ++ [x] := by
  have hdiv : (l.length + 1) / n = l.length / n := by
    have := Nat.succ_div (a := l.length) (b := n)
    rw [this, if_neg (fun hd => h (Nat.mod_eq_zero_of_dvd hd))]
    rfl
  have h2 := Nat.div_mul_le_self l.length n
  constructor
  · apply List.ext_getElem?
    intro i
    rw [full_getElem?, full_getElem?, List.length_append, List.length_singleton, hdiv]
    by_cases hi : i < l.length / n
    · rw [if_pos hi, if_pos hi]
      have hle : i * n + n ≤ l.length := by
        have h1 : (i + 1) * n ≤ l.length / n * n := Nat.mul_le_mul_right n hi
        rw [Nat.add_mul, Nat.one_mul] at h1
        omega
      rw [List.drop_append_of_le_length (by omega), List.take_append_of_le_length (by rw [List.length_drop]; omega)]
    · rw [if_neg hi, if_neg hi]
  · unfold rest
    rw [List.length_append, List.length_singleton, hdiv, List.drop_append_of_le_length h2]

theorem append_groups {n : Nat} (hn : 0 < n) (p l : List B) (h : n ∣ p.length) :
    full n (p ++ l) = full n p ++ full n l ∧ rest n (p ++ l) = rest n l ∧ rest n p = [] := by
  obtain ⟨k, hk⟩ := h
  have hdp : p.length / n = k := by rw [hk]; exact Nat.mul_div_cancel_left k hn
  have hd : (p ++ l).length / n = k + l.length / n := by
    rw [List.length_append, hk, Nat.mul_add_div hn]
  refine ⟨?_, ?_, ?_⟩
  · apply List.ext_getElem?
    intro i
    rw [full_getElem?, hd]
    by_cases hi : i < k
    · rw [if_pos (Nat.lt_of_lt_of_le hi (Nat.le_add_right _ _)), List.getElem?_append_left (by rw [full_length, hdp]; exact hi), full_getElem?, hdp, if_pos hi]
      have hle : i * n + n ≤ p.length := by
        have h1 : (i + 1) * n ≤ k * n := Nat.mul_le_mul_right n hi
        rw [Nat.add_mul, Nat.one_mul, Nat.mul_comm k n] at h1
        omega
      rw [List.drop_append_of_le_length (by omega), List.take_append_of_le_length (by rw [List.length_drop]; omega)]
    · rw [List.getElem?_append_right (by rw [full_length, hdp]; omega), full_length, hdp, full_getElem?]
      by_cases hi2 : i < k + l.length / n
      · rw [if_pos hi2, if_pos (by omega)]
        congr 2
        have : i * n = p.length + (i - k) * n := by
          rw [hk, Nat.mul_comm n k, ← Nat.add_mul]
          congr 1
          omega
        rw [this, List.drop_append]
        simp
      · rw [if_neg hi2, if_neg (by omega)]
  · unfold rest
    have : (p ++ l).length / n * n = p.length + l.length / n * n := by
      rw [hd, Nat.add_mul, hk, Nat.mul_comm n k]
    rw [this, List.drop_append]
    simp
  · apply List.length_eq_zero_iff.mp
    rw [rest_length, hk, Nat.mul_mod_right]

theorem groups_append {n : Nat} (hn : 0 < n) (p l : List B) (h : n ∣ p.length) : groups n (p ++ l) = groups n p ++ groups n l := by
  obtain ⟨h1, h2, h3⟩ := append_groups hn p l h
  unfold groups
  rw [h1, h2, h3, if_pos rfl, List.append_nil, List.append_assoc]

theorem groups_length {n : Nat} (hn : 0 < n) (l : List B) : (groups n l).length = (l.length + n - 1) / n := by
  unfold groups
  have hm := rest_length n l
  have hlt := Nat.mod_lt l.length hn
  have hdm := Nat.div_add_mod l.length n
  by_cases h : rest n l = []
  · rw [if_pos h, List.append_nil, full_length]
    rw [h, List.length_nil] at hm
    symm
    rw [Nat.div_eq_iff hn]
    rw [Nat.mul_comm] at hdm
    omega
  · rw [if_neg h, List.length_append, full_length, List.length_singleton]
    have hpos : 0 < l.length % n := by rw [← hm]; exact List.length_pos_of_ne_nil h
    symm
    rw [Nat.div_eq_iff hn, Nat.add_mul, Nat.one_mul]
    rw [Nat.mul_comm] at hdm
    omega

/-! ## Solutions -/

/-- The value that the next solution starts from. -/
def after (o : Ops B A R F FS G) (propagate : Bool) : G → List (A × F) → G
  | g, [] => g
  | g, x :: xs => after o propagate (if propagate then o.solve x.1 x.2 g else g) xs

theorem gains_append (o : Ops B A R F FS G) (propagate : Bool) (g : G) (a b : List (A × F)) :
    gains o propagate g (a ++ b) = gains o propagate g a ++ gains o propagate (after o propagate g a) b := by
  induction a generalizing g with
  | nil => rfl
  | cons x a ih =>
    rw [List.cons_append, gains, gains, after, ih]
    rfl

theorem after_append (o : Ops B A R F FS G) (propagate : Bool) (g : G) (a b : List (A × F)) :
    after o propagate g (a ++ b) = after o propagate (after o propagate g a) b := by
  induction a generalizing g with
  | nil => rfl
  | cons x a ih =>
    rw [List.cons_append, after, after, ih]

theorem gains_length (o : Ops B A R F FS G) (propagate : Bool) (g : G) (a : List (A × F)) : (gains o propagate g a).length = a.length := by
  induction a generalizing g with
  | nil => rfl
  | cons x a ih => rw [gains, List.length_cons, List.length_cons, ih]

theorem after_false (o : Ops B A R F FS G) (g : G) (a : List (A × F)) : after o false g a = g := by
  induction a generalizing g with
  | nil => rfl
  | cons x a ih => rw [after, ih]; rfl

theorem gains_get (o : Ops B A R F FS G) (propagate : Bool) (g : G) (a : List (A × F)) (i : Nat) :
    (gains o propagate g a)[i]? = (a[i]?).map fun x => o.solve x.1 x.2 (after o propagate g (a.take i)) := by
  induction a generalizing g i with
  | nil => rfl
  | cons x a ih =>
    rw [gains]
    cases i with
    | zero => rfl
    | succ i =>
      rw [List.getElem?_cons_succ, List.getElem?_cons_succ, ih, List.take_succ_cons, after]

theorem after_last (o : Ops B A R F FS G) (g : G) (a : List (A × F)) (i : Nat) (h : i < a.length) :
    (gains o true g a)[i]? = some (after o true g (a.take (i + 1))) := by
  rw [gains_get, List.getElem?_eq_getElem h, List.take_succ_eq_append_getElem h, after_append]
  rfl

theorem outputs_append (o : Ops B A R F FS G) {m : Nat} (hm : 0 < m) (x1 x2 : List (A × F)) (g1 g2 : List G) (h1 h2 : List (List B))
    (hx : x1.length = g1.length) (hh : h1.length = m * x1.length) :
    outputs o m (x1 ++ x2) (g1 ++ g2) (h1 ++ h2) = outputs o m x1 g1 h1 ++ outputs o m x2 g2 h2 := by
  unfold outputs
  rw [List.zipIdx_append, List.map_append]
  congr 1
  · apply List.map_congr_left
    rintro ⟨h, j⟩ hj
    have hlt : j < h1.length := by
      have := (List.mem_zipIdx hj).2.1
      omega
    have : j / m < x1.length := by
      rw [Nat.div_lt_iff_lt_mul hm, Nat.mul_comm, ← hh]
      exact hlt
    dsimp only
    rw [List.getElem?_append_left this, List.getElem?_append_left (by rw [← hx]; exact this)]
  · rw [Nat.zero_add, hh]
    apply List.ext_getElem?
    intro i
    rw [List.getElem?_map, List.getElem?_map, List.getElem?_zipIdx, List.getElem?_zipIdx, Option.map_map, Option.map_map]
    congr 1
    funext h
    simp only [Function.comp_apply]
    have e : (m * x1.length + i) / m = x1.length + (0 + i) / m := by
      rw [Nat.mul_add_div hm, Nat.zero_add]
    rw [e, List.getElem?_append_right (Nat.le_add_right _ _), List.getElem?_append_right (by rw [← hx]; exact Nat.le_add_right _ _), ← hx]
    simp

/-! ## The loop over the slots -/

theorem subtractSlots_spec (o : Ops B A R F FS G) (g : G) (a : A) (facsS : List FS) (js : List Nat) (res : List R) (hn : js.Nodup)
    (h : ∀ j ∈ js, j < res.length ∧ j < facsS.length) :
    ∃ res', subtractSlots o g a facsS js res = some res' ∧ res'.length = res.length ∧
      ∀ j, res'[j]? = if j ∈ js then (res[j]?).bind (fun r => (facsS[j]?).map fun f => o.sub g a f r) else res[j]? := by
  induction js generalizing res with
  | nil => exact ⟨res, rfl, rfl, fun j => by simp⟩
  | cons k js ih =>
    rw [List.nodup_cons] at hn
    obtain ⟨hk1, hk2⟩ := h k (by simp)
    rw [subtractSlots, List.getElem?_eq_getElem hk1, List.getElem?_eq_getElem hk2]
    obtain ⟨res', h1, h2, h3⟩ := ih (res.set k (o.sub g a facsS[k] res[k])) hn.2
      (fun j hj => by rw [List.length_set]; exact h j (List.mem_cons_of_mem _ hj))
    refine ⟨res', h1, by rw [h2, List.length_set], fun j => ?_⟩
    rw [h3, List.getElem?_set]
    by_cases hjk : k = j
    · subst hjk
      rw [if_neg hn.1, if_pos rfl, if_pos hk1, if_pos (by simp), List.getElem?_eq_getElem hk1, List.getElem?_eq_getElem hk2]
      rfl
    · rw [if_neg hjk]
      have : j ∈ k :: js ↔ j ∈ js := by
        rw [List.mem_cons]
        exact ⟨fun hh => hh.resolve_left (fun e => hjk e.symm), Or.inr⟩
      simp only [this]

/-- A slot is done for its own times only. -/
theorem slot_spec (o : Ops B A R F FS G) (c : Cfg) (s : State B A R F FS G) (l : Loop R G) (ts thread : Nat) (x : A) (f : F)
    (hm : 0 < c.nTimeAvg / c.nTimeAvgSubtr) (hx : s.resA[ts]? = some x) (hf : s.facs[ts]? = some f) (hlen : l.resS.length = s.resS.length)
    (hfs : s.resS.length ≤ s.facsS.length) (hu : s.timeIndex + ts < l.unknowns.length) :
    ∃ l', slot o c s l ts thread = some l' ∧ l'.resS.length = s.resS.length ∧
      l'.unknowns = l.unknowns.set (s.timeIndex + ts) (o.solve x f (if c.propagate then l.storage thread else s.prev)) ∧
      l'.storage = (fun t => if t = thread then o.solve x f (if c.propagate then l.storage thread else s.prev) else l.storage t) ∧
      ∀ j, l'.resS[j]? = if j / (c.nTimeAvg / c.nTimeAvgSubtr) = ts then
          (l.resS[j]?).bind (fun r => (s.facsS[j]?).map fun f' => o.sub (o.solve x f (if c.propagate then l.storage thread else s.prev)) x f' r)
        else l.resS[j]? := by
  obtain ⟨res', h1, h2, h3⟩ := subtractSlots_spec o (o.solve x f (if c.propagate then l.storage thread else s.prev)) x s.facsS
    (List.range' (c.nTimeAvg / c.nTimeAvgSubtr * ts)
      (min (c.nTimeAvg / c.nTimeAvgSubtr * ts + c.nTimeAvg / c.nTimeAvgSubtr) s.resS.length - c.nTimeAvg / c.nTimeAvgSubtr * ts)) l.resS
    List.nodup_range' (fun j hj => by
      rw [List.mem_range'_1] at hj
      omega)
  refine ⟨⟨_, _, res'⟩, ?_, by rw [← hlen]; exact h2, rfl, rfl, fun j => ?_⟩
  · unfold slot
    simp only [hx, hf]
    rw [h1]
    simp only [if_pos hu]
    rfl
  · have hiff : j / (c.nTimeAvg / c.nTimeAvgSubtr) = ts ↔
        c.nTimeAvg / c.nTimeAvgSubtr * ts ≤ j ∧ j < c.nTimeAvg / c.nTimeAvgSubtr * ts + c.nTimeAvg / c.nTimeAvgSubtr := by
      rw [Nat.div_eq_iff hm, Nat.mul_comm]
      omega
    show res'[j]? = _
    rw [h3]
    by_cases hj : j < s.resS.length
    · apply if_congr _ rfl rfl
      rw [hiff, List.mem_range'_1]
      omega
    · have : l.resS[j]? = none := List.getElem?_eq_none (by omega)
      rw [this]
      simp

/-- All slots of a schedule, for solutions that are known. -/
theorem slots_spec (o : Ops B A R F FS G) (c : Cfg) (s : State B A R F FS G) (hm : 0 < c.nTimeAvg / c.nTimeAvgSubtr) (xs : List (A × F))
    (hxs : ∀ (ts : Nat) (x : A × F), xs[ts]? = some x → s.resA[ts]? = some x.1 ∧ s.facs[ts]? = some x.2) (hfs : s.resS.length ≤ s.facsS.length)
    (hu : s.timeIndex + xs.length ≤ s.unknowns.length) (gs : List G) (hgs : gs.length = xs.length)
    (sch : List (Nat × Nat)) (l : Loop R G) (hn : (sch.map Prod.fst).Nodup) (hin : ∀ e ∈ sch, e.1 < xs.length)
    (hlen : l.resS.length = s.resS.length) (hul : l.unknowns.length = s.unknowns.length)
    (horig : ∀ j, j / (c.nTimeAvg / c.nTimeAvgSubtr) ∈ sch.map Prod.fst → l.resS[j]? = s.resS[j]?)
    (hgain : ∀ pre e post, sch = pre ++ e :: post → ∀ st : Nat → G,
      (∀ t, st t = (match (pre.reverse.find? fun e => e.2 == t) with | some e => gs[e.1]?.getD s.prev | none => l.storage t)) →
      ∀ x : A × F, xs[e.1]? = some x → gs[e.1]? = some (o.solve x.1 x.2 (if c.propagate then st e.2 else s.prev))) :
    ∃ l', slots o c s l sch = some l' ∧ l'.resS.length = s.resS.length ∧ l'.unknowns.length = s.unknowns.length ∧
      (∀ i, l'.unknowns[i]? = if s.timeIndex ≤ i ∧ i - s.timeIndex ∈ sch.map Prod.fst then gs[i - s.timeIndex]? else l.unknowns[i]?) ∧
      ∀ j, l'.resS[j]? = if j / (c.nTimeAvg / c.nTimeAvgSubtr) ∈ sch.map Prod.fst then
          (s.resS[j]?).bind (fun r => (s.facsS[j]?).bind fun f' => (xs[j / (c.nTimeAvg / c.nTimeAvgSubtr)]?).bind fun x =>
            (gs[j / (c.nTimeAvg / c.nTimeAvgSubtr)]?).map fun g => o.sub g x.1 f' r)
        else l.resS[j]? := by
  induction sch generalizing l with
  | nil => exact ⟨l, rfl, hlen, hul, fun i => by simp, fun j => by simp⟩
  | cons e sch ih =>
    obtain ⟨ts, th⟩ := e
    rw [List.map_cons, List.nodup_cons] at hn
    have hts : ts < xs.length := hin (ts, th) (by simp)
    obtain ⟨x, hx⟩ : ∃ x, xs[ts]? = some x := ⟨_, List.getElem?_eq_getElem hts⟩
    obtain ⟨hx1, hx2⟩ := hxs ts x hx
    have hg := hgain [] (ts, th) sch rfl l.storage (fun t => rfl) x hx
    obtain ⟨l1, k1, k2, k3, k4, k5⟩ := slot_spec o c s l ts th x.1 x.2 hm hx1 hx2 hlen hfs (by omega)
    generalize hgd : o.solve x.1 x.2 (if c.propagate then l.storage th else s.prev) = g at hg k3 k4 k5
    obtain ⟨l2, q1, q2, q3, q4, q5⟩ := ih l1 hn.2 (fun e he => hin e (List.mem_cons_of_mem _ he)) k2 (by rw [k3, List.length_set, hul])
      (by
        intro j hj
        rw [k5, if_neg (fun hjt => hn.1 (by rw [← hjt]; exact hj))]
        exact horig j (by rw [List.map_cons]; exact List.mem_cons_of_mem _ hj))
      (by
        intro pre e post he st hst y hy
        apply hgain ((ts, th) :: pre) e post (by rw [he]; rfl) st ?_ y hy
        intro t
        rw [hst t, List.reverse_cons, List.find?_append]
        cases hfd : pre.reverse.find? (fun e => e.2 == t) with
        | some w => rfl
        | none =>
          simp only [Option.none_or, List.find?_cons, List.find?_nil]
          rw [k4]
          by_cases ht : t = th
          · subst ht
            simp [hg]
          · have : (th == t) = false := by simpa using fun e => ht e.symm
            simp [this, ht])
    refine ⟨l2, ?_, q2, q3, fun i => ?_, fun j => ?_⟩
    · rw [slots, k1]
      exact q1
    · rw [q4, k3, List.getElem?_set, List.map_cons]
      by_cases hi : s.timeIndex ≤ i ∧ i - s.timeIndex ∈ sch.map Prod.fst
      · rw [if_pos hi, if_pos ⟨hi.1, List.mem_cons_of_mem _ hi.2⟩]
      · rw [if_neg hi]
        by_cases hi2 : s.timeIndex + ts = i
        · have e1 : i - s.timeIndex = ts := by omega
          rw [if_pos hi2, if_pos (by omega : s.timeIndex + ts < l.unknowns.length), if_pos ⟨by omega, by rw [e1]; simp⟩, e1, hg]
        · rw [if_neg hi2, if_neg]
          rintro ⟨ha, hb⟩
          rcases List.mem_cons.mp hb with hb | hb
          · exact hi2 (by dsimp only at hb; omega)
          · exact hi ⟨ha, hb⟩
    · rw [q5, List.map_cons]
      by_cases hj : j / (c.nTimeAvg / c.nTimeAvgSubtr) ∈ sch.map Prod.fst
      · rw [if_pos hj, if_pos (List.mem_cons_of_mem _ hj)]
      · rw [if_neg hj, k5]
        by_cases hj2 : j / (c.nTimeAvg / c.nTimeAvgSubtr) = ts
        · rw [if_pos hj2, if_pos (by rw [hj2]; simp), horig j (by rw [hj2]; simp), hj2, hx, hg]
          cases s.resS[j]? <;> cases s.facsS[j]? <;> rfl
        · rw [if_neg hj2, if_neg]
          intro hb
          rcases List.mem_cons.mp hb with hb | hb
          · exact hj2 hb
          · exact hj hb

/-- The solutions and the output of the slots of one chunk. -/
theorem demix_spec (o : Ops B A R F FS G) (c : Cfg) (schedule : Nat → List (Nat × Nat)) (hsch : GoodSchedule c schedule)
    (s : State B A R F FS G) (hm : 0 < c.nTimeAvg / c.nTimeAvgSubtr) (xs : List (A × F)) (hA : s.resA = xs.map Prod.fst)
    (hF : ∀ (ts : Nat) (x : A × F), xs[ts]? = some x → s.facs[ts]? = some x.2) (hfs : s.resS.length ≤ s.facsS.length)
    (hu : s.timeIndex + xs.length ≤ s.unknowns.length) (hr : s.resS.length ≤ c.nTimeAvg / c.nTimeAvgSubtr * xs.length) :
    ∃ res, demix o c schedule s = some { s with
        unknowns := s.unknowns.take s.timeIndex ++ gains o c.propagate s.prev xs ++ s.unknowns.drop (s.timeIndex + xs.length),
        resS := res, prev := after o c.propagate s.prev xs } ∧ res.length = s.resS.length ∧
      ∀ j, res[j]? = (s.resS[j]?).bind (fun r => (s.facsS[j]?).bind fun f' => (xs[j / (c.nTimeAvg / c.nTimeAvgSubtr)]?).bind fun x =>
            ((gains o c.propagate s.prev xs)[j / (c.nTimeAvg / c.nTimeAvgSubtr)]?).map fun g => o.sub g x.1 f' r) := by
  have hlenA : s.resA.length = xs.length := by rw [hA, List.length_map]
  have hperm := hsch.1 xs.length
  have hmem : ∀ k, k ∈ (schedule xs.length).map Prod.fst ↔ k < xs.length := fun k => by rw [hperm.mem_iff, List.mem_range]
  obtain ⟨l', h1, h2, h3, h4, h5⟩ := slots_spec o c s hm xs
    (fun ts x hx => ⟨by rw [hA, List.getElem?_map, hx]; rfl, hF ts x hx⟩) hfs hu (gains o c.propagate s.prev xs) (gains_length ..)
    (schedule xs.length) ⟨fun _ => s.prev, s.unknowns, s.resS⟩ (hperm.nodup_iff.mpr List.nodup_range)
    (fun e he => (hmem e.1).mp (List.mem_map_of_mem he)) rfl rfl (fun _ _ => rfl)
    (by
      intro pre e post he st hst x hx
      rw [gains_get, hx, Option.map_some]
      cases hp : c.propagate with
      | false => simp [after_false]
      | true =>
        obtain ⟨t, ht⟩ := hsch.2 hp xs.length
        rw [ht] at he
        have hget : ∀ (k : Nat) (w : Nat × Nat), (pre ++ e :: post)[k]? = some w → w = (k, t) := by
          intro k w hw
          rw [← he, List.getElem?_map] at hw
          obtain ⟨v, hv, rfl⟩ := Option.map_eq_some_iff.mp hw
          rw [List.getElem?_eq_some_iff] at hv
          obtain ⟨hv1, hv2⟩ := hv
          rw [List.getElem_range] at hv2
          rw [hv2]
        have he1 := hget pre.length e (by simp)
        subst he1
        simp only [if_pos rfl]
        rw [hst t]
        congr 3
        rcases List.eq_nil_or_concat pre with rfl | ⟨q, w, rfl⟩
        · rfl
        · have hw := hget q.length w (by simp)
          subst hw
          rw [List.concat_eq_append, List.reverse_append]
          simp only [List.reverse_singleton, List.singleton_append, List.find?_cons, beq_self_eq_true, List.length_append, List.length_singleton]
          have hq : q.length < xs.length := by
            have := (List.getElem?_eq_some_iff.mp hx).1
            simp at this
            omega
          rw [hp, after_last o s.prev xs q.length hq]
          rfl)
  have hun : l'.unknowns = s.unknowns.take s.timeIndex ++ gains o c.propagate s.prev xs ++ s.unknowns.drop (s.timeIndex + xs.length) := by
    apply List.ext_getElem?
    intro i
    rw [h4, List.append_assoc]
    simp only [hmem]
    have htl : (s.unknowns.take s.timeIndex).length = s.timeIndex := by rw [List.length_take]; omega
    by_cases hi : i < s.timeIndex
    · rw [if_neg (by omega), List.getElem?_append_left (by omega), List.getElem?_take, if_pos hi]
    · rw [List.getElem?_append_right (by omega), htl]
      by_cases hi2 : i - s.timeIndex < xs.length
      · rw [if_pos ⟨by omega, hi2⟩, List.getElem?_append_left (by rw [gains_length]; exact hi2)]
      · rw [if_neg (by omega), List.getElem?_append_right (by rw [gains_length]; omega), gains_length, List.getElem?_drop]
        congr 1
        omega
  refine ⟨l'.resS, ?_, h2, fun j => ?_⟩
  · unfold demix
    rw [hlenA, h1]
    simp only
    rw [hun]
    by_cases hc : c.propagate = true ∧ xs.length > 0
    · rw [if_pos hc]
      have htl : (s.unknowns.take s.timeIndex).length = s.timeIndex := by rw [List.length_take]; omega
      have : (s.unknowns.take s.timeIndex ++ gains o c.propagate s.prev xs ++ s.unknowns.drop (s.timeIndex + xs.length))[s.timeIndex + xs.length - 1]?
          = some (after o c.propagate s.prev xs) := by
        rw [List.append_assoc, List.getElem?_append_right (by omega), htl, List.getElem?_append_left (by rw [gains_length]; omega), hc.1,
          after_last o s.prev xs _ (by omega)]
        have e : s.timeIndex + xs.length - 1 - s.timeIndex + 1 = xs.length := by omega
        rw [e, List.take_length]
      rw [this]
    · rw [if_neg hc]
      have : after o c.propagate s.prev xs = s.prev := by
        cases hp : c.propagate with
        | false => exact after_false o s.prev xs
        | true =>
          have : xs = [] := by
            apply List.length_eq_zero_iff.mp
            rw [hp] at hc
            simp at hc
            exact List.length_eq_zero_iff.mpr hc
          rw [this]
          rfl
      rw [this]
  · rw [h5]
    simp only [hmem]
    by_cases hj : j < s.resS.length
    · rw [if_pos]
      rw [Nat.div_lt_iff_lt_mul hm, Nat.mul_comm]
      omega
    · have : s.resS[j]? = none := List.getElem?_eq_none (by omega)
      rw [this]
      simp

/-! ## Within a chunk -/

/-- The times since the last chunk are in the groups and in the pending groups. -/
structure Mid (o : Ops B A R F FS G) (c : Cfg) (since : List B) (s : State B A R F FS G) : Prop where
  nIn : s.nIn = since.length
  nOut : s.nOut = since.length / c.nTimeAvg
  nOutS : s.nOutS = since.length / c.nTimeAvgSubtr
  pendA : s.pendA = rest c.nTimeAvg since
  bufF : s.bufF = rest c.nTimeAvg since
  pendS : s.pendS = rest c.nTimeAvgSubtr since
  bufFS : s.bufFS = rest c.nTimeAvgSubtr since
  resA : s.resA = (full c.nTimeAvg since).map fun g => (o.fac g (o.avg g)).1
  facs : s.facs.take s.nOut = (full c.nTimeAvg since).map fun g => (o.fac g (o.avg g)).2
  resS : s.resS = (full c.nTimeAvgSubtr since).map o.avgS
  facsS : s.facsS.take s.nOutS = (full c.nTimeAvgSubtr since).map fun g => o.facS g (o.avgS g)

theorem average_spec {X : Type} {n : Nat} (hn : 0 < n) (capacity : Nat) (avg : List B → X) (l : List B) (res : List X) (b : B)
    (hres : res.length = l.length / n) (hcap : (l.length + 1) % n = 0 → l.length / n < capacity) :
    average n capacity avg (rest n l) res b =
      some (rest n (l ++ [b]), if (l.length + 1) % n = 0 then res ++ [avg (rest n l ++ [b])] else res) := by
  have hr := rest_length n l
  have hlt := Nat.mod_lt l.length hn
  have hiff : (rest n l).length + 1 ≥ n ↔ (l.length + 1) % n = 0 := by
    rw [hr]
    have := Nat.add_mod l.length 1 n
    constructor
    · intro h
      have : l.length % n + 1 = n := by omega
      have hdm := Nat.div_add_mod l.length n
      have : l.length + 1 = n * (l.length / n + 1) := by rw [Nat.mul_add]; omega
      rw [this, Nat.mul_mod_right]
    · intro h
      obtain ⟨k, hk⟩ := Nat.dvd_of_mod_eq_zero h
      by_contra hcon
      have : (l.length + 1) % n = l.length % n + 1 := by
        have hdm := Nat.div_add_mod l.length n
        have e : l.length + 1 = n * (l.length / n) + (l.length % n + 1) := by omega
        rw [e, Nat.mul_add_mod, Nat.mod_eq_of_lt (by omega)]
      omega
  unfold average
  by_cases h : (l.length + 1) % n = 0
  · rw [if_pos (hiff.mpr h), if_pos h, (snoc_full hn l b h).2]
    unfold store
    rw [if_pos (by rw [hres]; exact hcap h)]
  · rw [if_neg (fun hh => h (hiff.mp hh)), if_neg h, (snoc_rest l b h).2]

theorem averageFinish_spec {X : Type} {n : Nat} (capacity : Nat) (avg : List B → X) (l : List B) (res : List X)
    (hres : res.length = l.length / n) (hcap : rest n l ≠ [] → l.length / n < capacity) :
    averageFinish capacity avg (rest n l) res = some (res ++ if rest n l = [] then [] else [avg (rest n l)]) := by
  unfold averageFinish
  by_cases h : rest n l = []
  · rw [if_pos h, if_pos h, List.append_nil]
  · rw [if_neg h, if_neg h]
    unfold store
    rw [if_pos (by rw [hres]; exact hcap h)]

theorem solvePart_spec (o : Ops B A R F FS G) (c : Cfg) (s : State B A R F FS G) (base : List A) (gr : List B)
    (h1 : s.resA = base ++ [o.avg gr]) (h2 : s.nOut = base.length) (h3 : base.length < c.nTimeChunk) (h4 : s.bufF = gr) :
    solvePart o c s = some { s with resA := base ++ [(o.fac gr (o.avg gr)).1], facs := s.facs.take s.nOut ++ [(o.fac gr (o.avg gr)).2], bufF := [], nOut := s.nOut + 1 } := by
  unfold solvePart
  have : s.resA[s.nOut]? = some (o.avg gr) := by rw [h1, h2]; simp
  rw [this]
  simp only
  rw [if_pos (by omega), h4, h1]
  congr 2
  rw [h2]
  simp

theorem subtractPart_spec (o : Ops B A R F FS G) (c : Cfg) (s : State B A R F FS G) (base : List R) (gr : List B)
    (h1 : s.resS = base ++ [o.avgS gr]) (h2 : s.nOutS = base.length) (h3 : base.length < c.nTimeChunkSubtr) (h4 : s.bufFS = gr) :
    subtractPart o c s = some { s with facsS := s.facsS.take s.nOutS ++ [o.facS gr (o.avgS gr)], bufFS := [], nOutS := s.nOutS + 1 } := by
  unfold subtractPart
  have : s.resS[s.nOutS]? = some (o.avgS gr) := by rw [h1, h2]; simp
  rw [this]
  simp only
  rw [if_pos (by omega), h4]

theorem take_snoc {X : Type} (l t : List X) (n : Nat) (x : X) (h : l.take n = t) (hn : n = t.length) : (l.take n ++ [x]).take (n + 1) = t ++ [x] := by
  rw [h, List.take_of_length_le]
  rw [List.length_append, List.length_singleton, hn]

/-- The parts of the state that stay the same within a chunk. -/
def Same (s t : State B A R F FS G) : Prop := t.timeIndex = s.timeIndex ∧ t.unknowns = s.unknowns ∧ t.prev = s.prev ∧ t.out = s.out

theorem succ_div_of_mod {n l : Nat} (h : (l + 1) % n = 0) : (l + 1) / n = l / n + 1 := by
  have := Nat.succ_div (a := l) (b := n)
  rw [this, if_pos (Nat.dvd_of_mod_eq_zero h)]

theorem succ_div_of_not_mod {n l : Nat} (h : (l + 1) % n ≠ 0) : (l + 1) / n = l / n := by
  have := Nat.succ_div (a := l) (b := n)
  rw [this, if_neg (fun hd => h (Nat.mod_eq_zero_of_dvd hd))]
  rfl

/-- `process` without the end of a chunk. -/
def prepare (o : Ops B A R F FS G) (c : Cfg) (s : State B A R F FS G) (b : B) : Option (State B A R F FS G) :=
  match receive o c s b with
  | none => none
  | some s =>
    match (if s.nIn % c.nTimeAvg = 0 then solvePart o c s else some s) with
    | none => none
    | some s => if s.nIn % c.nTimeAvgSubtr = 0 then subtractPart o c s else some s

theorem process_eq (o : Ops B A R F FS G) (c : Cfg) (schedule : Nat → List (Nat × Nat)) (s : State B A R F FS G) (b : B) :
    process o c schedule s b =
      match prepare o c s b with
      | none => none
      | some s => if s.nOut ≥ c.nTimeChunk then handleDemix o c schedule s else some s := by
  unfold process prepare
  cases receive o c s b with
  | none => rfl
  | some s =>
    dsimp only
    cases (if s.nIn % c.nTimeAvg = 0 then solvePart o c s else some s) with
    | none => rfl
    | some s => rfl

/-- A time that is received. -/
theorem prepare_mid (o : Ops B A R F FS G) (c : Cfg) (since : List B) (s : State B A R F FS G) (b : B)
    (ha : 0 < c.nTimeAvg) (hb : 0 < c.nTimeAvgSubtr) (h : Mid o c since s) (hcap : since.length / c.nTimeAvg < c.nTimeChunk)
    (hcapS : (since.length + 1) % c.nTimeAvgSubtr = 0 → since.length / c.nTimeAvgSubtr < c.nTimeChunkSubtr) :
    ∃ t, Mid o c (since ++ [b]) t ∧ Same s t ∧ prepare o c s b = some t := by
  have hlenA : s.resA.length = since.length / c.nTimeAvg := by rw [h.resA, List.length_map, full_length]
  have hlenS : s.resS.length = since.length / c.nTimeAvgSubtr := by rw [h.resS, List.length_map, full_length]
  have r1 := average_spec ha c.nTimeChunk o.avg since s.resA b hlenA (fun _ => hcap)
  have r2 := average_spec hb c.nTimeChunkSubtr o.avgS since s.resS b hlenS hcapS
  unfold prepare receive
  rw [h.pendA, h.pendS, r1, r2]
  simp only [h.nIn]
  have hl : (since ++ [b]).length = since.length + 1 := by simp
  by_cases qa : (since.length + 1) % c.nTimeAvg = 0
  · obtain ⟨fa, ra⟩ := snoc_full ha since b qa
    have ka := succ_div_of_mod qa
    simp only [if_pos qa]
    rw [solvePart_spec o c _ s.resA (rest c.nTimeAvg since ++ [b]) rfl (by simp only; rw [h.nOut, hlenA]) (by rw [hlenA]; exact hcap)
      (by simp only; rw [h.bufF])]
    simp only
    have hta := take_snoc s.facs _ s.nOut (o.fac (rest c.nTimeAvg since ++ [b]) (o.avg (rest c.nTimeAvg since ++ [b]))).2 h.facs
      (by rw [List.length_map, full_length, h.nOut])
    by_cases qb : (since.length + 1) % c.nTimeAvgSubtr = 0
    · obtain ⟨fb, rb⟩ := snoc_full hb since b qb
      have kb := succ_div_of_mod qb
      simp only [if_pos qb]
      rw [subtractPart_spec o c _ s.resS (rest c.nTimeAvgSubtr since ++ [b]) rfl (by simp only; rw [h.nOutS, hlenS])
        (by rw [hlenS]; exact hcapS qb) (by simp only; rw [h.bufFS])]
      simp only
      have htb := take_snoc s.facsS _ s.nOutS (o.facS (rest c.nTimeAvgSubtr since ++ [b]) (o.avgS (rest c.nTimeAvgSubtr since ++ [b]))) h.facsS
        (by rw [List.length_map, full_length, h.nOutS])
      refine ⟨_, ?_, ?_, rfl⟩
      · refine ⟨?_, ?_, ?_, ?_, ?_, ?_, ?_, ?_, ?_, ?_, ?_⟩ <;> simp only [hl, ka, kb, fa, fb, ra, rb, h.nOut, h.nOutS, List.map_append, h.resA, h.resS]
        · rfl
        · rw [← h.nOut, hta]; rfl
        · rfl
        · rw [← h.nOutS, htb]; rfl
      · exact ⟨rfl, rfl, rfl, rfl⟩
    · obtain ⟨fb, rb⟩ := snoc_rest since b qb
      have kb := succ_div_of_not_mod qb
      simp only [if_neg qb]
      refine ⟨_, ?_, ?_, rfl⟩
      · refine ⟨?_, ?_, ?_, ?_, ?_, ?_, ?_, ?_, ?_, ?_, ?_⟩ <;>
          simp only [hl, ka, kb, fa, fb, ra, rb, h.nOut, h.nOutS, List.map_append, h.resA, h.resS, h.bufFS]
        · rfl
        · rw [← h.nOut, hta]; rfl
        · rw [← h.nOutS]; exact h.facsS
      · exact ⟨rfl, rfl, rfl, rfl⟩
  · obtain ⟨fa, ra⟩ := snoc_rest since b qa
    have ka := succ_div_of_not_mod qa
    simp only [if_neg qa]
    by_cases qb : (since.length + 1) % c.nTimeAvgSubtr = 0
    · obtain ⟨fb, rb⟩ := snoc_full hb since b qb
      have kb := succ_div_of_mod qb
      simp only [if_pos qb]
      rw [subtractPart_spec o c _ s.resS (rest c.nTimeAvgSubtr since ++ [b]) rfl (by simp only; rw [h.nOutS, hlenS])
        (by rw [hlenS]; exact hcapS qb) (by simp only; rw [h.bufFS])]
      simp only
      have htb := take_snoc s.facsS _ s.nOutS (o.facS (rest c.nTimeAvgSubtr since ++ [b]) (o.avgS (rest c.nTimeAvgSubtr since ++ [b]))) h.facsS
        (by rw [List.length_map, full_length, h.nOutS])
      refine ⟨_, ?_, ?_, rfl⟩
      · refine ⟨?_, ?_, ?_, ?_, ?_, ?_, ?_, ?_, ?_, ?_, ?_⟩ <;>
          simp only [hl, ka, kb, fa, fb, ra, rb, h.nOut, h.nOutS, List.map_append, h.resA, h.resS, h.bufF]
        · rw [← h.nOut]; exact h.facs
        · rfl
        · rw [← h.nOutS, htb]; rfl
      · exact ⟨rfl, rfl, rfl, rfl⟩
    · obtain ⟨fb, rb⟩ := snoc_rest since b qb
      have kb := succ_div_of_not_mod qb
      simp only [if_neg qb]
      refine ⟨_, ?_, ?_, rfl⟩
      · refine ⟨?_, ?_, ?_, ?_, ?_, ?_, ?_, ?_, ?_, ?_, ?_⟩ <;>
          simp only [hl, ka, kb, fa, fb, ra, rb, h.nOut, h.nOutS, List.map_append, h.resA, h.resS, h.bufF, h.bufFS]
        · rw [← h.nOut]; exact h.facs
        · rw [← h.nOutS]; exact h.facsS
      · exact ⟨rfl, rfl, rfl, rfl⟩

/-! ## The end of a chunk -/

/-- All times since the last chunk are in groups. -/
structure Complete (o : Ops B A R F FS G) (c : Cfg) (since : List B) (s : State B A R F FS G) : Prop where
  nOutS : s.nOutS = (groups c.nTimeAvgSubtr since).length
  resA : s.resA = (solverInput o c.nTimeAvg since).map Prod.fst
  facs : s.facs.take s.nOut = (solverInput o c.nTimeAvg since).map Prod.snd
  resS : s.resS = (groups c.nTimeAvgSubtr since).map o.avgS
  facsS : s.facsS.take s.nOutS = (groups c.nTimeAvgSubtr since).map fun g => o.facS g (o.avgS g)
  pendA : s.pendA = []
  bufF : s.bufF = []
  pendS : s.pendS = []
  bufFS : s.bufFS = []

theorem mid_complete (o : Ops B A R F FS G) (c : Cfg) (since : List B) (s : State B A R F FS G) (h : Mid o c since s)
    (hra : rest c.nTimeAvg since = []) (hrb : rest c.nTimeAvgSubtr since = []) : Complete o c since s := by
  have ga : groups c.nTimeAvg since = full c.nTimeAvg since := by unfold groups; rw [if_pos hra, List.append_nil]
  have gb : groups c.nTimeAvgSubtr since = full c.nTimeAvgSubtr since := by unfold groups; rw [if_pos hrb, List.append_nil]
  refine ⟨?_, ?_, ?_, ?_, ?_, ?_, ?_, ?_, ?_⟩ <;> try simp only [solverInput, ga, gb, List.map_map]
  · rw [full_length]; exact h.nOutS
  · exact h.resA
  · exact h.facs
  · exact h.resS
  · exact h.facsS
  · rw [h.pendA, hra]
  · rw [h.bufF, hra]
  · rw [h.pendS, hrb]
  · rw [h.bufFS, hrb]

/-- `finish` before the last chunk is demixed. -/
theorem finish_complete (o : Ops B A R F FS G) (c : Cfg) (schedule : Nat → List (Nat × Nat)) (since : List B) (s : State B A R F FS G)
    (h : Mid o c since s) (hne : since ≠ []) (hcap : rest c.nTimeAvg since ≠ [] → since.length / c.nTimeAvg < c.nTimeChunk)
    (hcapS : rest c.nTimeAvgSubtr since ≠ [] → since.length / c.nTimeAvgSubtr < c.nTimeChunkSubtr) :
    ∃ t, Complete o c since t ∧ Same s t ∧ finish o c schedule s = handleDemix o c schedule t := by
  have hlenA : s.resA.length = since.length / c.nTimeAvg := by rw [h.resA, List.length_map, full_length]
  have hlenS : s.resS.length = since.length / c.nTimeAvgSubtr := by rw [h.resS, List.length_map, full_length]
  have r1 := averageFinish_spec (n := c.nTimeAvg) c.nTimeChunk o.avg since s.resA hlenA hcap
  have r2 := averageFinish_spec (n := c.nTimeAvgSubtr) c.nTimeChunkSubtr o.avgS since s.resS hlenS hcapS
  have hmodA : since.length % c.nTimeAvg = 0 ↔ rest c.nTimeAvg since = [] := by
    rw [← rest_length, List.length_eq_zero_iff]
  have hmodS : since.length % c.nTimeAvgSubtr = 0 ↔ rest c.nTimeAvgSubtr since = [] := by
    rw [← rest_length, List.length_eq_zero_iff]
  unfold finish
  rw [if_pos (by rw [h.nIn]; exact List.length_pos_of_ne_nil hne), h.pendA, h.pendS, r1, r2]
  simp only [h.nIn, ne_eq, hmodA, hmodS]
  by_cases qa : rest c.nTimeAvg since = []
  · have ga : groups c.nTimeAvg since = full c.nTimeAvg since := by unfold groups; rw [if_pos qa, List.append_nil]
    simp only [qa, ne_eq, not_true_eq_false, if_false, if_true, List.append_nil]
    by_cases qb : rest c.nTimeAvgSubtr since = []
    · have gb : groups c.nTimeAvgSubtr since = full c.nTimeAvgSubtr since := by unfold groups; rw [if_pos qb, List.append_nil]
      simp only [h.nIn, hmodS, qb, ne_eq, not_true_eq_false, if_false, if_true, List.append_nil]
      refine ⟨_, ?_, ?_, rfl⟩
      · refine ⟨?_, ?_, ?_, ?_, ?_, ?_, ?_, ?_, ?_⟩ <;> simp only [solverInput, ga, gb, List.map_map, full_length]
        · exact h.nOutS
        · exact h.resA
        · exact h.facs
        · exact h.resS
        · exact h.facsS
        · rw [h.bufF, qa]
        · rw [h.bufFS, qb]
      · exact ⟨rfl, rfl, rfl, rfl⟩
    · have gb : groups c.nTimeAvgSubtr since = full c.nTimeAvgSubtr since ++ [rest c.nTimeAvgSubtr since] := by unfold groups; rw [if_neg qb]
      simp only [h.nIn, hmodS, qb, ne_eq, not_false_eq_true, if_true, if_false]
      rw [subtractPart_spec o c _ s.resS (rest c.nTimeAvgSubtr since) rfl (by simp only; rw [h.nOutS, hlenS]) (by rw [hlenS]; exact hcapS qb)
        (by exact h.bufFS)]
      simp only
      have htb := take_snoc s.facsS _ s.nOutS (o.facS (rest c.nTimeAvgSubtr since) (o.avgS (rest c.nTimeAvgSubtr since))) h.facsS
        (by rw [List.length_map, full_length, h.nOutS])
      refine ⟨_, ?_, ?_, rfl⟩
      · refine ⟨?_, ?_, ?_, ?_, ?_, ?_, ?_, ?_, ?_⟩ <;>
          simp only [solverInput, ga, gb, List.map_map, List.map_append, List.length_append, full_length, List.length_singleton]
        · rw [h.nOutS]
        · exact h.resA
        · exact h.facs
        · rw [h.resS]; rfl
        · rw [htb]; rfl
        · rw [h.bufF, qa]
      · exact ⟨rfl, rfl, rfl, rfl⟩
  · have ga : groups c.nTimeAvg since = full c.nTimeAvg since ++ [rest c.nTimeAvg since] := by unfold groups; rw [if_neg qa]
    simp only [qa, ne_eq, not_false_eq_true, if_true, if_false]
    rw [solvePart_spec o c _ s.resA (rest c.nTimeAvg since) rfl (by simp only; rw [h.nOut, hlenA]) (by rw [hlenA]; exact hcap qa)
      (by exact h.bufF)]
    simp only
    have hta := take_snoc s.facs _ s.nOut (o.fac (rest c.nTimeAvg since) (o.avg (rest c.nTimeAvg since))).2 h.facs
      (by rw [List.length_map, full_length, h.nOut])
    by_cases qb : rest c.nTimeAvgSubtr since = []
    · have gb : groups c.nTimeAvgSubtr since = full c.nTimeAvgSubtr since := by unfold groups; rw [if_pos qb, List.append_nil]
      simp only [h.nIn, hmodS, qb, ne_eq, not_true_eq_false, if_false, if_true, List.append_nil]
      refine ⟨_, ?_, ?_, rfl⟩
      · refine ⟨?_, ?_, ?_, ?_, ?_, ?_, ?_, ?_, ?_⟩ <;> simp only [solverInput, ga, gb, List.map_map, List.map_append, full_length]
        · exact h.nOutS
        · rw [h.resA]; rfl
        · rw [hta]; rfl
        · exact h.resS
        · exact h.facsS
        · rw [h.bufFS, qb]
      · exact ⟨rfl, rfl, rfl, rfl⟩
    · have gb : groups c.nTimeAvgSubtr since = full c.nTimeAvgSubtr since ++ [rest c.nTimeAvgSubtr since] := by unfold groups; rw [if_neg qb]
      simp only [h.nIn, hmodS, qb, ne_eq, not_false_eq_true, if_true, if_false]
      rw [subtractPart_spec o c _ s.resS (rest c.nTimeAvgSubtr since) rfl (by simp only; rw [h.nOutS, hlenS]) (by rw [hlenS]; exact hcapS qb)
        (by exact h.bufFS)]
      simp only
      have htb := take_snoc s.facsS _ s.nOutS (o.facS (rest c.nTimeAvgSubtr since) (o.avgS (rest c.nTimeAvgSubtr since))) h.facsS
        (by rw [List.length_map, full_length, h.nOutS])
      refine ⟨_, ?_, ?_, rfl⟩
      · refine ⟨?_, ?_, ?_, ?_, ?_, ?_, ?_, ?_, ?_⟩ <;>
          simp only [solverInput, ga, gb, List.map_map, List.map_append, List.length_append, full_length, List.length_singleton]
        · rw [h.nOutS]
        · rw [h.resA]; rfl
        · rw [hta]; rfl
        · rw [h.resS]; rfl
        · rw [htb]; rfl
      · exact ⟨rfl, rfl, rfl, rfl⟩

theorem bind_some_get {X Y : Type} (l : List X) (f : X → Option Y) (i : Nat) (x : X) (h : l[i]? = some x) : (l[i]?).bind f = f x := by rw [h]; rfl

theorem solverInput_length (o : Ops B A R F FS G) (n : Nat) (l : List B) : (solverInput o n l).length = (groups n l).length := by
  unfold solverInput
  rw [List.length_map]

/-- The number of groups for the output is at most `multiplier` times the number of slots. -/
theorem groups_le {a b : Nat} (ha : 0 < a) (hb : 0 < b) (hd : b ∣ a) (l : List B) : (groups b l).length ≤ a / b * (groups a l).length := by
  rw [groups_length ha, groups_length hb]
  obtain ⟨m, rfl⟩ := hd
  rw [Nat.mul_div_cancel_left m hb]
  have hm : 0 < m := Nat.pos_of_mul_pos_left ha
  have h1 : l.length ≤ b * m * ((l.length + b * m - 1) / (b * m)) := by
    have := Nat.div_add_mod (l.length + b * m - 1) (b * m)
    have h2 := Nat.mod_lt (l.length + b * m - 1) ha
    omega
  rw [Nat.mul_assoc] at h1
  rw [Nat.div_le_iff_le_mul_add_pred hb]
  omega

/-- A chunk is demixed. -/
theorem handle_spec (o : Ops B A R F FS G) (c : Cfg) (schedule : Nat → List (Nat × Nat)) (hsch : GoodSchedule c schedule) (since : List B)
    (s : State B A R F FS G) (ha : 0 < c.nTimeAvg) (hb : 0 < c.nTimeAvgSubtr) (hd : c.nTimeAvgSubtr ∣ c.nTimeAvg) (h : Complete o c since s)
    (hu : s.timeIndex + (groups c.nTimeAvg since).length ≤ s.unknowns.length) :
    ∃ t, handleDemix o c schedule s = some t ∧ Mid o c [] t ∧ t.timeIndex = s.timeIndex + c.nTimeChunk ∧
      t.prev = (if c.hasModel then after o c.propagate s.prev (solverInput o c.nTimeAvg since) else s.prev) ∧
      t.unknowns = (if c.hasModel then s.unknowns.take s.timeIndex ++ gains o c.propagate s.prev (solverInput o c.nTimeAvg since) ++
        s.unknowns.drop (s.timeIndex + (groups c.nTimeAvg since).length) else s.unknowns) ∧
      t.out = s.out ++ (if c.hasModel then outputs o (c.nTimeAvg / c.nTimeAvgSubtr) (solverInput o c.nTimeAvg since)
          (gains o c.propagate s.prev (solverInput o c.nTimeAvg since)) (groups c.nTimeAvgSubtr since)
        else (groups c.nTimeAvgSubtr since).map o.avgS) := by
  have hm : 0 < c.nTimeAvg / c.nTimeAvgSubtr := Nat.div_pos (Nat.le_of_dvd ha hd) hb
  have hfsl : s.resS.length ≤ s.facsS.length := by
    have e := congrArg List.length h.facsS
    rw [List.length_take, List.length_map] at e
    rw [h.resS, List.length_map]
    omega
  have hF : ∀ (ts : Nat) (x : A × F), (solverInput o c.nTimeAvg since)[ts]? = some x → s.facs[ts]? = some x.2 := by
    intro ts x hx
    have e := congrArg (fun l : List F => l[ts]?) h.facs
    simp only [List.getElem?_take, List.getElem?_map, hx, Option.map_some] at e
    by_cases hts : ts < s.nOut
    · rwa [if_pos hts] at e
    · rw [if_neg hts] at e
      cases e
  have midOf : ∀ u : State B A R F FS G, u.pendA = [] → u.bufF = [] → u.pendS = [] → u.bufFS = [] → u.nIn = 0 → u.nOut = 0 → u.nOutS = 0 →
      u.resA = [] → u.resS = [] → Mid o c [] u := by
    intro u h1 h2 h3 h4 h5 h6 h7 h8 h9
    refine ⟨?_, ?_, ?_, ?_, ?_, ?_, ?_, ?_, ?_, ?_, ?_⟩ <;> simp [h1, h2, h3, h4, h5, h6, h7, h8, h9, full, rest]
  cases hmod : c.hasModel with
  | false =>
    unfold handleDemix
    rw [hmod]
    simp only [Bool.false_eq_true, if_false]
    rw [if_pos (by rw [h.nOutS, h.resS, List.length_map])]
    refine ⟨_, rfl, midOf _ h.pendA h.bufF h.pendS h.bufFS rfl rfl rfl rfl rfl, rfl, rfl, rfl, ?_⟩
    simp only
    rw [h.resS, h.nOutS, List.take_of_length_le (by rw [List.length_map])]
  | true =>
    obtain ⟨res, h1, h2, h3⟩ := demix_spec o c schedule hsch s hm (solverInput o c.nTimeAvg since) h.resA hF hfsl
      (by rw [solverInput_length]; exact hu)
      (by rw [h.resS, List.length_map, solverInput_length]; exact groups_le ha hb hd since)
    unfold handleDemix
    rw [hmod]
    simp only [if_true]
    rw [h1]
    simp only
    have hrl : s.nOutS = res.length := by rw [h2, h.nOutS, h.resS, List.length_map]
    rw [if_pos (by omega)]
    refine ⟨_, rfl, midOf _ h.pendA h.bufF h.pendS h.bufFS rfl rfl rfl rfl rfl, rfl, rfl, ?_, ?_⟩
    · simp only
      rw [solverInput_length]
    · simp only
      congr 1
      rw [hrl, List.take_length]
      apply List.ext_getElem?
      intro j
      rw [h3]
      unfold outputs
      rw [List.getElem?_map, List.getElem?_zipIdx, h.resS, List.getElem?_map, Option.map_map]
      by_cases hj : j < (groups c.nTimeAvgSubtr since).length
      · have hg := List.getElem?_eq_getElem hj
        generalize hgr : (groups c.nTimeAvgSubtr since)[j] = gr at hg
        have hfs : s.facsS[j]? = some (o.facS gr (o.avgS gr)) := by
          have e := congrArg (fun l : List FS => l[j]?) h.facsS
          simp only [List.getElem?_take, List.getElem?_map, hg, Option.map_some] at e
          rwa [if_pos (by rw [h.nOutS]; exact hj)] at e
        have hjm : j / (c.nTimeAvg / c.nTimeAvgSubtr) < (solverInput o c.nTimeAvg since).length := by
          rw [Nat.div_lt_iff_lt_mul hm, Nat.mul_comm, solverInput_length]
          exact Nat.lt_of_lt_of_le hj (groups_le ha hb hd since)
        have hx := List.getElem?_eq_getElem hjm
        have hgs := List.getElem?_eq_getElem (l := gains o c.propagate s.prev (solverInput o c.nTimeAvg since))
          (i := j / (c.nTimeAvg / c.nTimeAvgSubtr)) (by rw [gains_length]; exact hjm)
        rw [hg, hfs, hx, hgs]
        simp only [Option.map_some, Option.bind_some, Function.comp_apply, Nat.zero_add]
        rw [hx, hgs]
      · rw [List.getElem?_eq_none (Nat.le_of_not_lt hj)]
        rfl

/-! ## All chunks -/

/-- The times before this chunk are done. -/
structure Between (o : Ops B A R F FS G) (c : Cfg) (defaultGain unset : G) (pre : List B) (s : State B A R F FS G) : Prop where
  timeIndex : s.timeIndex = pre.length / c.nTimeAvg
  whole : c.nTimeChunk * c.nTimeAvg ∣ pre.length
  results : (s.out, s.unknowns) = expected o c defaultGain unset pre
  prev : c.hasModel = true → s.prev = after o c.propagate defaultGain (solverInput o c.nTimeAvg pre)

/-- The results for the times of one more chunk. -/
theorem expected_append (o : Ops B A R F FS G) (c : Cfg) (defaultGain unset : G) (pre since : List B) (ha : 0 < c.nTimeAvg) (hb : 0 < c.nTimeAvgSubtr)
    (hd : c.nTimeAvgSubtr ∣ c.nTimeAvg) (hp : c.nTimeAvg ∣ pre.length) (hle : (groups c.nTimeAvg (pre ++ since)).length ≤ c.nTimeDemix) :
    expected o c defaultGain unset (pre ++ since) =
      ((expected o c defaultGain unset pre).1 ++ (if c.hasModel then outputs o (c.nTimeAvg / c.nTimeAvgSubtr) (solverInput o c.nTimeAvg since)
          (gains o c.propagate (after o c.propagate defaultGain (solverInput o c.nTimeAvg pre)) (solverInput o c.nTimeAvg since))
            (groups c.nTimeAvgSubtr since) else (groups c.nTimeAvgSubtr since).map o.avgS),
        if c.hasModel then (expected o c defaultGain unset pre).2.take (pre.length / c.nTimeAvg) ++
            gains o c.propagate (after o c.propagate defaultGain (solverInput o c.nTimeAvg pre)) (solverInput o c.nTimeAvg since) ++
            (expected o c defaultGain unset pre).2.drop (pre.length / c.nTimeAvg + (groups c.nTimeAvg since).length)
          else (expected o c defaultGain unset pre).2) := by
  have hm : 0 < c.nTimeAvg / c.nTimeAvgSubtr := Nat.div_pos (Nat.le_of_dvd ha hd) hb
  have ga := groups_append ha pre since hp
  have gb := groups_append hb pre since (hd.trans hp)
  have la : (groups c.nTimeAvg pre).length = pre.length / c.nTimeAvg := by
    unfold groups
    rw [(append_groups ha pre since hp).2.2, if_pos rfl, List.append_nil, full_length]
  have lb : (groups c.nTimeAvgSubtr pre).length = pre.length / c.nTimeAvgSubtr := by
    unfold groups
    rw [(append_groups hb pre since (hd.trans hp)).2.2, if_pos rfl, List.append_nil, full_length]
  have hs : solverInput o c.nTimeAvg (pre ++ since) = solverInput o c.nTimeAvg pre ++ solverInput o c.nTimeAvg since := by
    unfold solverInput
    rw [ga, List.map_append]
  unfold expected
  cases hmod : c.hasModel with
  | false =>
    simp only [Bool.false_eq_true, if_false]
    rw [gb, List.map_append]
  | true =>
    simp only [if_true]
    rw [hs, gains_append, gb, outputs_append o hm _ _ _ _ _ _ (by rw [gains_length])]
    · congr 1
      have e1 : (gains o c.propagate defaultGain (solverInput o c.nTimeAvg pre)).length = pre.length / c.nTimeAvg := by
        rw [gains_length, solverInput_length, la]
      rw [ga, List.length_append] at hle
      rw [List.take_append_of_le_length (by omega), ← e1, List.take_length, List.drop_append, List.drop_of_length_le (by omega), List.nil_append,
        List.drop_replicate]
      congr 2
      rw [List.length_append, gains_length, gains_length, solverInput_length, solverInput_length]
      omega
    · rw [lb, solverInput_length, la]
      obtain ⟨m, hm2⟩ := hd
      obtain ⟨k, hk⟩ := hp
      rw [hk, Nat.mul_div_cancel_left k ha, hm2, Nat.mul_div_cancel_left m hb, Nat.mul_assoc, Nat.mul_div_cancel_left _ hb]

end DP3.DemixTimes
