import Verif.BdaDdeCal.Model
import Mathlib.Data.List.TakeWhile

/-!
# The queue of input buffers of BdaDdeCal

Every model goes to the buffer for which it was made, whatever the delays of the sub-steps.
-/

namespace DP3.BdaDdeCal

set_option linter.unusedSimpArgs false
set_option linter.unusedSectionVars false

open DP3.BdaSolverBuffer (Row)

variable {F K : Type} [Field K]

/-- A buffer with other extra data. -/
def withExtra (b : Buf F K) (x : String → Option (Nat → Vis K)) : Buf F K :=
  ⟨b.rows, b.data, b.flags, b.weights, x⟩

/-- An input buffer after the UVW flagger with the models of the directions that have reached it, if
sub-step `d` has put out `m d` results. -/
def loaded (e : Env F K) (m : Nat → Nat) (j : Nat) (b : Buf F K) : Buf F K :=
  withExtra (uvwStep e b) fun name =>
    if e.steps.idxOf name < e.steps.length ∧ j < m (e.steps.idxOf name) then
      some (e.predict (e.steps.idxOf name) j b.rows)
    else b.extra name

/-- An input buffer after the UVW flagger with the models of all directions. -/
def fullBuf (e : Env F K) (j : Nat) (b : Buf F K) : Buf F K :=
  withExtra (uvwStep e b) fun name =>
    if name ∈ e.steps then some (e.predict (e.steps.idxOf name) j b.rows) else b.extra name

/-- The queue if the first `p` buffers have left it. -/
def queueOf (e : Env F K) (m : Nat → Nat) (p : Nat) (input : List (Buf F K)) : List (Buf F K) :=
  (input.zipIdx.drop p).map fun x => loaded e m x.2 x.1

theorem queueOf_length (e : Env F K) (m : Nat → Nat) (p : Nat) (input : List (Buf F K)) :
    (queueOf e m p input).length = input.length - p := by
  simp [queueOf]

theorem queueOf_get (e : Env F K) (m : Nat → Nat) (p : Nat) (input : List (Buf F K)) (k : Nat) :
    (queueOf e m p input)[k]? = (input[p + k]?).map (loaded e m (p + k)) := by
  unfold queueOf
  rw [List.getElem?_map, List.getElem?_drop, List.getElem?_zipIdx]
  cases input[p + k]? <;> simp

theorem uvwStep_rows (e : Env F K) (b : Buf F K) : (uvwStep e b).rows = b.rows := by
  unfold uvwStep; split_ifs <;> rfl

theorem uvwStep_extra (e : Env F K) (b : Buf F K) : (uvwStep e b).extra = b.extra := by
  unfold uvwStep; split_ifs <;> rfl

theorem uvwStep_data (e : Env F K) (b : Buf F K) : (uvwStep e b).data = b.data := by
  unfold uvwStep; split_ifs <;> rfl

theorem uvwStep_weights (e : Env F K) (b : Buf F K) : (uvwStep e b).weights = b.weights := by
  unfold uvwStep; split_ifs <;> rfl

theorem loaded_full {e : Env F K} {m : Nat → Nat} {j : Nat} {b : Buf F K}
    (h : ∀ d, d < e.steps.length → j < m d) : loaded e m j b = fullBuf e j b := by
  unfold loaded fullBuf
  congr 1
  funext name
  by_cases hn : name ∈ e.steps
  · have := List.idxOf_lt_length_of_mem hn
    rw [if_pos ⟨this, h _ this⟩, if_pos hn]
  · rw [if_neg hn, if_neg]
    rintro ⟨h1, -⟩
    exact hn (List.idxOf_lt_length_iff.1 h1)

theorem loaded_new {e : Env F K} {m : Nat → Nat} {j : Nat} {b : Buf F K}
    (h : ∀ d, d < e.steps.length → m d ≤ j) : loaded e m j b = uvwStep e b := by
  have : (loaded e m j b).extra = (uvwStep e b).extra := by
    rw [uvwStep_extra]
    funext name
    unfold loaded withExtra
    simp only
    rw [if_neg]
    rintro ⟨h1, h2⟩
    have := h _ h1
    omega
  have h2 : loaded e m j b = withExtra (uvwStep e b) (loaded e m j b).extra := rfl
  rw [h2, this]
  rfl

theorem modify_get {A : Type} (l : List A) (i k : Nat) (f : A → A) :
    (l.modify i f)[k]? = (l[k]?).map fun x => if i = k then f x else x := by
  rw [List.getElem?_modify]
  cases l[k]? <;> simp

/-- The results go to subsequent slots. -/
theorem placeResults_spec (name : String) (results : List (Nat → Vis K)) (i : Nat)
    (queue : List (Buf F K)) (h : i + results.length ≤ queue.length) :
    ∃ q, placeResults name i results queue = .ok q ∧ q.length = queue.length ∧
      ∀ k, q[k]? = (queue[k]?).map fun b =>
        match (if i ≤ k then results[k - i]? else none) with
        | some v => setExtra name v b
        | none => b := by
  induction results generalizing i queue with
  | nil =>
    refine ⟨queue, rfl, rfl, ?_⟩
    intro k
    cases queue[k]? <;> simp
  | cons v results ih =>
    simp only [List.length_cons] at h
    obtain ⟨q, h1, h2, h3⟩ := ih (i + 1) (queue.modify i (setExtra name v))
      (by rw [List.length_modify]; omega)
    refine ⟨q, ?_, by rw [h2, List.length_modify], ?_⟩
    · unfold placeResults
      rw [if_pos (by omega), h1]
    · intro k
      rw [h3 k, modify_get, Option.map_map]
      congr 1
      funext b
      simp only [Function.comp]
      rcases Nat.lt_trichotomy i k with hlt | heq | hgt
      · have e1 : k - i = (k - (i + 1)) + 1 := by omega
        rw [if_neg (show ¬ i = k by omega), if_pos (show i + 1 ≤ k by omega),
          if_pos (show i ≤ k by omega), e1, List.getElem?_cons_succ]
      · subst heq
        rw [if_neg (show ¬ i + 1 ≤ i by omega), if_pos (le_refl i)]
        simp
      · rw [if_neg (show ¬ i = k by omega), if_neg (show ¬ i + 1 ≤ k by omega),
          if_neg (show ¬ i ≤ k by omega)]

theorem freeSlot_spec (name : String) (queue : List (Buf F K)) (n : Nat) (hn : n ≤ queue.length)
    (h1 : ∀ k b, k < n → queue[k]? = some b → hasData b name = true)
    (h2 : ∀ b, queue[n]? = some b → hasData b name = false) : freeSlot name queue = n := by
  induction queue generalizing n with
  | nil => simp at hn; subst hn; rfl
  | cons b queue ih =>
    unfold freeSlot
    cases n with
    | zero =>
      have := h2 b (by simp)
      rw [this]
      simp
    | succ n =>
      have := h1 0 b (by omega) (by simp)
      rw [if_pos this]
      simp only [List.length_cons] at hn
      rw [ih n (by omega) (fun k b' hk hb => h1 (k + 1) b' (by omega) (by simpa using hb))
        (fun b' hb => h2 b' (by simpa using hb))]

/-- The input has no data with the name of a sub-step. -/
def Fresh (e : Env F K) (input : List (Buf F K)) : Prop :=
  ∀ b ∈ input, ∀ name ∈ e.steps, b.extra name = none

/-- One direction: its new results go to the buffers for which they were made. -/
theorem extractDir_spec {e : Env F K} (hnd : e.steps.Nodup) {input : List (Buf F K)}
    (hf : Fresh e input) {m : Nat → Nat} {p d n1 : Nat} (hd : d < e.steps.length)
    (hp : p ≤ m d) (hm : m d ≤ n1) (hn : n1 ≤ input.length) :
    extractDir e.steps[d] (newResults e d (m d) n1 (input.map (·.rows))) (queueOf e m p input) =
      .ok (queueOf e (fun x => if x = d then n1 else m x) p input) := by
  have hidx : e.steps.idxOf e.steps[d] = d := hnd.idxOf_getElem d hd
  have hinj : ∀ name, name ≠ e.steps[d] → e.steps.idxOf name < e.steps.length →
      e.steps.idxOf name ≠ d := by
    intro name hne hlt heq
    apply hne
    have := List.getElem_idxOf hlt
    rw [← this]
    congr 1
  have hget : ∀ k : Nat, (newResults e d (m d) n1 (input.map (·.rows)))[k]? =
      if m d + k < n1 then (input[m d + k]?).map fun b => e.predict d (m d + k) b.rows else none := by
    intro k
    unfold newResults
    rw [List.getElem?_map, List.getElem?_drop, List.getElem?_take, List.getElem?_zipIdx,
      List.getElem?_map]
    split_ifs
    · cases input[m d + k]? <;> simp
    · rfl
  have hlen : (newResults e d (m d) n1 (input.map (·.rows))).length = n1 - m d := by
    unfold newResults
    simp
    omega
  unfold extractDir
  by_cases hem : (newResults e d (m d) n1 (input.map (·.rows))).isEmpty
  · rw [if_pos hem]
    rw [List.isEmpty_iff_length_eq_zero, hlen] at hem
    have : n1 = m d := by omega
    congr 2
    funext x
    split_ifs with hx
    · rw [hx, this]
    · rfl
  · rw [if_neg hem]
    have hslot : freeSlot e.steps[d] (queueOf e m p input) = m d - p := by
      have hdata : ∀ k b, (queueOf e m p input)[k]? = some b →
          (hasData b e.steps[d] = true ↔ p + k < m d) := by
        intro k b hb
        rw [queueOf_get] at hb
        cases hi : input[p + k]? with
        | none => rw [hi] at hb; cases hb
        | some x =>
          rw [hi] at hb
          simp only [Option.map_some, Option.some.injEq] at hb
          subst hb
          unfold hasData loaded withExtra
          simp only [hidx]
          split_ifs with hc
          · simp [hc.2]
          · have hx := hf x (List.mem_of_getElem? hi) e.steps[d] (List.getElem_mem hd)
            rw [hx]
            simp only [Option.isSome_none, Bool.false_eq_true, false_iff]
            intro hlt
            exact hc ⟨hd, hlt⟩
      apply freeSlot_spec
      · rw [queueOf_length]; omega
      · intro k b hk hb
        exact (hdata k b hb).2 (by omega)
      · intro b hb
        cases hh : hasData b e.steps[d] with
        | false => rfl
        | true =>
          have := (hdata _ b hb).1 hh
          omega
    rw [hslot]
    obtain ⟨q, h1, h2, h3⟩ := placeResults_spec e.steps[d]
      (newResults e d (m d) n1 (input.map (·.rows))) (m d - p) (queueOf e m p input)
      (by rw [hlen, queueOf_length]; omega)
    rw [h1]
    congr 1
    apply List.ext_getElem?
    intro k
    rw [h3 k, queueOf_get, queueOf_get, Option.map_map]
    cases hi : input[p + k]? with
    | none => rfl
    | some b =>
      simp only [Option.map_some, Function.comp, Option.some.injEq]
      by_cases hk : m d - p ≤ k
      · rw [if_pos hk, hget]
        have e1 : m d + (k - (m d - p)) = p + k := by omega
        rw [e1]
        by_cases hk2 : p + k < n1
        · rw [if_pos hk2, hi]
          simp only [Option.map_some]
          unfold setExtra loaded withExtra
          congr 1
          funext name
          simp only
          by_cases hname : name = e.steps[d]
          · rw [if_pos hname, hname, hidx, if_pos ⟨hd, by rw [if_pos rfl]; exact hk2⟩]
          · rw [if_neg hname]
            by_cases hlt : e.steps.idxOf name < e.steps.length
            · simp only [hinj name hname hlt, if_false]
            · rw [if_neg (fun h => hlt h.1), if_neg (fun h => hlt h.1)]
        · rw [if_neg hk2]
          simp only
          unfold loaded
          congr 1
          funext name
          by_cases hlt : e.steps.idxOf name < e.steps.length
          · by_cases hd2 : e.steps.idxOf name = d
            · simp only [hd2, if_true]
              rw [if_neg (by omega), if_neg (by omega)]
            · simp only [hd2, if_false]
          · rw [if_neg (fun h => hlt h.1), if_neg (fun h => hlt h.1)]
      · rw [if_neg hk]
        simp only
        unfold loaded
        congr 1
        funext name
        by_cases hlt : e.steps.idxOf name < e.steps.length
        · by_cases hd2 : e.steps.idxOf name = d
          · simp only [hd2, if_true]
            rw [if_pos ⟨hd, by omega⟩, if_pos ⟨hd, by omega⟩]
          · simp only [hd2, if_false]
        · rw [if_neg (fun h => hlt h.1), if_neg (fun h => hlt h.1)]

/-- All directions. -/
theorem extractResults_spec {e : Env F K} (hnd : e.steps.Nodup) {input : List (Buf F K)}
    (hf : Fresh e input) {before now : Nat → Nat} {p : Nat}
    (h : ∀ d, d < e.steps.length → p ≤ before d ∧ before d ≤ now d ∧ now d ≤ input.length) :
    extractResults e before now (input.map (·.rows)) (queueOf e before p input) =
      .ok (queueOf e now p input) := by
  have key : ∀ t, t ≤ e.steps.length →
      ((e.steps.drop t).zipIdx t).foldlM
        (fun q x => extractDir x.1 (newResults e x.2 (before x.2) (now x.2) (input.map (·.rows))) q)
        (queueOf e (fun d => if d < t then now d else before d) p input) =
      .ok (queueOf e (fun d => if d < e.steps.length then now d else before d) p input) := by
    intro t ht
    induction hk : e.steps.length - t generalizing t with
    | zero =>
      have : t = e.steps.length := by omega
      subst this
      simp
      rfl
    | succ n ih =>
      have hlt : t < e.steps.length := by omega
      rw [List.drop_eq_getElem_cons hlt, List.zipIdx_cons, List.foldlM_cons]
      have h1 := extractDir_spec hnd hf (m := fun d => if d < t then now d else before d) (p := p)
        (n1 := now t) hlt (by rw [if_neg (lt_irrefl _)]; exact (h t hlt).1)
        (by rw [if_neg (lt_irrefl _)]; exact (h t hlt).2.1) (h t hlt).2.2
      simp only [lt_irrefl, if_false] at h1
      simp only
      rw [h1]
      have e2 : (fun x => if x = t then now t else if x < t then now x else before x) =
          fun d => if d < t + 1 then now d else before d := by
        funext d
        rcases Nat.lt_trichotomy d t with hl | he | hg
        · rw [if_neg (by omega), if_pos hl, if_pos (by omega)]
        · rw [if_pos he, if_pos (by omega), he]
        · rw [if_neg (by omega), if_neg (by omega), if_neg (by omega)]
      rw [e2]
      exact ih (t + 1) (by omega) (by omega)
  have h0 := key 0 (by omega)
  unfold extractResults
  simp only [Nat.not_lt_zero, if_false, List.drop_zero] at h0
  have e3 : (fun d => before d) = before := rfl
  rw [h0]
  congr 1
  apply List.ext_getElem?
  intro k
  rw [queueOf_get, queueOf_get]
  congr 1
  funext b
  unfold loaded
  congr 1
  funext name
  by_cases hlt : e.steps.idxOf name < e.steps.length
  · simp only [hlt, if_true]
  · rw [if_neg (fun h => hlt h.1), if_neg (fun h => hlt h.1)]

/-- The buffers that have all models. -/
def fulls (e : Env F K) (input : List (Buf F K)) : List (Buf F K) :=
  input.zipIdx.map fun x => fullBuf e x.2 x.1

theorem fulls_get (e : Env F K) (input : List (Buf F K)) (k : Nat) :
    (fulls e input)[k]? = (input[k]?).map (fullBuf e k) := by
  unfold fulls
  rw [List.getElem?_map, List.getElem?_zipIdx]
  cases input[k]? <;> simp

theorem fulls_length (e : Env F K) (input : List (Buf F K)) :
    (fulls e input).length = input.length := by simp [fulls]

theorem fulls_append (e : Env F K) (input : List (Buf F K)) (b : Buf F K) :
    fulls e (input ++ [b]) = fulls e input ++ [fullBuf e input.length b] := by
  unfold fulls
  rw [List.zipIdx_append]
  simp

theorem hasAll_loaded {e : Env F K} (hnd : e.names.Nodup) {m : Nat → Nat} {j : Nat} {b : Buf F K}
    (hfresh : ∀ name ∈ e.steps, b.extra name = none)
    (hr : ∀ name ∈ e.reused, hasData b name = true) :
    hasAll e (loaded e m j b) = true ↔ ∀ d, d < e.steps.length → j < m d := by
  have hsn : e.steps.Nodup := (List.nodup_append.1 hnd).1
  unfold hasAll Env.names
  rw [List.all_eq_true]
  constructor
  · intro h d hd
    have := h e.steps[d] (by simp)
    unfold hasData loaded withExtra at this
    simp only [hsn.idxOf_getElem d hd] at this
    split_ifs at this with hc
    · exact hc.2
    · rw [hfresh _ (List.getElem_mem hd)] at this
      cases this
  · intro h name hname
    unfold hasData loaded withExtra
    simp only
    by_cases hs : name ∈ e.steps
    · have hlt := List.idxOf_lt_length_of_mem hs
      rw [if_pos ⟨hlt, h _ hlt⟩]
      rfl
    · have hre : name ∈ e.reused := by
        rcases List.mem_append.1 hname with h1 | h1
        · exact absurd h1 hs
        · exact h1
      rw [if_neg (fun hh => hs (List.idxOf_lt_length_iff.1 hh.1))]
      exact hr name hre

/-- The buffers that leave the queue have all their own models, and they are the next ones. -/
theorem takeComplete_spec {e : Env F K} (hnd : e.names.Nodup) {input : List (Buf F K)}
    (hf : Fresh e input) (hr : ∀ b ∈ input, ∀ name ∈ e.reused, hasData b name = true)
    {m : Nat → Nat} {p : Nat} (hp : ∀ d, d < e.steps.length → p ≤ m d) (hpl : p ≤ input.length) :
    ∃ p', p ≤ p' ∧ p' ≤ input.length ∧ (∀ d, d < e.steps.length → p' ≤ m d) ∧
      (takeComplete e (queueOf e m p input)).1 = ((fulls e input).take p').drop p ∧
      (takeComplete e (queueOf e m p input)).2 = queueOf e m p' input ∧
      ((∀ d, d < e.steps.length → input.length ≤ m d) → p' = input.length) := by
  have hall : ∀ k b, (queueOf e m p input)[k]? = some b →
      (hasAll e b = true ↔ ∀ d, d < e.steps.length → p + k < m d) := by
    intro k b hb
    rw [queueOf_get] at hb
    cases hi : input[p + k]? with
    | none => rw [hi] at hb; cases hb
    | some x =>
      rw [hi] at hb
      simp only [Option.map_some, Option.some.injEq] at hb
      subst hb
      exact hasAll_loaded hnd (hf x (List.mem_of_getElem? hi)) (hr x (List.mem_of_getElem? hi))
  have hlen := queueOf_length e m p input
  generalize hq : queueOf e m p input = q at hall hlen
  have hsplit := List.takeWhile_append_dropWhile (p := hasAll e) (l := q)
  have hpre : ∀ k, k < (q.takeWhile (hasAll e)).length → (q.takeWhile (hasAll e))[k]? = q[k]? := by
    intro k hk
    conv_rhs => rw [← hsplit]
    rw [List.getElem?_append_left hk]
  refine ⟨p + (q.takeWhile (hasAll e)).length, by omega, ?_, ?_, ?_, ?_, ?_⟩
  · have := (List.takeWhile_prefix (p := hasAll e) (l := q)).length_le
    omega
  · intro d hd
    cases hk : (q.takeWhile (hasAll e)).length with
    | zero => simpa using hp d hd
    | succ k =>
      have hlt : k < (q.takeWhile (hasAll e)).length := by omega
      have h1 := hpre k hlt
      have h2 := List.mem_takeWhile_imp (List.getElem_mem hlt)
      have h3 := (hall k _ (h1.symm.trans (List.getElem?_eq_getElem hlt))).1 h2 d hd
      omega
  · unfold takeComplete
    simp only
    apply List.ext_getElem?
    intro k
    rw [List.getElem?_drop, List.getElem?_take, fulls_get]
    by_cases hlt : k < (q.takeWhile (hasAll e)).length
    · rw [if_pos (by omega)]
      have h1 := hpre k hlt
      have h2 := List.mem_takeWhile_imp (List.getElem_mem hlt)
      have hqk := h1.symm.trans (List.getElem?_eq_getElem hlt)
      have h3 := (hall k _ hqk).1 h2
      rw [h1, ← hq, queueOf_get]
      cases hi : input[p + k]? with
      | none => rfl
      | some b =>
        simp only [Option.map_some]
        rw [loaded_full h3]
    · rw [if_neg (by omega), List.getElem?_eq_none (by omega)]
  · unfold takeComplete
    simp only
    apply List.ext_getElem?
    intro k
    rw [queueOf_get]
    have : (q.dropWhile (hasAll e))[k]? = q[(q.takeWhile (hasAll e)).length + k]? := by
      have h1 : q[(q.takeWhile (hasAll e)).length + k]? = (q.takeWhile (hasAll e) ++
          q.dropWhile (hasAll e))[(q.takeWhile (hasAll e)).length + k]? := by rw [hsplit]
      rw [h1, List.getElem?_append_right (Nat.le_add_right _ _), Nat.add_sub_cancel_left]
    rw [this, ← hq, queueOf_get, hq, Nat.add_assoc]
  · intro hm
    have : q.takeWhile (hasAll e) = q := by
      rw [List.takeWhile_eq_self_iff]
      intro b hb
      obtain ⟨k, hk, rfl⟩ := List.getElem_of_mem hb
      refine (hall k _ (List.getElem?_eq_getElem hk)).2 ?_
      intro d hd
      have := hm d hd
      omega
    rw [this, hlen]
    omega

end DP3.BdaDdeCal
