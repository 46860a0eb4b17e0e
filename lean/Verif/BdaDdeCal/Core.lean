import Verif.BdaDdeCal.Queue
import Verif.BdaSolverBuffer.Props

/-!
# The solver buffer, the solves and the output of BdaDdeCal
-/

namespace DP3.BdaDdeCal

set_option linter.unusedSimpArgs false
set_option linter.unusedSectionVars false

open DP3.BdaSolverBuffer (Row Config State Inv Op Seen slot given rowsOf advances)
open DP3.DdeCal (Sols)

variable {F K : Type} [Field K] [Field F] [LinearOrder F] [IsStrictOrderedRing F] [FloorRing F]

/-- The solutions of the interval of a time, if there are. -/
def solAt (e : Env F K) (sols : List (Sols K)) (t : F) : Option (Sols K) :=
  if 0 ≤ slot e.config t then sols[(slot e.config t).toNat]? else none

/-- The model of a direction after the solves so far. -/
def stagedVis (e : Env F K) (sols : List (Sols K)) (d : Nat) (own : List (Row F))
    (v : Nat → Vis K) : Nat → Vis K := fun i =>
  match own.find? fun r => decide (r.id = i) with
  | none => v i
  | some r =>
    match solAt e sols r.time with
    | none => v i
    | some s => corrected e s d r (v i)

/-- A buffer in the solver buffer after the solves so far. -/
def staged (e : Env F K) (sols : List (Sols K)) (b : Buf F K) : Buf F K :=
  withExtra b fun name =>
    if name ∈ e.names then
      if keepUnweighted e then
        (b.extra name).map (stagedVis e sols (e.names.idxOf name) b.rows)
      else none
    else b.extra name

/-- The sum of the models of a buffer. -/
def modelSum (e : Env F K) (b : Buf F K) (i ch : Nat) : M2 K :=
  (e.names.map fun name => ((b.extra name).getD fun _ _ => 0) i ch).sum

/-- A buffer that leaves the step. -/
def final (e : Env F K) (sols : List (Sols K)) (b : Buf F K) : Buf F K where
  rows := b.rows
  data := if e.subtract then fun i ch => b.data i ch - modelSum e (staged e sols b) i ch else b.data
  flags := b.flags
  weights := b.weights
  extra := fun name =>
    if name ∈ e.names then (if e.keepModel then (staged e sols b).extra name else none)
    else b.extra name

/-- The models of a buffer in the order of the directions. -/
def modelFuns (e : Env F K) (b : Buf F K) : List (Nat → Vis K) :=
  e.names.map fun name => (b.extra name).getD fun _ _ => 0

/-! ## Extra data -/

theorem foldl_remove (names : List String) (b : Buf F K) :
    names.foldl (fun b name => removeExtra name b) b =
      withExtra b fun name => if name ∈ names then none else b.extra name := by
  induction names generalizing b with
  | nil => simp [withExtra]
  | cons n names ih =>
    rw [List.foldl_cons, ih]
    unfold withExtra removeExtra
    simp only
    congr 1
    funext name
    by_cases h1 : name ∈ names
    · simp [h1]
    · by_cases h2 : name = n <;> simp [h1, h2]

theorem modelsOf_ok {b : Buf F K} {names : List String} {models : List (Nat → Vis K)}
    (h : modelsOf b names = .ok models) :
    models = names.map (fun name => (b.extra name).getD fun _ _ => 0) ∧
      ∀ name ∈ names, hasData b name = true := by
  induction names generalizing models with
  | nil => cases h; simp
  | cons n names ih =>
    unfold modelsOf at h
    cases h1 : b.extra n with
    | none => rw [h1] at h; cases h
    | some v =>
      rw [h1] at h
      simp only at h
      cases h2 : modelsOf b names with
      | error x => rw [h2] at h; cases h
      | ok l =>
        rw [h2] at h
        cases h
        obtain ⟨h3, h4⟩ := ih h2
        refine ⟨by simp [h1, h3], ?_⟩
        intro name hname
        rcases List.mem_cons.1 hname with rfl | hname
        · simp [hasData, h1]
        · exact h4 name hname

theorem modelsOf_total {b : Buf F K} {names : List String}
    (h : ∀ name ∈ names, hasData b name = true) :
    modelsOf b names = .ok (names.map fun name => (b.extra name).getD fun _ _ => 0) := by
  induction names with
  | nil => rfl
  | cons n names ih =>
    unfold modelsOf
    have h1 := h n (by simp)
    unfold hasData at h1
    cases h2 : b.extra n with
    | none => rw [h2] at h1; cases h1
    | some v =>
      simp only
      rw [ih fun m hm => h m (by simp [hm])]
      simp [h2]

theorem subtractModels_total {names : List String} {b : Buf F K}
    (h : ∀ name ∈ names, hasData b name = true) :
    subtractModels names b = .ok { b with data := fun i ch => b.data i ch -
      (names.map fun name => ((b.extra name).getD fun _ _ => 0) i ch).sum } := by
  induction names generalizing b with
  | nil => unfold subtractModels; simp
  | cons n names ih =>
    unfold subtractModels
    have h1 := h n (by simp)
    unfold hasData at h1
    cases h2 : b.extra n with
    | none => rw [h2] at h1; cases h1
    | some v =>
      simp only
      rw [ih]
      · congr 2
        funext i ch
        simp only [List.map_cons, List.sum_cons, h2, Option.getD_some]
        abel
      · intro m hm
        exact h m (by simp [hm])

theorem applyToBuf_spec {e : Env F K} (hnd : e.names.Nodup) (s : Sols K) (rows : List (Row F))
    (b : Buf F K) :
    applyToBuf e s rows b = withExtra b fun name =>
      if name ∈ e.names then
        (b.extra name).map (correctedRows e s (e.names.idxOf name) rows b.rows)
      else b.extra name := by
  have key : ∀ t, t ≤ e.names.length →
      ((e.names.drop t).zipIdx t).foldl (applyDir e s rows)
        (withExtra b fun name =>
          if e.names.idxOf name < t then
            (b.extra name).map (correctedRows e s (e.names.idxOf name) rows b.rows)
          else b.extra name) =
      withExtra b fun name =>
        if e.names.idxOf name < e.names.length then
          (b.extra name).map (correctedRows e s (e.names.idxOf name) rows b.rows)
        else b.extra name := by
    intro t ht
    induction hk : e.names.length - t generalizing t with
    | zero =>
      have : t = e.names.length := by omega
      subst this
      simp
    | succ n ih =>
      have hlt : t < e.names.length := by omega
      rw [List.drop_eq_getElem_cons hlt, List.zipIdx_cons, List.foldl_cons]
      rw [← ih (t + 1) (by omega) (by omega)]
      congr 1
      have hidx : e.names.idxOf e.names[t] = t := hnd.idxOf_getElem t hlt
      have h1 : (withExtra b fun name =>
          if e.names.idxOf name < t then
            (b.extra name).map (correctedRows e s (e.names.idxOf name) rows b.rows)
          else b.extra name).extra e.names[t] = b.extra e.names[t] := by
        unfold withExtra
        simp only [hidx, lt_irrefl, if_false]
      unfold applyDir
      simp only [h1]
      cases h2 : b.extra e.names[t] with
      | none =>
        simp only
        congr 1
        funext name
        rcases Nat.lt_trichotomy (e.names.idxOf name) t with hl | he | hg
        · rw [if_pos hl, if_pos (by omega)]
        · rw [if_neg (by omega), if_pos (by omega)]
          have : name = e.names[t] := by
            have := List.getElem_idxOf (x := name) (xs := e.names) (by omega)
            rw [← this]
            congr 1
          rw [this, h2]
          rfl
        · rw [if_neg (by omega), if_neg (by omega)]
      | some v =>
        simp only
        unfold setExtra withExtra
        simp only
        congr 1
        funext name
        by_cases hname : name = e.names[t]
        · rw [if_pos hname, hname, hidx, if_pos (by omega), h2]
          rfl
        · rw [if_neg hname]
          have hne : e.names.idxOf name ≠ t := by
            intro heq
            apply hname
            have := List.getElem_idxOf (x := name) (xs := e.names) (by omega)
            rw [← this]
            congr 1
          rcases Nat.lt_trichotomy (e.names.idxOf name) t with hl | he | hg
          · rw [if_pos hl, if_pos (by omega)]
          · exact absurd he hne
          · rw [if_neg (by omega), if_neg (by omega)]
  have h0 := key 0 (by omega)
  unfold applyToBuf
  simp only [Nat.not_lt_zero, if_false, List.drop_zero] at h0
  have e1 : (withExtra b fun name => b.extra name) = b := rfl
  rw [e1] at h0
  rw [h0]
  congr 1
  funext name
  simp only [List.idxOf_lt_length_iff]

/-! ## The invariant -/

/-- Buffers with rows that do not end before they start. -/
def Tidy (e : Env F K) (l : List (Buf F K)) : Prop :=
  0 < e.config.interval ∧ ∀ b ∈ l, b.rows ≠ [] ∧ ∀ r ∈ b.rows, 0 ≤ r.interval

/-- The state after the buffers `l` went to the solver buffer. -/
structure SInv [LinearOrder K] (e : Env F K) (l : List (Buf F K)) (st : St F K) : Prop where
  core : ∃ (ops : List (Op F)) (seen : Seen F), Inv e.config ops (st.core, seen) ∧
    given ops = l.map (·.rows) ∧ advances ops = st.sols.length ∧
    st.calls.map (·.rows) = seen.intervals.map (fun rows => rows.map fun r => (r, st.mem r.id)) ∧
    seen.returned = st.out.map (·.rows)
  data : st.core.data = st.bufs.map (·.rows)
  done : st.core.done = st.done.map (·.rows)
  mem : ∀ b ∈ l, ∀ r ∈ b.rows, st.mem r.id = cellOf e b (modelFuns e b) r.id
  models : ∀ b ∈ l, ∀ name ∈ e.names, hasData b name = true
  bufs : st.done ++ st.bufs = (l.drop st.out.length).map (staged e st.sols)
  out : st.out = (l.take st.out.length).map (final e st.sols)
  nCalls : st.calls.length = st.sols.length
  sols : st.sols = st.calls.zipIdx.map fun p => (e.solve p.2 p.1).sols
  iters : st.iters = st.calls.zipIdx.map fun p => (e.solve p.2 p.1).iters
  cons : st.cons = st.calls.zipIdx.map fun p => storedCons e (e.solve p.2 p.1)
  calls : ∀ i c, st.calls[i]? = some c → c.start = startSols e (st.sols.take i) (st.iters.take i) ∧
    c.center = e.config.start + ((i : F) + 1 / 2) * e.config.interval ∧
    c.weights = antennaWeight e c.rows ∧ channelsOk e c.rows = true
  slots : ∀ b ∈ l, ∀ r ∈ b.rows, 0 ≤ slot e.config r.time
  live : ∀ rows, st.core.data.head? = some rows → rows ≠ [] →
    ∃ r ∈ rows, st.core.current ≤ slot e.config r.time
  needed : Tidy e l → ∀ i : Nat, i < st.sols.length →
    ∃ b ∈ l, ∃ r ∈ b.rows, (i : Int) ≤ slot e.config r.time

/-- All rows of the buffers have different ids. -/
def IdsNodup (l : List (Buf F K)) : Prop := ((l.flatMap (·.rows)).map (·.id)).Nodup

theorem find_own {rows : List (Row F)} (hnd : (rows.map (·.id)).Nodup) {r : Row F} (hr : r ∈ rows) :
    (rows.find? fun x => decide (x.id = r.id)) = some r := by
  induction rows with
  | nil => cases hr
  | cons y rows ih =>
    rw [List.map_cons, List.nodup_cons] at hnd
    rw [List.find?_cons]
    rcases List.mem_cons.1 hr with rfl | hr
    · simp
    · have : ¬ y.id = r.id := fun h => hnd.1 (h ▸ List.mem_map_of_mem hr)
      simp only [this, decide_false]
      exact ih hnd.2 hr

theorem ids_inj {rows : List (Row F)} (hnd : (rows.map (·.id)).Nodup) {r s : Row F} (hr : r ∈ rows)
    (hs : s ∈ rows) (h : r.id = s.id) : r = s := by
  have h1 := find_own hnd hr
  have h2 := find_own hnd hs
  rw [h] at h1
  rw [h1] at h2
  exact Option.some.inj h2

/-- One more solution changes the staged buffers as `ApplySolutions` does. -/
theorem staged_apply {e : Env F K} (hnd : e.names.Nodup) (hk : keepUnweighted e = true)
    {all : List (Row F)} (hids : (all.map (·.id)).Nodup) {b : Buf F K} (hb : ∀ r ∈ b.rows, r ∈ all)
    (sols : List (Sols K)) (s : Sols K) :
    applyToBuf e s (all.filter fun r => decide (slot e.config r.time = sols.length))
        (staged e sols b) = staged e (sols ++ [s]) b := by
  rw [applyToBuf_spec hnd]
  unfold staged withExtra
  simp only [hk, if_true]
  congr 1
  funext name
  split_ifs with hn
  · rw [Option.map_map]
    congr 1
    funext v i
    simp only [Function.comp]
    unfold correctedRows stagedVis
    cases ho : b.rows.find? fun r => decide (r.id = i) with
    | none =>
      have : (b.rows.any fun r => decide (r.id = i)) = false := by
        rw [List.any_eq_false]
        intro r hr
        exact List.find?_eq_none.1 ho r hr
      rw [this]
      rfl
    | some r =>
      have hr : r ∈ b.rows := List.mem_of_find?_eq_some ho
      have hri : r.id = i := by simpa using List.find?_some ho
      have : (b.rows.any fun r => decide (r.id = i)) = true :=
        List.any_eq_true.2 ⟨r, hr, by simpa using hri⟩
      rw [this]
      simp only [if_true]
      by_cases hs : slot e.config r.time = sols.length
      · have hf : ((all.filter fun r => decide (slot e.config r.time = sols.length)).find?
            fun x => decide (x.id = i)) = some r := by
          rw [← hri]
          apply find_own
          · exact (List.Sublist.map _ List.filter_sublist).nodup hids
          · rw [List.mem_filter]
            exact ⟨hb r hr, by simpa using hs⟩
        rw [hf]
        simp only
        have e1 : solAt e sols r.time = none := by
          unfold solAt
          rw [hs]
          simp
        have e2 : solAt e (sols ++ [s]) r.time = some s := by
          unfold solAt
          rw [hs]
          simp
        rw [e1, e2]
      · have hf : ((all.filter fun r => decide (slot e.config r.time = sols.length)).find?
            fun x => decide (x.id = i)) = none := by
          rw [List.find?_eq_none]
          intro x hx
          rw [List.mem_filter] at hx
          simp only [decide_eq_true_eq] at hx ⊢
          intro hxi
          have := ids_inj hids hx.1 (hb r hr) (hxi.trans hri.symm)
          exact hs (this ▸ hx.2)
        rw [hf]
        simp only
        have e1 : solAt e (sols ++ [s]) r.time = solAt e sols r.time := by
          unfold solAt
          split_ifs with h0
          · have : (slot e.config r.time).toNat ≠ sols.length := by omega
            by_cases hlt : (slot e.config r.time).toNat < sols.length
            · rw [List.getElem?_append_left hlt]
            · rw [List.getElem?_eq_none (by simp; omega), List.getElem?_eq_none (by omega)]
          · rfl
        rw [e1]
  · rfl

/-- Without model data to keep, there is nothing to apply. -/
theorem staged_none {e : Env F K} (hk : keepUnweighted e = false) (sols sols' : List (Sols K))
    (b : Buf F K) : staged e sols b = staged e sols' b := by
  unfold staged
  simp [hk]

/-- More solutions do not change a buffer of past intervals. -/
theorem staged_old {e : Env F K} {sols : List (Sols K)} (s : Sols K) {b : Buf F K}
    (h : ∀ r ∈ b.rows, slot e.config r.time < sols.length) :
    staged e (sols ++ [s]) b = staged e sols b := by
  unfold staged
  congr 1
  funext name
  split_ifs with h1 h2
  · congr 1
    funext v i
    unfold stagedVis
    cases ho : b.rows.find? fun r => decide (r.id = i) with
    | none => rfl
    | some r =>
      have hr := h r (List.mem_of_find?_eq_some ho)
      simp only
      have : solAt e (sols ++ [s]) r.time = solAt e sols r.time := by
        unfold solAt
        split_ifs with h0
        · rw [List.getElem?_append_left (by omega)]
        · rfl
      rw [this]
  · rfl
  · rfl

theorem final_old {e : Env F K} {sols : List (Sols K)} (s : Sols K) {b : Buf F K}
    (h : ∀ r ∈ b.rows, slot e.config r.time < sols.length) :
    final e (sols ++ [s]) b = final e sols b := by
  unfold final
  rw [staged_old s h]

theorem staged_new {e : Env F K} {sols : List (Sols K)} {b : Buf F K}
    (h : ∀ r ∈ b.rows, (sols.length : Int) ≤ slot e.config r.time) :
    staged e sols b = if keepUnweighted e then b
      else e.names.foldl (fun b name => removeExtra name b) b := by
  rw [foldl_remove]
  unfold staged
  split_ifs with hk
  · have : (fun name => if name ∈ e.names then
        (b.extra name).map (stagedVis e sols (e.names.idxOf name) b.rows) else b.extra name) =
        b.extra := by
      funext name
      split_ifs with hn
      · cases b.extra name with
        | none => rfl
        | some v =>
          rw [Option.map_some]
          congr 1
          funext i
          unfold stagedVis
          cases ho : b.rows.find? fun r => decide (r.id = i) with
          | none => rfl
          | some r =>
            have hr := h r (List.mem_of_find?_eq_some ho)
            simp only
            have : solAt e sols r.time = none := by
              unfold solAt
              rw [if_pos (by omega), List.getElem?_eq_none (by omega)]
            rw [this]
      · rfl
    rw [this]
    rfl
  · rfl

variable [LinearOrder K]

theorem sinv_append {e : Env F K} {l : List (Buf F K)} {st st' : St F K} {b : Buf F K}
    (h : SInv e l st) (hids : IdsNodup (l ++ [b])) (ha : appendAndWeight e st b = .ok st') :
    SInv e (l ++ [b]) st' ∧ st'.sent = st.sent ∧ st'.queue = st.queue ∧ st'.out = st.out ∧
      st'.sols = st.sols ∧ BdaSolverBuffer.append e.config st.core b.rows = .ok st'.core := by
  unfold appendAndWeight at ha
  cases hm : modelsOf b e.names with
  | error x => rw [hm] at ha; cases ha
  | ok models =>
    rw [hm] at ha
    simp only at ha
    obtain ⟨hm1, hm2⟩ := modelsOf_ok hm
    cases hc : BdaSolverBuffer.append e.config st.core b.rows with
    | error x => rw [hc] at ha; cases ha
    | ok core =>
      rw [hc] at ha
      cases ha
      obtain ⟨ops, seen, hi, hg, hadv, hcalls, hret⟩ := h.core
      obtain ⟨s1, hf, hcore⟩ := BdaSolverBuffer.append_ok hc
      obtain ⟨a1, a2, a3, a4, -, -⟩ := BdaSolverBuffer.foldlM_rows (rows := rowsOf ops) hf
      have hcur : st.core.current = (st.sols.length : Int) := by rw [hi.current, hadv]
      have hold : ∀ b' ∈ l, ∀ r ∈ b'.rows, (b.rows.any fun x => decide (x.id = r.id)) = false := by
        intro b' hb' r hr
        rw [List.any_eq_false]
        intro x hx
        simp only [decide_eq_true_eq]
        intro heq
        unfold IdsNodup at hids
        rw [List.flatMap_append, List.map_append] at hids
        have := (List.nodup_append.1 hids).2.2 r.id
          (List.mem_map_of_mem (List.mem_flatMap.2 ⟨b', hb', hr⟩)) x.id
          (List.mem_map_of_mem (List.mem_flatMap.2 ⟨b, by simp, hx⟩))
        exact this heq.symm
      refine ⟨⟨⟨ops ++ [.append b.rows], seen, ?_, ?_, ?_, ?_, hret⟩, ?_, ?_, ?_, ?_, ?_, ?_,
        h.nCalls, h.sols, h.iters, h.cons, h.calls, ?_, ?_, ?_⟩, rfl, rfl, rfl, rfl, rfl⟩
      · apply BdaSolverBuffer.inv_step hi
        unfold BdaSolverBuffer.step
        simp only
        rw [hc]
        rfl
      · rw [BdaSolverBuffer.given_append, hg]
        simp [given]
      · rw [BdaSolverBuffer.advances_append, hadv]
        simp [advances]
      · rw [hcalls]
        apply List.map_congr_left
        intro rows hrows
        apply List.map_congr_left
        intro r hr
        obtain ⟨j, hj, rfl⟩ := List.getElem_of_mem hrows
        have hj' : j < advances ops := by rw [← hi.intervals.1]; exact hj
        have := hi.intervals.2 j hj'
        rw [List.getElem?_eq_getElem hj, Option.some.injEq] at this
        rw [this, List.mem_filter] at hr
        have hr1 := hr.1
        unfold rowsOf at hr1
        rw [hg, List.mem_flatten] at hr1
        obtain ⟨rows', hrows', hr2⟩ := hr1
        obtain ⟨b', hb', rfl⟩ := List.mem_map.1 hrows'
        simp only
        rw [hold b' hb' r hr2]
        rfl
      · rw [hcore]
        simp only [List.map_append, List.map_cons, List.map_nil]
        rw [a2, h.data]
        congr 2
        split_ifs
        · rfl
        · rw [foldl_remove]; rfl
      · rw [hcore]
        simp only
        rw [a3, h.done]
      · intro b' hb' r hr
        rcases List.mem_append.1 hb' with hb' | hb'
        · simp only
          rw [hold b' hb' r hr]
          exact h.mem b' hb' r hr
        · rw [List.mem_singleton] at hb'
          subst hb'
          simp only
          have : (b'.rows.any fun x => decide (x.id = r.id)) = true :=
            List.any_eq_true.2 ⟨r, hr, by simp⟩
          rw [this, hm1]
          rfl
      · intro b' hb' name hname
        rcases List.mem_append.1 hb' with hb' | hb'
        · exact h.models b' hb' name hname
        · rw [List.mem_singleton] at hb'
          subst hb'
          exact hm2 name hname
      · simp only
        have hle : st.out.length ≤ l.length := by
          have := congrArg List.length h.out
          simp only [List.length_map, List.length_take] at this
          omega
        rw [← List.append_assoc, h.bufs, List.drop_append_of_le_length hle, List.map_append]
        congr 1
        rw [List.map_singleton, staged_new]
        intro r hr
        have := a4 r hr
        omega
      · have hle : st.out.length ≤ l.length := by
          have := congrArg List.length h.out
          simp only [List.length_map, List.length_take] at this
          omega
        simp only
        rw [List.take_append_of_le_length hle]
        exact h.out
      · intro b' hb' r hr
        rcases List.mem_append.1 hb' with hb' | hb'
        · exact h.slots b' hb' r hr
        · rw [List.mem_singleton] at hb'
          subst hb'
          have := a4 r hr
          omega
      · intro rows hrows hne
        rw [hcore] at hrows ⊢
        simp only [a2] at hrows ⊢
        rw [a1]
        cases hd : st.core.data with
        | nil =>
          rw [hd] at hrows
          simp only [List.nil_append, List.head?_cons, Option.some.injEq] at hrows
          subst hrows
          cases hbr : b.rows with
          | nil => exact absurd hbr hne
          | cons r t => exact ⟨r, by simp, a4 r (by rw [hbr]; simp)⟩
        | cons x t =>
          rw [hd] at hrows
          exact h.live rows (by rw [hd]; exact hrows) hne
      · intro ht i hi'
        obtain ⟨b', hb', r, hr, hle⟩ := h.needed
          ⟨ht.1, fun b' hb' => ht.2 b' (by simp [hb'])⟩ i hi'
        exact ⟨b', by simp [hb'], r, hr, hle⟩

/-- The rows of the interval that is solved. -/
theorem sinv_interval {e : Env F K} {l : List (Buf F K)} {st : St F K} (h : SInv e l st) :
    BdaSolverBuffer.intervalRows st.core =
      (l.flatMap (·.rows)).filter fun r => decide (slot e.config r.time = st.sols.length) := by
  obtain ⟨ops, seen, hi, hg, hadv, -, -⟩ := h.core
  unfold BdaSolverBuffer.intervalRows
  have h1 := hi.stored.2 0
  simp only at h1
  have hc := hi.current
  simp only at hc
  rw [h1, hc, hadv]
  unfold rowsOf
  rw [hg, List.flatMap_def]
  simp

theorem sinv_solve {e : Env F K} (hnd : e.names.Nodup) {l : List (Buf F K)} {st st1 : St F K}
    (hids : IdsNodup l) (h : SInv e l st)
    (hneed : Tidy e l → ∃ b ∈ l, ∃ r ∈ b.rows, (st.sols.length : Int) ≤ slot e.config r.time)
    (hs : solveCurrent e st = .ok st1) :
    SInv e l (advance e st1) ∧ (advance e st1).sent = st.sent ∧
      (advance e st1).queue = st.queue ∧ (advance e st1).out = st.out ∧
      (advance e st1).core = BdaSolverBuffer.advanceInterval e.config st.core ∧
      (advance e st1).sols.length = st.sols.length + 1 := by
  unfold solveCurrent at hs
  simp only at hs
  by_cases hch : channelsOk e (callOf e st).rows = false
  · rw [if_pos hch] at hs; cases hs
  rw [if_neg hch] at hs
  cases hs
  obtain ⟨ops, seen, hi, hg, hadv, hcalls, hret⟩ := h.core
  have hint := sinv_interval h
  obtain ⟨old, o1, o2, o3, o4⟩ := BdaSolverBuffer.removeOld_spec e.config
    { data := st.core.data, done := st.core.done, current := st.core.current + 1,
      lastComplete := st.core.lastComplete.map (· - 1),
      dataRows := if (st.core.dataRows.drop 1).isEmpty then [[]] else st.core.dataRows.drop 1 }
    st.core.data st.core.done
  have hstep := BdaSolverBuffer.inv_step (o := .advance) hi rfl
  set adv := BdaSolverBuffer.advanceInterval e.config st.core with hadvdef
  have od : adv.done = st.core.done ++ old := o1
  have oc : st.core.data = old ++ adv.data := o2
  have hk : st.core.data.length - adv.data.length = old.length := by
    rw [oc, List.length_append]; omega
  set r := e.solve st.sols.length (callOf e st) with hr
  have hlb : old.length ≤ st.bufs.length := by
    have := congrArg List.length h.data
    rw [List.length_map, oc, List.length_append] at this
    omega
  -- the buffers after `ApplySolutions`
  have hnew : ∀ (f : Buf F K → Buf F K), (∀ b, (f b).rows = b.rows) →
      ((st.bufs.map f).drop old.length).map (·.rows) = adv.data ∧
        ((st.bufs.map f).take old.length).map (·.rows) = old := by
    intro f hf
    have e1 : (st.bufs.map f).map (·.rows) = old ++ adv.data := by
      rw [List.map_map, ← oc, h.data]
      apply List.map_congr_left
      intro b _
      exact hf b
    rw [List.map_drop, List.map_take, e1]
    simp
  set bufs1 := (if e.subtract || e.keepModel then
      st.bufs.map (applyToBuf e r.sols (BdaSolverBuffer.intervalRows st.core)) else st.bufs)
    with hbufs1
  have hb1 : bufs1 = st.bufs.map (if e.subtract || e.keepModel then
      applyToBuf e r.sols (BdaSolverBuffer.intervalRows st.core) else id) := by
    rw [hbufs1]
    split_ifs <;> simp
  have hrowsf : ∀ b : Buf F K, ((if e.subtract || e.keepModel then
      applyToBuf e r.sols (BdaSolverBuffer.intervalRows st.core) else id) b).rows = b.rows := by
    intro b
    split_ifs
    · rw [applyToBuf_spec hnd]; rfl
    · rfl
  obtain ⟨hn1, hn2⟩ := hnew _ hrowsf
  rw [← hb1] at hn1 hn2
  have hdone : ∀ b ∈ st.done, ∀ x ∈ b.rows, slot e.config x.time < st.sols.length := by
    intro b hb x hx
    have := hi.old b.rows (by simp only [List.mem_append]; right; rw [h.done]; exact List.mem_map_of_mem hb) x hx
    rw [hi.current, hadv] at this
    exact this
  have hle : st.out.length ≤ l.length := by
    have := congrArg List.length h.out
    simp only [List.length_map, List.length_take] at this
    omega
  have hcl : (callOf e st).rows = (BdaSolverBuffer.intervalRows st.core).map
      fun r => (r, st.mem r.id) := rfl
  have hilen : st.iters.length = st.sols.length := by
    rw [h.iters]; simp [h.nCalls]
  refine ⟨⟨⟨ops ++ [.advance], { intervals := seen.intervals ++
      [BdaSolverBuffer.intervalRows st.core], returned := seen.returned }, ?_, ?_, ?_, ?_, ?_⟩,
    ?_, ?_, h.mem, h.models, ?_, ?_, ?_, ?_, ?_, ?_, ?_, h.slots, ?_, ?_⟩, rfl, rfl, rfl, rfl, ?_⟩
  · exact hstep
  · rw [BdaSolverBuffer.given_append, hg]
    simp [given]
  · rw [BdaSolverBuffer.advances_append, hadv]
    simp [advances, advance]
  · simp only [advance, List.map_append, List.map_singleton]
    rw [hcalls, hcl]
  · exact hret
  · simp only [advance]
    rw [hk, hn1]
  · simp only [advance]
    rw [hk, List.map_append, hn2, od, h.done]
  · -- contents
    simp only [advance]
    rw [hk, List.append_assoc, List.take_append_drop]
    have hall : ∀ b ∈ l.drop st.out.length, ∀ x ∈ b.rows, x ∈ l.flatMap (·.rows) := by
      intro b hb x hx
      exact List.mem_flatMap.2 ⟨b, List.mem_of_mem_drop hb, hx⟩
    obtain ⟨q, hq1, hq2⟩ : ∃ q, st.done = ((l.drop st.out.length).take q).map (staged e st.sols) ∧
        st.bufs = ((l.drop st.out.length).drop q).map (staged e st.sols) := by
      refine ⟨st.done.length, ?_, ?_⟩
      · rw [List.map_take, ← h.bufs]; simp
      · rw [List.map_drop, ← h.bufs]; simp
    conv_rhs => rw [← List.take_append_drop q (l.drop st.out.length), List.map_append]
    congr 1
    · rw [hq1]
      apply List.map_congr_left
      intro b hb
      symm
      apply staged_old
      intro x hx
      have : staged e st.sols b ∈ st.done := by rw [hq1]; exact List.mem_map_of_mem hb
      exact hdone _ this x hx
    · rw [hb1, hq2, List.map_map]
      apply List.map_congr_left
      intro b hb
      simp only [Function.comp]
      have hkk : (e.subtract || e.keepModel) = keepUnweighted e := by
        unfold keepUnweighted; rw [Bool.or_comm]
      rw [hkk]
      split_ifs with hke
      · rw [hint]
        exact staged_apply hnd hke hids (hall b (List.mem_of_mem_drop hb)) st.sols r.sols
      · exact staged_none (by simpa using hke) _ _ _
  · simp only [advance]
    conv_lhs => rw [h.out]
    apply List.map_congr_left
    intro b hb
    symm
    apply final_old
    intro x hx
    have h1 : b.rows ∈ seen.returned := by
      rw [hret, h.out, List.map_map]
      exact List.mem_map.2 ⟨b, hb, rfl⟩
    have := hi.old b.rows (by simp [h1]) x hx
    rw [hi.current, hadv] at this
    exact this
  · simp only [advance, List.length_append, List.length_singleton, h.nCalls]
  · simp only [advance]
    rw [List.zipIdx_append, List.map_append, ← h.sols]
    simp [h.nCalls, hr]
  · simp only [advance]
    rw [List.zipIdx_append, List.map_append, ← h.iters]
    simp [h.nCalls, hr]
  · simp only [advance]
    rw [List.zipIdx_append, List.map_append, ← h.cons]
    simp [h.nCalls, hr]
  · intro i c hc
    simp only [advance] at hc ⊢
    by_cases hlt : i < st.sols.length
    · rw [List.getElem?_append_left (by rw [h.nCalls]; exact hlt)] at hc
      rw [List.take_append_of_le_length (by omega), List.take_append_of_le_length (by omega)]
      exact h.calls i c hc
    · have : i = st.sols.length := by
        have := (List.getElem?_eq_some_iff.1 hc).1
        rw [List.length_append, h.nCalls] at this
        simp at this
        omega
      subst this
      rw [List.getElem?_append_right (by rw [h.nCalls]), h.nCalls] at hc
      simp only [Nat.sub_self, List.getElem?_cons_zero, Option.some.injEq] at hc
      subst hc
      refine ⟨?_, rfl, rfl, by simpa using hch⟩
      have e1 : (st.sols ++ [r.sols]).take st.sols.length = st.sols := by simp
      have e2 : (st.iters ++ [r.iters]).take st.sols.length = st.iters := by
        rw [← hilen]; simp
      rw [e1, e2]
      rfl
  · intro rows hrows _
    exact o4 rows hrows
  · intro ht i hi'
    simp only [advance, List.length_append, List.length_singleton] at hi'
    by_cases hlt : i < st.sols.length
    · exact h.needed ht i hlt
    · have : i = st.sols.length := by omega
      rw [this]
      exact hneed ht
  · simp [advance]

end DP3.BdaDdeCal
