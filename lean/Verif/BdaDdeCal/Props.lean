import Verif.BdaDdeCal.Run
import Verif.DdeCal.Lemmas

/-!
# Properties of BdaDdeCal (C138 - C143)
-/

namespace DP3.BdaDdeCal

set_option linter.unusedSimpArgs false
set_option linter.unusedSectionVars false

open DP3.BdaSolverBuffer (Row Config State Inv Op Seen slot given rowsOf advances)
open DP3.DdeCal (Sols jones)

variable {F K : Type} [Field K] [Field F] [LinearOrder F] [IsStrictOrderedRing F] [FloorRing F]

/-- The model data of direction `d`, with name `name`, for buffer number `j`. -/
def modelOf (e : Env F K) (j : Nat) (b : Buf F K) (name : String) (d : Nat) : Nat → Vis K :=
  if d < e.steps.length then e.predict d j b.rows else (b.extra name).getD fun _ _ => 0

/-- The flags that the solver has to respect: those of the input and of the UVW flagger. -/
def solverFlags (e : Env F K) (b : Buf F K) (r : Row F) (ch cr : Nat) : Bool :=
  b.flags r.id ch cr || (e.uvwActive && e.uvwFlag r ch)

/-- A visibility, multiplied by the square roots of the weights, or zero if there are flags. -/
def weighted (sqrt : K → K) (flags : Nat → Bool) (w : Nat → K) (m : M2 K) : M2 K :=
  if flags 0 || flags 1 || flags 2 || flags 3 then 0
  else ⟨m.a * ⟨sqrt (w 0), 0⟩, m.b * ⟨sqrt (w 1), 0⟩, m.c * ⟨sqrt (w 2), 0⟩, m.d * ⟨sqrt (w 3), 0⟩⟩

/-- Model data with the Jones matrices of two stations applied. -/
def applied (e : Env F K) (s : Sols K) (d : Nat) (r : Row F) (ch : Nat) (m : M2 K) : M2 K :=
  jones e.nPol e.names.length (s.getD (e.applyBlock r.bl ch) []) (e.ant1 r.bl) d * m *
    (jones e.nPol e.names.length (s.getD (e.applyBlock r.bl ch) []) (e.ant2 r.bl) d).herm

theorem corrected_applied [LinearOrder K] (e : Env F K) (s : Sols K) (d : Nat) (r : Row F) (v : Vis K) (ch : Nat) :
    corrected e s d r v ch = applied e s d r ch (v ch) := by
  unfold corrected applied DdeCal.applySol
  by_cases h4 : e.nPol = 4
  · simp only [h4, if_true, DdeCal.full_eq_jones]
  · by_cases h2 : e.nPol = 2
    · simp only [h2, if_true, if_neg (show ¬ (2 = 4) by decide), DdeCal.diag_eq_jones]
    · simp only [if_neg h4, if_neg h2, jones]
      generalize (s.getD (e.applyBlock r.bl ch) []).getD (e.ant1 r.bl * e.names.length + d) 0 = x
      generalize (s.getD (e.applyBlock r.bl ch) []).getD (e.ant2 r.bl * e.names.length + d) 0 = y
      ext <;> simp [M2.smul, M2.herm, Cx.conj] <;> ring

theorem fullBuf_extra {e : Env F K} (hnd : e.names.Nodup) {j : Nat} {b : Buf F K} {d : Nat}
    {name : String} (hd : e.names[d]? = some name)
    (hr : ∀ name ∈ e.reused, hasData b name = true) :
    (fullBuf e j b).extra name = some (modelOf e j b name d) := by
  unfold fullBuf withExtra modelOf
  simp only
  have hnd' : (e.steps ++ e.reused).Nodup := hnd
  unfold Env.names at hd
  by_cases hlt : d < e.steps.length
  · rw [List.getElem?_append_left hlt] at hd
    have hmem : name ∈ e.steps := List.mem_of_getElem? hd
    rw [if_pos hmem, if_pos hlt]
    have hidx : e.steps.idxOf name = d := by
      obtain ⟨h1, h2⟩ := List.getElem?_eq_some_iff.1 hd
      rw [← h2]
      exact (List.nodup_append.1 hnd').1.idxOf_getElem d h1
    rw [hidx]
  · rw [List.getElem?_append_right (by omega)] at hd
    have hmem : name ∈ e.reused := List.mem_of_getElem? hd
    have hns : name ∉ e.steps := fun h0 => (List.nodup_append.1 hnd').2.2 name h0 name hmem rfl
    rw [if_neg hns, if_neg hlt]
    have := hr name hmem
    unfold hasData at this
    cases hx : b.extra name with
    | none => rw [hx] at this; cases this
    | some v => rfl

theorem fulls_get' (e : Env F K) {input : List (Buf F K)} {j : Nat} {b : Buf F K}
    (h : input[j]? = some b) : (fulls e input)[j]? = some (fullBuf e j b) := by
  rw [fulls_get, h]
  rfl

theorem names_idx {e : Env F K} (hnd : e.names.Nodup) {d : Nat} {name : String}
    (hd : e.names[d]? = some name) : e.names.idxOf name = d := by
  obtain ⟨h1, h2⟩ := List.getElem?_eq_some_iff.1 hd
  rw [← h2]
  exact hnd.idxOf_getElem d h1

variable [LinearOrder K]

theorem own_ids {input : List (Buf F K)} (h : IdsNodup input) {b : Buf F K} (hb : b ∈ input) :
    (b.rows.map (·.id)).Nodup := by
  unfold IdsNodup at h
  induction input with
  | nil => cases hb
  | cons x input ih =>
    rw [List.flatMap_cons, List.map_append] at h
    rcases List.mem_cons.1 hb with rfl | hb
    · exact (List.nodup_append.1 h).1
    · exact ih (List.nodup_append.1 h).2.1 hb

/-! ## C138: the calls of the solver -/

/-- **C138.**  Whatever the delays of the sub-steps and however the rows are distributed over buffers,
the solver is called once for each interval, in order.  A call has exactly the rows of which the
centre is in the interval, with the weighted data, and the weighted models of all directions for
that very row; its time is the middle of the interval, and it starts from the solutions of the
previous interval or from unit matrices. -/
theorem solver_calls {e : Env F K} {input : List (Buf F K)} (hg : Good e input)
    (hr : ∀ b ∈ input, ∀ name ∈ e.reused, (b.extra name).isSome) (hop : e.onlyPredict = false)
    {st : St F K} (h : run e input = .ok st) (i : Nat) (c : Call F K) (hc : st.calls[i]? = some c) :
    (c.rows.map Prod.fst = (input.flatMap (·.rows)).filter
      fun r => decide (slot e.config r.time = i)) ∧
    (∀ (j : Nat) (b : Buf F K), input[j]? = some b → ∀ r ∈ b.rows, ∀ cell, (r, cell) ∈ c.rows →
      cell.flags = solverFlags e b r ∧ cell.weights = b.weights r.id ∧
      (∀ ch, cell.data ch =
        weighted e.sqrt (solverFlags e b r ch) (b.weights r.id ch) (b.data r.id ch)) ∧
      cell.models.length = e.names.length ∧
      ∀ (d : Nat) (name : String), e.names[d]? = some name → ∃ v, cell.models[d]? = some v ∧ ∀ ch,
        v ch = weighted e.sqrt (solverFlags e b r ch) (b.weights r.id ch)
          (modelOf e j b name d r.id ch)) ∧
    c.center = e.config.start + ((i : F) + 1 / 2) * e.config.interval ∧
    (i = 0 → c.start = unitSols e) ∧
    (∀ (i' n : Nat) (prev : Sols K), i = i' + 1 → st.sols[i']? = some prev →
      st.iters[i']? = some n → c.start =
        if e.propagate = true ∧ (e.convergedOnly = true → n ≤ e.maxIter) then prev else unitSols e) ∧
    st.sols[i]? = some (e.solve i c).sols ∧ st.iters[i]? = some (e.solve i c).iters ∧
    st.cons[i]? = some (
      let l := (e.solve i c).cons.map fun k => k.map fun ws => ws.map fun w =>
        if e.flagUnconverged = true ∧ e.maxIter < (e.solve i c).iters then
          (if e.flagDivergedOnly = true ∧ 0 ≤ w then w else 0)
        else (if 0 ≤ w then w else 1)
      if l.any fun k => !k.isEmpty then l else []) := by
  have hs := run_spec hg hr h
  simp only [hop, Bool.false_eq_true, if_false] at hs
  obtain ⟨hs, -, -⟩ := hs
  obtain ⟨ops, seen, hi, hgv, hadv, hcalls, -⟩ := hs.core
  have hlt : i < st.calls.length := (List.getElem?_eq_some_iff.1 hc).1
  have hlt' : i < advances ops := by rw [hadv, ← hs.nCalls]; exact hlt
  have hrows : c.rows = ((input.flatMap (·.rows)).filter
      fun r => decide (slot e.config r.time = i)).map fun r => (r, st.mem r.id) := by
    have h1 := congrArg (fun l => l[i]?) hcalls
    simp only [List.getElem?_map, hc, hi.intervals.2 i hlt', Option.map_some,
      Option.some.injEq] at h1
    rw [h1]
    unfold rowsOf
    rw [hgv, ← List.flatMap_def, fulls_rows]
  obtain ⟨hstart, hcenter, -, -⟩ := hs.calls i c hc
  refine ⟨?_, ?_, hcenter, ?_, ?_, ?_, ?_, ?_⟩
  · rw [hrows, List.map_map]
    exact List.map_id _
  · intro j b hb r hrb cell hcell
    rw [hrows] at hcell
    obtain ⟨r', -, hr'⟩ := List.mem_map.1 hcell
    rw [Prod.mk.injEq] at hr'
    obtain ⟨rfl, rfl⟩ := hr'
    have hbm := List.mem_of_getElem? hb
    have hfm : fullBuf e j b ∈ fulls e input := List.mem_of_getElem? (fulls_get' e hb)
    have hmem := hs.mem _ hfm r' (by rw [fullBuf_rows]; exact hrb)
    have hfl : ∀ ch cr, (fullBuf e j b).flags r'.id ch cr = solverFlags e b r' ch cr := by
      intro ch cr
      unfold fullBuf withExtra uvwStep solverFlags
      simp only
      cases hu : e.uvwActive with
      | false => simp
      | true =>
        simp only [if_true, Bool.true_and]
        congr 1
        rw [Bool.eq_iff_iff, List.any_eq_true]
        simp only [Bool.and_eq_true, decide_eq_true_eq]
        constructor
        · rintro ⟨x, hx, hid, hf⟩
          rw [← ids_inj (own_ids hg.ids hbm) hx hrb hid]
          exact hf
        · intro hf
          exact ⟨r', hrb, rfl, hf⟩
    have hfl' : (fullBuf e j b).flags r'.id = solverFlags e b r' := by
      funext ch cr; exact hfl ch cr
    have hw : (fullBuf e j b).weights = b.weights := uvwStep_weights e b
    have hdat : (fullBuf e j b).data = b.data := uvwStep_data e b
    rw [hmem]
    unfold cellOf
    simp only [hfl', hw, hdat]
    refine ⟨trivial, trivial, ?_, ?_, ?_⟩
    · intro ch
      rfl
    · simp [modelFuns]
    · intro d name hd
      refine ⟨weigh e (solverFlags e b r') (b.weights r'.id) (modelOf e j b name d r'.id), ?_, ?_⟩
      · unfold modelFuns
        rw [List.map_map, List.getElem?_map, hd]
        simp only [Option.map_some, Function.comp]
        rw [fullBuf_extra hg.names hd (hr b hbm)]
        rfl
      · intro ch
        rfl
  · rintro rfl
    rw [hstart]
    simp [startSols]
  · rintro i' n prev rfl hprev hn
    rw [hstart]
    have h2 : ∀ {A : Type} (l : List A) (x : A), l[i']? = some x →
        (l.take (i' + 1)).getLast? = some x := by
      intro A l x hx
      have hl := (List.getElem?_eq_some_iff.1 hx).1
      rw [List.getLast?_eq_getElem?, List.length_take, min_eq_left (by omega),
        List.getElem?_take, if_pos (by omega)]
      simpa using hx
    unfold startSols
    rw [h2 _ _ hprev, h2 _ _ hn]
    simp only
    have : ((e.propagate && !(e.convergedOnly && decide (e.maxIter < n))) = true) ↔
        (e.propagate = true ∧ (e.convergedOnly = true → n ≤ e.maxIter)) := by
      cases e.propagate <;> cases e.convergedOnly <;> simp
    simp only [this]
  · rw [hs.sols, List.getElem?_map, List.getElem?_zipIdx, hc]
    simp
  · rw [hs.iters, List.getElem?_map, List.getElem?_zipIdx, hc]
    simp
  · rw [hs.cons, List.getElem?_map, List.getElem?_zipIdx, hc]
    simp only [Option.map_some, Nat.zero_add]
    congr 1
    have hw : finalWeight e (e.solve i c).iters = fun w =>
        if e.flagUnconverged = true ∧ e.maxIter < (e.solve i c).iters then
          (if e.flagDivergedOnly = true ∧ 0 ≤ w then w else 0)
        else (if 0 ≤ w then w else 1) := by
      funext w
      unfold finalWeight
      split_ifs with h1 h2 h3 h4 h5 h6
      all_goals first
        | rfl
        | (exfalso; simp_all; done)
        | (exact max_eq_left h3.2)
        | (exact max_eq_right (le_of_lt (not_le.1 fun h0 => h3 ⟨h2, h0⟩)))
        | (exfalso; exact absurd ‹w < 0› (not_lt.2 ‹0 ≤ w›))
        | (exfalso; exact ‹¬ 0 ≤ w› (not_lt.1 ‹¬ w < 0›))
    unfold storedCons
    rw [hw]

/-- **C138.**  The unit solutions are the unit matrix for every station, direction and solution. -/
theorem unit_start (e : Env F K) (hpol : e.nPol = 1 ∨ e.nPol = 2 ∨ e.nPol = 4) (cb : Nat)
    (hcb : cb < e.nBlocks) (a q : Nat) (ha : a < e.nAnt) (hq : q < e.nSub.sum) :
    jones e.nPol e.nSub.sum ((unitSols e).getD cb []) a q = 1 := by
  have hblock : (unitSols e).getD cb [] = (List.range (e.nSub.sum * e.nAnt * e.nPol)).map fun i =>
      if e.nPol = 4 then (if i % 4 = 0 ∨ i % 4 = 3 then 1 else 0) else 1 := by
    unfold unitSols
    rw [List.getD_eq_getElem?_getD, List.getElem?_replicate, if_pos hcb]; rfl
  have hidx : a * e.nSub.sum + q < e.nSub.sum * e.nAnt := by
    calc a * e.nSub.sum + q < a * e.nSub.sum + e.nSub.sum := by omega
      _ = (a + 1) * e.nSub.sum := by ring
      _ ≤ e.nAnt * e.nSub.sum := Nat.mul_le_mul_right _ ha
      _ = e.nSub.sum * e.nAnt := Nat.mul_comm _ _
  have hval : ∀ p < e.nPol, ((unitSols e).getD cb []).getD ((a * e.nSub.sum + q) * e.nPol + p) 0 =
      if e.nPol = 4 then (if p % 4 = 0 ∨ p % 4 = 3 then (1 : Cx K) else 0) else 1 := by
    intro p hp
    have hlt : (a * e.nSub.sum + q) * e.nPol + p < e.nSub.sum * e.nAnt * e.nPol := by
      calc (a * e.nSub.sum + q) * e.nPol + p < (a * e.nSub.sum + q) * e.nPol + e.nPol := by omega
        _ = (a * e.nSub.sum + q + 1) * e.nPol := by ring
        _ ≤ e.nSub.sum * e.nAnt * e.nPol := Nat.mul_le_mul_right _ hidx
    rw [hblock, List.getD_eq_getElem?_getD, List.getElem?_map, List.getElem?_range hlt]
    simp only [Option.map_some, Option.getD_some]
    by_cases h4 : e.nPol = 4
    · simp only [if_pos h4]
      have : ((a * e.nSub.sum + q) * e.nPol + p) % 4 = p % 4 := by rw [h4]; omega
      rw [this]
    · simp only [if_neg h4]
  unfold jones
  rcases hpol with h | h | h
  · have := hval 0 (by omega)
    rw [h, Nat.mul_one, Nat.add_zero] at this
    simp only [h, if_neg (show ¬ (1 = 4) by decide), if_neg (show ¬ (1 = 2) by decide)] at this ⊢
    rw [this]
    rfl
  · have h0 := hval 0 (by omega)
    have h1 := hval 1 (by omega)
    rw [h] at h0 h1
    simp only [h, if_neg (show ¬ (2 = 4) by decide), if_true] at h0 h1 ⊢
    rw [h0, h1]
    rfl
  · have h0 := hval 0 (by omega)
    have h1 := hval 1 (by omega)
    have h2 := hval 2 (by omega)
    have h3 := hval 3 (by omega)
    rw [h] at h0 h1 h2 h3
    simp only [h, if_true] at h0 h1 h2 h3 ⊢
    rw [h0, h1, h2, h3]
    rfl

/-- **C138.**  Every row of the input is in exactly one call of the solver. -/
theorem row_once {e : Env F K} {input : List (Buf F K)} (hg : Good e input)
    (hr : ∀ b ∈ input, ∀ name ∈ e.reused, (b.extra name).isSome) (hop : e.onlyPredict = false)
    {st : St F K} (h : run e input = .ok st) (b : Buf F K) (hb : b ∈ input) (r : Row F)
    (hrb : r ∈ b.rows) :
    ∃ i : Nat, (∃ c, st.calls[i]? = some c ∧ r ∈ c.rows.map Prod.fst) ∧
      ∀ i' : Nat, (∃ c, st.calls[i']? = some c ∧ r ∈ c.rows.map Prod.fst) → i' = i := by
  have hs := run_spec hg hr h
  simp only [hop, Bool.false_eq_true, if_false] at hs
  obtain ⟨hs, -, hlast⟩ := hs
  have h1 := hlast b hb r hrb
  obtain ⟨j, hj, hjb⟩ := List.getElem_of_mem hb
  have h0 : 0 ≤ slot e.config r.time := by
    have hfm : fullBuf e j b ∈ fulls e input := List.mem_of_getElem?
      (fulls_get' e (show input[j]? = some b by rw [List.getElem?_eq_getElem hj, hjb]))
    exact hs.slots _ hfm r (by rw [fullBuf_rows]; exact hrb)
  have hlt : (slot e.config r.time).toNat < st.calls.length := by rw [hs.nCalls]; omega
  refine ⟨(slot e.config r.time).toNat, ⟨st.calls[(slot e.config r.time).toNat],
    List.getElem?_eq_getElem hlt, ?_⟩, ?_⟩
  · rw [(solver_calls hg hr hop h _ _ (List.getElem?_eq_getElem hlt)).1, List.mem_filter]
    refine ⟨List.mem_flatMap.2 ⟨b, hb, hrb⟩, ?_⟩
    simp only [decide_eq_true_eq]
    omega
  · rintro i' ⟨c, hc, hrc⟩
    rw [(solver_calls hg hr hop h _ _ hc).1, List.mem_filter] at hrc
    simp only [decide_eq_true_eq] at hrc
    omega

/-- **C138.**  There are no calls after the interval of the last row. -/
theorem calls_needed {e : Env F K} {input : List (Buf F K)} (hg : Good e input)
    (hr : ∀ b ∈ input, ∀ name ∈ e.reused, (b.extra name).isSome) (hop : e.onlyPredict = false)
    (hint : 0 < e.config.interval)
    (htidy : ∀ b ∈ input, b.rows ≠ [] ∧ ∀ r ∈ b.rows, 0 ≤ r.interval)
    {st : St F K} (h : run e input = .ok st) (i : Nat) (hi : i < st.calls.length) :
    ∃ b ∈ input, ∃ r ∈ b.rows, (i : Int) ≤ slot e.config r.time := by
  have hs := run_spec hg hr h
  simp only [hop, Bool.false_eq_true, if_false] at hs
  obtain ⟨hs, -, -⟩ := hs
  have hfull : ∀ b ∈ fulls e input, ∃ b' ∈ input, b.rows = b'.rows := by
    intro b hb
    unfold fulls at hb
    obtain ⟨x, hx, rfl⟩ := List.mem_map.1 hb
    obtain ⟨k, hk, hkx⟩ := List.getElem_of_mem hx
    rw [List.getElem_zipIdx] at hkx
    refine ⟨x.1, ?_, fullBuf_rows e _ _⟩
    rw [← hkx]
    exact List.getElem_mem _
  obtain ⟨b, hb, r, hrb, hle⟩ := hs.needed
    ⟨hint, fun b hb => by
      obtain ⟨b', hb', hrows⟩ := hfull b hb
      rw [hrows]
      exact htidy b' hb'⟩ i (by rw [← hs.nCalls]; exact hi)
  obtain ⟨b', hb', hrows⟩ := hfull b hb
  exact ⟨b', hb', r, hrows ▸ hrb, hle⟩

/-! ## C139: the forwarded buffers -/

/-- What `ApplySolutions` does, for any number of solutions per direction. -/
theorem forwarded {e : Env F K} {input : List (Buf F K)} (hg : Good e input)
    (hr : ∀ b ∈ input, ∀ name ∈ e.reused, (b.extra name).isSome) (hop : e.onlyPredict = false)
    {st : St F K} (h : run e input = .ok st) :
    st.out.length = input.length ∧ ∀ (j : Nat) (b : Buf F K), input[j]? = some b → ∃ o : Buf F K,
      st.out[j]? = some o ∧ o.rows = b.rows ∧ o.weights = b.weights ∧
      (∀ name, name ∉ e.names → o.extra name = b.extra name) ∧
      (e.keepModel = false → ∀ name ∈ e.names, o.extra name = none) ∧
      (e.subtract = false → o.data = b.data) ∧
      ∀ r ∈ b.rows, ∃ s, 0 ≤ slot e.config r.time ∧
        st.sols[(slot e.config r.time).toNat]? = some s ∧
        (e.subtract = true → ∀ ch, o.data r.id ch = b.data r.id ch -
          (e.names.zipIdx.map fun p =>
            applied e s p.2 r ch (modelOf e j b p.1 p.2 r.id ch)).sum) ∧
        (e.keepModel = true → ∀ (d : Nat) (name : String), e.names[d]? = some name →
          ∃ v, o.extra name = some v ∧
            ∀ ch, v r.id ch = applied e s d r ch (modelOf e j b name d r.id ch)) := by
  have hs := run_spec hg hr h
  simp only [hop, Bool.false_eq_true, if_false] at hs
  obtain ⟨hs, hout, hlast⟩ := hs
  refine ⟨by rw [hout, List.length_map, fulls_length], ?_⟩
  intro j b hb
  have hbm := List.mem_of_getElem? hb
  have hfg := fulls_get' e hb
  refine ⟨final e st.sols (fullBuf e j b), by rw [hout, List.getElem?_map, hfg]; rfl,
    fullBuf_rows e j b, uvwStep_weights e b, ?_, ?_, ?_, ?_⟩
  · intro name hn
    unfold final
    simp only [hn, if_false]
    unfold fullBuf withExtra
    have : name ∉ e.steps := fun h0 => hn (List.mem_append.2 (.inl h0))
    simp only [this, if_false]
  · intro hk name hn
    unfold final
    simp [hn, hk]
  · intro hsub
    unfold final
    simp only [hsub, Bool.false_eq_true, if_false]
    exact uvwStep_data e b
  · intro r hrb
    have h1 := hlast b hbm r hrb
    have h0 : 0 ≤ slot e.config r.time := hs.slots _ (List.mem_of_getElem? hfg) r
      (by rw [fullBuf_rows]; exact hrb)
    have hlt : (slot e.config r.time).toNat < st.sols.length := by omega
    have hat : solAt e st.sols r.time = some st.sols[(slot e.config r.time).toNat] := by
      unfold solAt
      rw [if_pos h0, List.getElem?_eq_getElem hlt]
    have hst : ∀ (d : Nat) (name : String), e.names[d]? = some name → keepUnweighted e = true →
        ∃ v, (staged e st.sols (fullBuf e j b)).extra name = some v ∧ ∀ ch, v r.id ch =
          applied e st.sols[(slot e.config r.time).toNat] d r ch (modelOf e j b name d r.id ch) := by
      intro d name hd hk
      have hmem : name ∈ e.names := List.mem_of_getElem? hd
      refine ⟨stagedVis e st.sols (e.names.idxOf name) (fullBuf e j b).rows (modelOf e j b name d),
        ?_, ?_⟩
      · unfold staged
        simp only [withExtra, hmem, hk, if_true]
        rw [fullBuf_extra hg.names hd (hr b hbm), Option.map_some]
      · intro ch
        unfold stagedVis
        rw [fullBuf_rows, find_own (own_ids hg.ids hbm) hrb]
        simp only
        rw [hat]
        simp only
        rw [corrected_applied, names_idx hg.names hd]
    refine ⟨_, h0, List.getElem?_eq_getElem hlt, ?_, ?_⟩
    · intro hsub ch
      have hk : keepUnweighted e = true := by simp [keepUnweighted, hsub]
      have e1 : (final e st.sols (fullBuf e j b)).data r.id ch =
          (fullBuf e j b).data r.id ch - modelSum e (staged e st.sols (fullBuf e j b)) r.id ch := by
        unfold final
        simp only [hsub, if_true]
      have e2 : (fullBuf e j b).data = b.data := uvwStep_data e b
      rw [e1, e2]
      congr 1
      unfold modelSum
      congr 1
      apply List.ext_getElem?
      intro d
      rw [List.getElem?_map, List.getElem?_map, List.getElem?_zipIdx]
      cases hd : e.names[d]? with
      | none => rfl
      | some name =>
        obtain ⟨v, hv1, hv2⟩ := hst d name hd hk
        simp only [Option.map_some, Nat.zero_add, hv1, Option.getD_some]
        rw [hv2 ch]
    · intro hkm d name hd
      obtain ⟨v, hv1, hv2⟩ := hst d name hd (by simp [keepUnweighted, hkm])
      refine ⟨v, ?_, hv2⟩
      unfold final
      simp only [List.mem_of_getElem? hd, if_true, hkm]
      exact hv1

/-- The Jones matrix of a station for a direction and one of its solutions within the interval, in the
vector of a channel block: from slow to fast, stations, solutions of all directions, polarizations. -/
def stationJones (e : Env F K) (s : List (Cx K)) (station d sub : Nat) : M2 K :=
  jones e.nPol e.nSub.sum s station ((e.nSub.take d).sum + sub)

/-- **C139 (partial).**  With one solution per direction, the run of BdaDdeCal gives the next step every
buffer, once and in order, with the same rows and weights, and with the data minus the models of all
directions to which the solutions of both stations of the baseline, for the direction, the channel
and the interval of the row, are applied.  Missing: more solutions per direction (see
`sub_solutions`). -/
theorem subtracted_partial {e : Env F K} {input : List (Buf F K)} (hg : Good e input)
    (hr : ∀ b ∈ input, ∀ name ∈ e.reused, (b.extra name).isSome) (hop : e.onlyPredict = false)
    (hsub : e.subtract = true) (hone : e.nSub = List.replicate e.names.length 1)
    {st : St F K} (h : run e input = .ok st) :
    st.out.length = input.length ∧ ∀ (j : Nat) (b : Buf F K), input[j]? = some b → ∃ o : Buf F K,
      st.out[j]? = some o ∧ o.rows = b.rows ∧ o.weights = b.weights ∧
      ∀ r ∈ b.rows, ∃ s, st.sols[(slot e.config r.time).toNat]? = some s ∧
        ∀ ch, o.data r.id ch = b.data r.id ch - (e.names.zipIdx.map fun p =>
          stationJones e (s.getD (e.applyBlock r.bl ch) []) (e.ant1 r.bl) p.2 0 *
            modelOf e j b p.1 p.2 r.id ch *
            (stationJones e (s.getD (e.applyBlock r.bl ch) []) (e.ant2 r.bl) p.2 0).herm).sum := by
  obtain ⟨h1, h2⟩ := forwarded hg hr hop h
  refine ⟨h1, ?_⟩
  intro j b hb
  obtain ⟨o, ho, hrows, hw, -, -, -, hx⟩ := h2 j b hb
  refine ⟨o, ho, hrows, hw, ?_⟩
  intro r hrb
  obtain ⟨s, -, hs, hd, -⟩ := hx r hrb
  refine ⟨s, hs, ?_⟩
  intro ch
  rw [hd hsub ch]
  congr 1
  congr 1
  apply List.map_congr_left
  rintro ⟨name, d⟩ hp
  have hlt : d < e.names.length := by
    have := List.mem_zipIdx_iff_getElem?.1 hp
    exact (List.getElem?_eq_some_iff.1 this).1
  have hj : ∀ station, stationJones e (s.getD (e.applyBlock r.bl ch) []) station d 0 =
      jones e.nPol e.names.length (s.getD (e.applyBlock r.bl ch) []) station d := by
    intro station
    unfold stationJones
    rw [hone]
    simp [List.take_replicate, min_eq_left hlt.le]
  unfold applied
  simp only [hj]

/-! ## C140: flags -/

/-- **C140 (partial).**  Without limits on the UVW coordinates the flags of the buffers given to the
next step are those of the input.  Missing: with limits, see `flags_change`. -/
theorem flags_partial {e : Env F K} {input : List (Buf F K)} (hg : Good e input)
    (hr : ∀ b ∈ input, ∀ name ∈ e.reused, (b.extra name).isSome) (huvw : e.uvwActive = false)
    {st : St F K} (h : run e input = .ok st) :
    st.out.map (·.flags) = input.map (·.flags) := by
  have hs := run_spec hg hr h
  have hfl : ∀ g : Buf F K → Buf F K, (∀ b, (g b).flags = b.flags) →
      ((fulls e input).map g).map (·.flags) = input.map (·.flags) := by
    intro g hgf
    apply List.ext_getElem?
    intro j
    rw [List.map_map, List.getElem?_map, List.getElem?_map, fulls_get]
    cases input[j]? with
    | none => rfl
    | some b =>
      simp only [Option.map_some, Function.comp, hgf]
      unfold fullBuf withExtra uvwStep
      simp [huvw]
  split_ifs at hs with hop
  · rw [hs.1]
    apply hfl
    intro b
    unfold predicted
    split_ifs <;> rfl
  · rw [hs.2.1]
    exact hfl _ fun b => rfl

/-- **C140.**  What happens in general: the limits on the UVW coordinates set flags in the output, of
exactly the rows and channels that they exclude from the solve. -/
theorem flags_of {e : Env F K} {input : List (Buf F K)} (hg : Good e input)
    (hr : ∀ b ∈ input, ∀ name ∈ e.reused, (b.extra name).isSome)
    {st : St F K} (h : run e input = .ok st) (j : Nat) (b : Buf F K) (hb : input[j]? = some b) :
    ∃ o, st.out[j]? = some o ∧ ∀ r ∈ b.rows, o.flags r.id = solverFlags e b r := by
  have hs := run_spec hg hr h
  have hbm := List.mem_of_getElem? hb
  have hfl : ∀ r ∈ b.rows, (fullBuf e j b).flags r.id = solverFlags e b r := by
    intro r hrb
    funext ch cr
    unfold fullBuf withExtra uvwStep solverFlags
    simp only
    cases hu : e.uvwActive with
    | false => simp
    | true =>
      simp only [if_true, Bool.true_and]
      congr 1
      rw [Bool.eq_iff_iff, List.any_eq_true]
      simp only [Bool.and_eq_true, decide_eq_true_eq]
      constructor
      · rintro ⟨x, hx, hid, hf⟩
        rw [← ids_inj (own_ids hg.ids hbm) hx hrb hid]
        exact hf
      · intro hf
        exact ⟨r, hrb, rfl, hf⟩
  split_ifs at hs with hop
  · refine ⟨predicted e (fullBuf e j b), by rw [hs.1, List.getElem?_map, fulls_get' e hb]; rfl, ?_⟩
    intro r hrb
    rw [← hfl r hrb]
    unfold predicted
    split_ifs <;> rfl
  · exact ⟨final e st.sols (fullBuf e j b),
      by rw [hs.2.1, List.getElem?_map, fulls_get' e hb]; rfl, hfl⟩

/-! ## C141: only prediction -/

/-- **C141.**  With `onlypredict` there is no solve, and the next step gets every buffer, once and in
order, with the same rows and weights: with the sum of the models of all directions as data and
without the models, or, if the models are kept, with the data of the input and the models. -/
theorem only_predict {e : Env F K} {input : List (Buf F K)} (hg : Good e input)
    (hr : ∀ b ∈ input, ∀ name ∈ e.reused, (b.extra name).isSome) (hop : e.onlyPredict = true)
    {st : St F K} (h : run e input = .ok st) :
    st.calls = [] ∧ st.out.length = input.length ∧
    ∀ (j : Nat) (b : Buf F K), input[j]? = some b → ∃ o : Buf F K,
      st.out[j]? = some o ∧ o.rows = b.rows ∧ o.weights = b.weights ∧
      (∀ name, name ∉ e.names → o.extra name = b.extra name) ∧
      (e.keepModel = true → o.data = b.data ∧ ∀ (d : Nat) (name : String), e.names[d]? = some name →
        o.extra name = some (modelOf e j b name d)) ∧
      (e.keepModel = false → (∀ name ∈ e.names, o.extra name = none) ∧ ∀ i ch, o.data i ch =
        (e.names.zipIdx.map fun p => modelOf e j b p.1 p.2 i ch).sum) := by
  have hs := run_spec hg hr h
  simp only [hop, if_true] at hs
  refine ⟨hs.2, by rw [hs.1, List.length_map, fulls_length], ?_⟩
  intro j b hb
  have hbm := List.mem_of_getElem? hb
  refine ⟨predicted e (fullBuf e j b), by rw [hs.1, List.getElem?_map, fulls_get' e hb]; rfl,
    ?_, ?_, ?_, ?_, ?_⟩
  · rw [← fullBuf_rows e j b]
    unfold predicted
    split_ifs <;> rfl
  · rw [← uvwStep_weights e b]
    unfold predicted
    split_ifs <;> rfl
  · intro name hn
    have h1 : (fullBuf e j b).extra name = b.extra name := by
      unfold fullBuf withExtra
      have : name ∉ e.steps := fun h0 => hn (List.mem_append.2 (.inl h0))
      simp only [this, if_false]
    rw [← h1]
    unfold predicted
    split_ifs
    · rfl
    · simp [hn]
  · intro hk
    unfold predicted
    simp only [hk, if_true]
    refine ⟨uvwStep_data e b, ?_⟩
    intro d name hd
    exact fullBuf_extra hg.names hd (hr b hbm)
  · intro hk
    unfold predicted
    simp only [hk, Bool.false_eq_true, if_false]
    refine ⟨fun name hn => by simp [hn], ?_⟩
    intro i ch
    unfold modelSum
    congr 1
    apply List.ext_getElem?
    intro d
    rw [List.getElem?_map, List.getElem?_map, List.getElem?_zipIdx]
    cases hd : e.names[d]? with
    | none => rfl
    | some name =>
      simp only [Option.map_some, Nat.zero_add]
      rw [fullBuf_extra hg.names hd (hr b hbm)]
      rfl

/-! ## C142: antenna weights -/

/-- The mean of the weights of a row in a channel block, divided by the number of antennas, with zero
for flagged values; the mean is over all channels of the row. -/
def rowMean (e : Env F K) (p : Row F × Cell K) (block : Nat) : K :=
  (((List.range (e.nChan p.1.bl)).filter fun ch =>
      decide (SolveData.chanBlockIndex ch (e.nChan p.1.bl) e.nBlocks = some block)).map fun ch =>
    ((List.range 4).map fun cr => if p.2.flags ch cr then 0 else p.2.weights ch cr).sum).sum /
      ((4 * e.nChan p.1.bl * e.nAnt : Nat) : K)

theorem sum_mul (l : List Nat) (f : Nat → K) (c : K) :
    (l.map fun x => f x * c).sum = (l.map f).sum * c := by
  induction l with
  | nil => simp
  | cons x l ih => rw [List.map_cons, List.sum_cons, List.map_cons, List.sum_cons, ih, add_mul]

theorem rowWeight_mean (e : Env F K) (p : Row F × Cell K) (block : Nat) :
    rowWeight e p block = rowMean e p block := by
  unfold rowWeight rowMean
  rw [sum_mul _ (channelWeight p.2), mul_one_div]
  congr 2
  apply List.map_congr_left
  intro ch _
  simp [channelWeight, List.range_succ, add_assoc]

/-- **C142 (partial).**  Without autocorrelations, the weight of an antenna that is in a row of the
interval is the mean, over the rows of the interval with that antenna, of the mean weights of these
rows.  Missing: autocorrelations and antennas without rows, see `autocorrelation_bias` and
`no_rows`. -/
theorem antenna_weights_partial {e : Env F K} {input : List (Buf F K)} (hg : Good e input)
    (hr : ∀ b ∈ input, ∀ name ∈ e.reused, (b.extra name).isSome) (hop : e.onlyPredict = false)
    {st : St F K} (h : run e input = .ok st) (i : Nat) (c : Call F K) (hc : st.calls[i]? = some c)
    (hcross : ∀ p ∈ c.rows, e.ant1 p.1.bl ≠ e.ant2 p.1.bl) (ant block : Nat)
    (hsome : ∃ p ∈ c.rows, e.ant1 p.1.bl = ant ∨ e.ant2 p.1.bl = ant) :
    c.weights ant block = some (
      (((c.rows.filter fun p => decide (e.ant1 p.1.bl = ant ∨ e.ant2 p.1.bl = ant)).map fun p =>
        rowMean e p block).sum) /
      ((c.rows.filter fun p => decide (e.ant1 p.1.bl = ant ∨ e.ant2 p.1.bl = ant)).length : K)) := by
  have hs := run_spec hg hr h
  simp only [hop, Bool.false_eq_true, if_false] at hs
  obtain ⟨-, -, hw, -⟩ := hs.1.calls i c hc
  have hcount : ∀ rows : List (Row F × Cell K), (∀ p ∈ rows, e.ant1 p.1.bl ≠ e.ant2 p.1.bl) →
      intervalCount e rows ant =
        (rows.filter fun p => decide (e.ant1 p.1.bl = ant ∨ e.ant2 p.1.bl = ant)).length := by
    intro rows
    induction rows with
    | nil => intro _; rfl
    | cons p rows ih =>
      intro hx
      have hi := ih fun q hq => hx q (by simp [hq])
      have hp := hx p (by simp)
      unfold intervalCount at hi ⊢
      simp only [List.filter_cons]
      by_cases h1 : e.ant1 p.1.bl = ant
      · have h2 : ¬ e.ant2 p.1.bl = ant := fun h2 => hp (h1.trans h2.symm)
        simp only [h1, h2, decide_true, decide_false, if_true, if_false, Bool.false_eq_true, true_or,
          List.length_cons]
        omega
      · by_cases h2 : e.ant2 p.1.bl = ant
        · simp only [h1, h2, decide_true, decide_false, if_true, if_false, Bool.false_eq_true,
            or_true, List.length_cons]
          omega
        · simp only [h1, h2, decide_false, if_false, Bool.false_eq_true, or_self]
          omega
  have hpos : (c.rows.filter fun p => decide (e.ant1 p.1.bl = ant ∨ e.ant2 p.1.bl = ant)).length ≠
      0 := by
    obtain ⟨p, hp, hpa⟩ := hsome
    intro h0
    have := List.eq_nil_of_length_eq_zero h0
    have hm : p ∈ c.rows.filter fun p => decide (e.ant1 p.1.bl = ant ∨ e.ant2 p.1.bl = ant) :=
      List.mem_filter.2 ⟨hp, by simpa using hpa⟩
    rw [this] at hm
    cases hm
  rw [hw]
  unfold antennaWeight
  simp only
  rw [hcount c.rows hcross, if_neg hpos]
  congr 2
  unfold weightSum
  have hf : (c.rows.filter fun p => decide (e.ant1 p.1.bl ≠ e.ant2 p.1.bl) &&
      (decide (e.ant1 p.1.bl = ant) || decide (e.ant2 p.1.bl = ant))) =
      c.rows.filter fun p => decide (e.ant1 p.1.bl = ant ∨ e.ant2 p.1.bl = ant) := by
    apply List.filter_congr
    intro p hp
    simp [hcross p hp]
  rw [hf]
  congr 1
  apply List.map_congr_left
  intro p _
  exact rowWeight_mean e p block

/-! ## C143: success -/

/-- **C143.**  For rows of known baselines that start at or after the start of the observation, with the
start times of the rows of each baseline in order and at least as many channels as channel blocks,
the run succeeds: no exception and no undefined behaviour, whatever the delays of the sub-steps. -/
theorem succeeds {e : Env F K} {input : List (Buf F K)} (hg : Good e input)
    (hr : ∀ b ∈ input, ∀ name ∈ e.reused, (b.extra name).isSome) (hint : 0 < e.config.interval)
    (hbl : 0 < e.nBl)
    (hrow : ∀ b ∈ input, ∀ r ∈ b.rows, r.bl < e.nBl ∧ 0 ≤ r.interval ∧
      e.config.start ≤ r.time - r.interval / 2 ∧ e.nBlocks ≤ e.nChan r.bl)
    (hord : (input.flatMap (·.rows)).Pairwise fun r r' => r.bl = r'.bl →
      r.time - r.interval / 2 ≤ r'.time - r'.interval / 2) :
    ∃ st, run e input = .ok st := by
  apply run_total hint hbl hg hr
  refine ⟨?_, ?_, ?_, hord, ?_⟩ <;> intro r hrb <;> obtain ⟨b, hb, hrb⟩ := List.mem_flatMap.1 hrb
  · exact (hrow b hb r hrb).1
  · exact (hrow b hb r hrb).2.1
  · exact (hrow b hb r hrb).2.2.1
  · intro _
    exact (hrow b hb r hrb).2.2.2

/-! ## An example -/

/-- The matrix with one value on its diagonal. -/
def scal (x : ℚ) : M2 ℚ := ⟨⟨x, 0⟩, 0, 0, ⟨x, 0⟩⟩

/-- Two predicted directions, of which the first comes out one buffer later, and a reused one; two
baselines of three antennas, intervals of 10 seconds. -/
def exEnv : Env ℚ ℚ where
  config := { start := 100, interval := 10 }
  steps := ["a", "b"]
  reused := ["m"]
  predict := fun d j _ i _ => scal (d + 2 * j + 3 * i + 1)
  released := fun d n => if d = 0 then n - 1 else n
  uvwActive := false
  uvwFlag := fun r ch => decide (r.bl = 1 ∧ ch = 0)
  nBl := 2
  nAnt := 3
  nBlocks := 1
  nPol := 1
  nSub := [1, 1, 1]
  nChan := fun _ => 1
  ant1 := fun bl => bl
  ant2 := fun bl => bl + 1
  applyBlock := fun _ _ => 0
  onlyPredict := false
  subtract := true
  keepModel := false
  propagate := true
  convergedOnly := false
  flagUnconverged := false
  flagDivergedOnly := false
  maxIter := 10
  sqrt := id
  solve := fun i c =>
    ⟨[(List.range 9).map fun k => ⟨(k + 1 + 10 * i + c.rows.length : Nat), 0⟩], 5, []⟩

/-- A buffer with some rows and the model `m`. -/
def exBuf (rows : List (Row ℚ)) : Buf ℚ ℚ where
  rows := rows
  data := fun i _ => scal (1000 + i)
  flags := fun i _ cr => decide (i = 2 ∧ cr = 1)
  weights := fun i _ _ => i + 1
  extra := fun name => if name = "m" then some fun i _ => scal (i + 7) else none

/-- The first baseline has short rows; the last row of the second baseline is in the second buffer. -/
def exInput : List (Buf ℚ ℚ) :=
  [exBuf [⟨0, 102, 4, 0⟩, ⟨1, 105, 10, 1⟩], exBuf [⟨2, 106, 4, 0⟩, ⟨3, 115, 10, 1⟩],
    exBuf [⟨4, 112, 4, 0⟩]]

theorem exBuf_fresh (e : Env ℚ ℚ) (he : "m" ∉ e.steps) (input : List (List (Row ℚ))) :
    Fresh e (input.map exBuf) := by
  intro b hb name hname
  obtain ⟨rows, -, rfl⟩ := List.mem_map.1 hb
  unfold exBuf
  simp only
  rw [if_neg]
  rintro rfl
  exact he hname

theorem exGood : Good exEnv exInput := by
  refine ⟨by decide, by decide, ?_, exBuf_fresh exEnv (by decide)
    [[⟨0, 102, 4, 0⟩, ⟨1, 105, 10, 1⟩], [⟨2, 106, 4, 0⟩, ⟨3, 115, 10, 1⟩], [⟨4, 112, 4, 0⟩]], ?_⟩
  · intro d _ n
    unfold exEnv
    simp only
    split_ifs <;> omega
  · unfold IdsNodup exInput exBuf
    decide +kernel

theorem exReused : ∀ b ∈ exInput, ∀ name ∈ exEnv.reused, (b.extra name).isSome := by
  intro b hb name hname
  have : name = "m" := by simpa [exEnv] using hname
  subst this
  simp only [exInput, List.mem_cons, List.not_mem_nil, or_false] at hb
  rcases hb with rfl | rfl | rfl <;> rfl

/-- All hypotheses hold for the example. -/
theorem exRun : ∃ st, run exEnv exInput = .ok st := by
  refine succeeds exGood exReused (by simp [exEnv]) (by simp [exEnv]) ?_ ?_
  · intro b hb r hr
    simp only [exInput, List.mem_cons, List.not_mem_nil, or_false] at hb
    rcases hb with rfl | rfl | rfl <;> simp only [exBuf, List.mem_cons, List.not_mem_nil, or_false] at hr
    · rcases hr with rfl | rfl <;> simp only [exEnv] <;> norm_num
    · rcases hr with rfl | rfl <;> simp only [exEnv] <;> norm_num
    · subst hr; simp only [exEnv]; norm_num
  · unfold exInput exBuf
    decide +kernel

/-- What is seen of a run: the rows of the calls, the weights of the antennas, the first channel of the
output and its flags. -/
structure Brief where
  calls : List (List Nat)
  centers : List ℚ
  weights : List (List (Option ℚ))
  models : List (List (List ℚ))
  out : List (List (ℚ × Bool × List Bool))
  deriving DecidableEq

def brief (names : List String) (nAnt : Nat) (st : St ℚ ℚ) : Brief where
  calls := st.calls.map fun c => c.rows.map fun p => p.1.id
  centers := st.calls.map (·.center)
  weights := st.calls.map fun c => (List.range nAnt).map fun a => c.weights a 0
  models := st.calls.map fun c => c.rows.map fun p => p.2.models.map fun v => (v 0).a.re
  out := st.out.map fun b => b.rows.map fun r =>
    ((b.data r.id 0).a.re, b.flags r.id 0 0, names.map fun n => (b.extra n).isSome)

def briefRun (e : Env ℚ ℚ) (input : List (Buf ℚ ℚ)) : Option Brief :=
  (run e input).toOption.map (brief e.names e.nAnt)

example : briefRun exEnv exInput = some
    { calls := [[0, 1, 2], [3, 4]]
      centers := [105, 115]
      weights := [[some (13 / 24), some (7 / 12), some (2 / 3)],
        [some (5 / 3), some (3 / 2), some (4 / 3)]]
      models := [[[1, 2, 7], [8, 10, 16], [0, 0, 0]], [[48, 52, 40], [85, 90, 55]]]
      out := [[(514, false, [false, false, false]), (-583, false, [false, false, false])],
        [(-136, false, [false, false, false]), (-10845, false, [false, false, false])],
        [(-9786, false, [false, false, false])]] } := by
  decide +kernel

example : ∃ st, run exEnv exInput = .ok st ∧ st.out.length = 3 := by
  obtain ⟨st, h⟩ := exRun
  exact ⟨st, h, (forwarded exGood exReused rfl h).1⟩
example : exEnv.nSub = List.replicate exEnv.names.length 1 := by decide
example : ∀ b ∈ exInput, b.rows ≠ [] ∧ ∀ r ∈ b.rows, 0 ≤ r.interval := by
  unfold exInput exBuf
  decide +kernel
/-- With `onlypredict`: the sums of the models. -/
example : (briefRun { exEnv with onlyPredict := true } exInput).map (fun b => b.out) =
    some ([[(10, false, [false, false, false]), (17, false, [false, false, false])],
      [(28, false, [false, false, false]), (35, false, [false, false, false])],
      [(46, false, [false, false, false])]]) := by
  decide +kernel

/-! ## What goes wrong -/

/-- One direction with two solutions per interval; two antennas. -/
def exSub : Env ℚ ℚ :=
  { exEnv with
    steps := ["a"]
    reused := []
    nBl := 1
    nAnt := 2
    nSub := [2]
    solve := fun _ _ => ⟨[[⟨2, 0⟩, ⟨3, 0⟩, ⟨5, 0⟩, ⟨7, 0⟩]], 5, []⟩ }

def exSubInput : List (Buf ℚ ℚ) := [exBuf [⟨0, 102, 4, 0⟩]]

theorem exSubGood : Good exSub exSubInput := by
  refine ⟨by decide, by decide, ?_, exBuf_fresh exSub (by decide) [[⟨0, 102, 4, 0⟩]], ?_⟩
  · intro d _ n
    unfold exSub exEnv
    simp only
    split_ifs <;> omega
  · unfold IdsNodup exSubInput exBuf
    decide +kernel

/-- The visibility that leaves the step, and those with a pair of solutions of the two stations. -/
def exSubOut (k1 k2 : Nat) : Option (ℚ × ℚ) :=
  (run exSub exSubInput).toOption.bind fun st => st.out[0]?.bind fun o => st.sols[0]?.map fun s =>
    ((o.data 0 0).a.re, ((exBuf [⟨0, 102, 4, 0⟩]).data 0 0 -
      stationJones exSub (s.getD 0 []) 0 0 k1 * scal 1 *
        (stationJones exSub (s.getD 0 []) 1 0 k2).herm).a.re)

/-- **C139 fails** for more than one solution per direction: the visibility of the baseline of stations 0
and 1 is corrected with two solutions of station 0, 2 and 3; with any of the solutions of both
stations, (2 or 3) and (5 or 7), the result would be another one.  There is no exception, as
there is in DDECal. -/
theorem sub_solutions :
    exSub.nSub.length = exSub.names.length ∧
    (List.range 2).flatMap (fun k1 => (List.range 2).map fun k2 => exSubOut k1 k2) =
      [some (994, 990), some (994, 986), some (994, 985), some (994, 979)] := by
  decide +kernel

/-- **C140 fails** with limits on the UVW coordinates: rows that are only to be left out of the solve
are flagged in the output, contrary to the comment at BdaDdeCal.cc:442-443 and to DDECal. -/
theorem flags_change :
    (briefRun { exEnv with uvwActive := true } exInput).map (fun b => b.out.map fun l =>
      l.map fun x => x.2.1) = some [[false, true], [false, true], [false]] ∧
    exInput.map (fun b => b.rows.map fun r => b.flags r.id 0 0) =
      [[false, false], [false, false], [false]] := by
  decide +kernel

/-- Baselines: the autocorrelation of antenna 0, and the baseline of antennas 0 and 1. -/
def exAuto : Env ℚ ℚ := { exEnv with ant1 := fun _ => 0, ant2 := fun bl => bl }

/-- **C142 fails** with autocorrelations: all visibilities have weight 1, but antenna 0 gets one third
of the weight of antenna 1.  The weight of antenna 2, of which there are no rows, is zero divided by
zero. -/
theorem autocorrelation_bias :
    (briefRun exAuto [{ exBuf [⟨0, 105, 10, 0⟩, ⟨1, 105, 10, 1⟩] with weights := fun _ _ _ => 1 }]).map
      (·.weights) = some [[some (1 / 9), some (1 / 3), none]] := by
  decide +kernel

/-- **C142 fails** for every antenna that has no rows in an interval. -/
theorem no_rows (e : Env F K) (rows : List (Row F × Cell K)) (ant block : Nat)
    (h : ∀ p ∈ rows, e.ant1 p.1.bl ≠ ant ∧ e.ant2 p.1.bl ≠ ant) :
    antennaWeight e rows ant block = none := by
  unfold antennaWeight intervalCount
  have h1 : (rows.filter fun p => decide (e.ant1 p.1.bl = ant)) = [] := by
    rw [List.filter_eq_nil_iff]
    intro p hp
    simp [(h p hp).1]
  have h2 : (rows.filter fun p => decide (e.ant2 p.1.bl = ant)) = [] := by
    rw [List.filter_eq_nil_iff]
    intro p hp
    simp [(h p hp).2]
  rw [h1, h2]
  rfl

/-- Two directions that start with the same patch have the same name.  The results of the second are
stored beyond the end of the queue: undefined behaviour, for any input. -/
theorem same_name_ub (e : Env F K) (name : String) (hs : e.steps = [name, name]) (hr : e.reused = [])
    (hrel : ∀ d, e.released d 0 = 0 ∧ e.released d 1 = 1) (b : Buf F K) (rest : List (Buf F K))
    (hb : b.extra name = none) : run e (b :: rest) = .error .ub := by
  have hx : (uvwStep e b).extra name = none := by rw [uvwStep_extra]; exact hb
  have hp : process e (init e) b = .error .ub := by
    unfold process
    simp only [hr, List.all_nil, Bool.true_eq_false, if_false]
    have : extractResults e (fun d => e.released d (init e).sent.length)
        (fun d => e.released d ((init e).sent.length + 1)) ((init e).sent ++ [b.rows])
        ((init e).queue ++ [uvwStep e b]) = .error .ub := by
      unfold extractResults
      rw [hs]
      simp [init, extractDir, newResults, hrel, freeSlot, hasData, hx, placeResults, setExtra, bind,
        Except.bind]
    rw [this]
  unfold run processAll
  rw [hp]

end DP3.BdaDdeCal
