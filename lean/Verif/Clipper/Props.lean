import Verif.Clipper.Model
import Mathlib.Data.List.Sort
import Mathlib.Data.List.Nodup
import Mathlib.Tactic.SplitIfs

/-!
# Properties of the clipper (C98)
-/

namespace DP3.Clipper

set_option linter.unusedSectionVars false
set_option linter.unusedSimpArgs false

private theorem advance_spec (rows : List Nat) (hrows : rows.Pairwise (· < ·)) (k i : Nat) (hik : i ≤ k) (hk : k < rows.length) :
    advance rows[k] (rows.drop i) i = some k := by
  induction hd : k - i generalizing i with
  | zero =>
    have : i = k := by omega
    subst this
    rw [List.drop_eq_getElem_cons hk, advance, if_neg (Nat.lt_irrefl _)]
  | succ d ih =>
    have hi : i < rows.length := by omega
    rw [List.drop_eq_getElem_cons hi, advance, if_pos (List.pairwise_iff_getElem.mp hrows i k hi hk (by omega))]
    exact ih (i + 1) (by omega) (by omega)

/-- C98. If the row numbers increase, the filtered row numbers lead back to the selected baselines. -/
theorem rowIndices_spec (rows : List Nat) (hrows : rows.Pairwise (· < ·)) (selected : List Nat)
    (hsel : selected.Pairwise (· < ·)) (hlt : ∀ i ∈ selected, i < rows.length) :
    rowIndices rows (selected.map fun i => rows.getD i 0) 0 = some selected := by
  have gen : ∀ (sel : List Nat) (i : Nat), sel.Pairwise (· < ·) → (∀ k ∈ sel, i ≤ k ∧ k < rows.length) →
      rowIndices rows (sel.map fun i => rows.getD i 0) i = some sel := by
    intro sel
    induction sel with
    | nil => intro i _ _; rfl
    | cons k sel ih =>
      intro i hp h
      obtain ⟨h1, h2⟩ := h k (by simp)
      rw [List.pairwise_cons] at hp
      simp only [List.map_cons, rowIndices]
      have hg : rows.getD k 0 = rows[k] := by simp [List.getD_eq_getElem?_getD, List.getElem?_eq_getElem h2]
      rw [hg, advance_spec rows hrows k i h1 h2]
      simp only
      rw [ih (k + 1) hp.2 fun x hx => ⟨hp.1 x hx, (h x (by simp [hx])).2⟩]
      rfl
  exact gen selected 0 hsel fun k hk => ⟨Nat.zero_le _, hlt k hk⟩

section
variable {K : Type} [LinearOrder K]

private theorem assignRows_other (indices : List Nat) (channel : Nat) (result : Nat → Nat → Bool) (flags : Flags)
    (bl ch corr : Nat) (h : ch ≠ channel ∨ bl ∉ indices) :
    assignRows indices channel result flags bl ch corr = flags bl ch corr := by
  unfold assignRows
  have gen : ∀ (l : List (Nat × Nat)) (flags : Flags), (∀ p ∈ l, ch ≠ channel ∨ bl ≠ p.1) →
      l.foldl (assignRow channel result) flags bl ch corr = flags bl ch corr := by
    intro l
    induction l with
    | nil => intro flags _; rfl
    | cons p l ih =>
      intro flags h
      rw [List.foldl_cons, ih _ fun q hq => h q (by simp [hq]), assignRow, if_neg]
      rintro ⟨h1, h2⟩
      rcases h p (by simp) with h | h
      · exact h h2
      · exact h h1
  refine gen _ _ fun p hp => h.imp_right fun hb he => hb ?_
  rw [he]
  have := List.mem_map_of_mem (f := Prod.fst) hp
  simpa using this

private theorem assignRows_same (indices : List Nat) (hnd : indices.Nodup) (channel : Nat) (result : Nat → Nat → Bool)
    (flags : Flags) (bl j corr : Nat) (hj : indices[j]? = some bl) :
    assignRows indices channel result flags bl channel corr = result j corr := by
  unfold assignRows
  have gen : ∀ (l : List Nat) (n : Nat) (flags : Flags) (j : Nat), l.Nodup → l[j]? = some bl →
      (l.zipIdx n).foldl (assignRow channel result) flags bl channel corr = result (n + j) corr := by
    intro l
    induction l with
    | nil => intro n flags j _ h; simp at h
    | cons x l ih =>
      intro n flags j hnd h
      rw [List.nodup_cons] at hnd
      rw [List.zipIdx_cons, List.foldl_cons]
      cases j with
      | zero =>
        simp only [List.getElem?_cons_zero, Option.some.injEq] at h
        subst h
        have : ∀ (l' : List (Nat × Nat)) (flags : Flags), (∀ p ∈ l', p.1 ≠ x) →
            l'.foldl (assignRow channel result) flags x channel corr = flags x channel corr := by
          intro l'
          induction l' with
          | nil => intro _ _; rfl
          | cons p l' ih' =>
            intro flags hp
            rw [List.foldl_cons, ih' _ fun q hq => hp q (by simp [hq]), assignRow, if_neg]
            rintro ⟨h1, -⟩
            exact hp p (by simp) h1.symm
        rw [this]
        · simp [assignRow]
        · intro p hp he
          have := List.mem_map_of_mem (f := Prod.fst) hp
          rw [List.zipIdx_map_fst] at this
          rw [he] at this
          exact hnd.1 this
      | succ j =>
        rw [List.getElem?_cons_succ] at h
        rw [ih (n + 1) _ j hnd.2 h]
        congr 1; omega
  have := gen indices 0 flags j hnd hj
  rw [Nat.zero_add] at this
  exact this

private theorem foldl_assign (indices : List Nat) (result : Nat → Nat → Bool) (start : Nat) (steps : Nat)
    (flags : Flags) (bl ch corr : Nat) :
    (List.range steps).foldl (fun flags i => assignRows indices (start + i) result flags) flags bl ch corr =
      if start ≤ ch ∧ ch < start + steps then assignRows indices ch result flags bl ch corr else flags bl ch corr := by
  have hcongr : ∀ f g : Flags, f bl ch corr = g bl ch corr →
      assignRows indices ch result f bl ch corr = assignRows indices ch result g bl ch corr := by
    intro f g h
    unfold assignRows
    have : ∀ (l : List (Nat × Nat)) (f g : Flags), f bl ch corr = g bl ch corr →
        l.foldl (assignRow ch result) f bl ch corr = l.foldl (assignRow ch result) g bl ch corr := by
      intro l
      induction l with
      | nil => intro f g h; exact h
      | cons p l ih => intro f g h; exact ih _ _ (by unfold assignRow; rw [h])
    exact this _ f g h
  induction steps with
  | zero => rw [if_neg (by omega)]; rfl
  | succ n ih =>
    rw [List.range_succ, List.foldl_append, List.foldl_cons, List.foldl_nil]
    by_cases he : ch = start + n
    · rw [if_pos (by omega), ← he]
      exact hcongr _ _ (by rw [ih, if_neg (by omega)])
    · rw [assignRows_other _ _ _ _ _ _ _ (.inl he), ih]
      by_cases hc : start ≤ ch ∧ ch < start + n
      · rw [if_pos hc, if_pos (by omega)]
      · rw [if_neg hc, if_neg (by omega)]

/-- C98. After a prediction, channel `ch` of baseline `bl` has the flags of predicted channel `ch / freqStep` if the
baseline is one of the selected ones, and no flags otherwise. -/
theorem predictFlags_spec (c : Config K) (hf : 0 < c.freqStep) (b : Buffer K) (selected : List Nat)
    (hrows : b.rows.Pairwise (· < ·)) (hsel : selected.Pairwise (· < ·)) (hlt : ∀ i ∈ selected, i < b.rows.length)
    (hfilter : b.filteredRows = selected.map fun i => b.rows.getD i 0) (hn : b.nFiltered = selected.length) :
    ∃ flags, predictFlags c b = some flags ∧ ∀ bl ch corr, ch < c.nChannels → corr < c.nCorrelations →
      (flags bl ch corr = true ↔ ∃ j, selected[j]? = some bl ∧
        if c.allCorrelations then ∃ k < c.nCorrelations, c.maxAmplitude < b.amplitudes j (ch / c.freqStep) k
        else c.maxAmplitude < b.amplitudes j (ch / c.freqStep) corr) := by
  unfold predictFlags
  rw [hfilter, rowIndices_spec b.rows hrows selected hsel hlt]
  simp only [hn, if_true]
  refine ⟨_, rfl, fun bl ch corr hch hcorr => ?_⟩
  have outer : ∀ n, (List.range n).foldl (assignChannels c selected b.amplitudes) (fun _ _ _ => false) bl ch corr =
      if ch < n * c.freqStep then
        assignRows selected ch (resultFlags c b.amplitudes (ch / c.freqStep)) (fun _ _ _ => false) bl ch corr
      else false := by
    intro n
    induction n with
    | zero => simp
    | succ n ih =>
      rw [List.range_succ, List.foldl_append, List.foldl_cons, List.foldl_nil]
      conv_lhs => rw [assignChannels]
      rw [foldl_assign, Nat.succ_mul]
      by_cases h1 : ch < n * c.freqStep
      · rw [if_neg (by omega), ih, if_pos h1, if_pos (by omega)]
      · by_cases h2 : ch < n * c.freqStep + c.freqStep
        · have hdiv : ch / c.freqStep = n := by
            apply Nat.div_eq_of_lt_le
            · omega
            · rw [Nat.succ_mul]; omega
          rw [if_pos (by omega), if_pos h2, hdiv]
          by_cases hb : bl ∈ selected
          · obtain ⟨j, hj⟩ := List.mem_iff_getElem?.mp hb
            have hnd : selected.Nodup := hsel.imp Nat.ne_of_lt
            rw [assignRows_same selected hnd ch _ _ bl j corr hj, assignRows_same selected hnd ch _ _ bl j corr hj]
          · rw [assignRows_other _ _ _ _ _ _ _ (.inr hb), assignRows_other _ _ _ _ _ _ _ (.inr hb), ih, if_neg h1]
        · rw [if_neg (by omega), if_neg h2, ih, if_neg h1]
  rw [outer]
  have hall : ch < nPredicted c * c.freqStep := by
    unfold nPredicted
    have h1 := Nat.div_add_mod (c.nChannels + c.freqStep - 1) c.freqStep
    have h2 := Nat.mod_lt (c.nChannels + c.freqStep - 1) hf
    rw [Nat.mul_comm] at h1
    omega
  rw [if_pos hall]
  have hres : ∀ j, resultFlags c b.amplitudes (ch / c.freqStep) j corr = true ↔
      if c.allCorrelations then ∃ k < c.nCorrelations, c.maxAmplitude < b.amplitudes j (ch / c.freqStep) k
        else c.maxAmplitude < b.amplitudes j (ch / c.freqStep) corr := by
    intro j
    unfold resultFlags exceeds
    split
    · simp [List.any_eq_true]
    · simp
  have hnd : selected.Nodup := hsel.imp Nat.ne_of_lt
  by_cases hb : bl ∈ selected
  · obtain ⟨j, hj⟩ := List.mem_iff_getElem?.mp hb
    rw [assignRows_same selected hnd ch _ _ bl j corr hj, hres]
    constructor
    · intro h; exact ⟨j, hj, h⟩
    · rintro ⟨j', hj', h⟩
      have : j' = j := by
        obtain ⟨l1, e1⟩ := List.getElem?_eq_some_iff.mp hj
        obtain ⟨l2, e2⟩ := List.getElem?_eq_some_iff.mp hj'
        exact (List.Nodup.getElem_inj_iff hnd).mp (e2.trans e1.symm)
      rw [this] at h; exact h
  · rw [assignRows_other _ _ _ _ _ _ _ (.inr hb)]
    constructor
    · intro h; cases h
    · rintro ⟨j, hj, -⟩
      exact absurd (List.mem_of_getElem? hj) hb

/-- C98. Buffer number `k` keeps its flags, and gets those of the prediction for the last buffer whose number is a
multiple of the time step. -/
theorem run_spec (c : Config K) (bs : List (Buffer K)) (predicted : Nat → Flags)
    (hp : ∀ (k : Nat) (b : Buffer K), k % c.timeStep = 0 → bs[k]? = some b → predictFlags c b = some (predicted k)) :
    ∃ out, run c initial bs = some out ∧ out.length = bs.length ∧
      ∀ (k : Nat) (b : Buffer K), bs[k]? = some b → out[k]? = some fun bl ch corr =>
        b.flags bl ch corr || predicted (k / c.timeStep * c.timeStep) bl ch corr := by
  have gen : ∀ (l : List (Buffer K)) (n : Nat) (s : State), (∀ i, l[i]? = bs[n + i]?) →
      (s.counter % c.timeStep = n % c.timeStep) →
      (n % c.timeStep ≠ 0 → s.lastFlags = predicted (n / c.timeStep * c.timeStep)) →
      ∃ out, run c s l = some out ∧ out.length = l.length ∧
        ∀ (k : Nat) (b : Buffer K), l[k]? = some b → out[k]? = some fun bl ch corr =>
          b.flags bl ch corr || predicted ((n + k) / c.timeStep * c.timeStep) bl ch corr := by
    intro l
    induction l with
    | nil => intro n s _ _ _; exact ⟨[], rfl, rfl, by simp⟩
    | cons b l ih =>
      intro n s hl hs hlast
      have hb : bs[n]? = some b := by have := hl 0; simpa using this.symm
      have hl' : ∀ i, l[i]? = bs[(n + 1) + i]? := by
        intro i
        have := hl (i + 1)
        rw [List.getElem?_cons_succ] at this
        rw [this]; congr 1; omega
      obtain ⟨s', hn, hc, hf⟩ : ∃ s', nextFlags c s b = some s' ∧ s'.counter % c.timeStep = n % c.timeStep ∧
          s'.lastFlags = predicted (n / c.timeStep * c.timeStep) := by
        unfold nextFlags
        by_cases h : n % c.timeStep = 0
        · rw [if_pos (by rw [hs]; exact h), hp n b h hb]
          refine ⟨_, rfl, by rw [h]; exact Nat.zero_mod _, ?_⟩
          rw [Nat.div_mul_cancel (Nat.dvd_of_mod_eq_zero h)]
        · rw [if_neg (by rw [hs]; exact h)]
          exact ⟨s, rfl, hs, hlast h⟩
      have hpr : process c s b = some (⟨s'.counter + 1, s'.lastFlags⟩, fun bl ch corr =>
          b.flags bl ch corr || s'.lastFlags bl ch corr) := by
        unfold process; rw [hn]; rfl
      obtain ⟨out, ho, hlen, hout⟩ := ih (n + 1) ⟨s'.counter + 1, s'.lastFlags⟩ hl'
        (by show (s'.counter + 1) % c.timeStep = _; rw [Nat.add_mod, hc, ← Nat.add_mod]) (by
          intro hne
          show s'.lastFlags = _
          rw [hf]
          congr 2
          rw [Nat.succ_div_of_not_dvd]
          intro hd
          exact hne (Nat.mod_eq_zero_of_dvd hd))
      refine ⟨(fun bl ch corr => b.flags bl ch corr || s'.lastFlags bl ch corr) :: out,
        by simp only [run, hpr, ho, Option.map_some], by simp [hlen], ?_⟩
      intro k x hk
      cases k with
      | zero =>
        simp only [List.getElem?_cons_zero, Option.some.injEq] at hk ⊢
        subst hk
        rw [hf]; rfl
      | succ k =>
        rw [List.getElem?_cons_succ] at hk ⊢
        rw [hout k x hk, show n + (k + 1) = n + 1 + k by omega]
  obtain ⟨out, h1, h2, h3⟩ := gen bs 0 initial (fun i => by rw [Nat.zero_add]) rfl (fun h => absurd (Nat.zero_mod _) h)
  refine ⟨out, h1, h2, fun k b hk => ?_⟩
  rw [h3 k b hk, Nat.zero_add]

/-- C98. Flags are never cleared, whatever the row numbers. -/
theorem flags_kept (c : Config K) (s : State) (b : Buffer K) (r : State × Flags) (h : process c s b = some r)
    (bl ch corr : Nat) (hb : b.flags bl ch corr = true) : r.2 bl ch corr = true := by
  unfold process at h
  cases hn : nextFlags c s b with
  | none => rw [hn] at h; cases h
  | some s' =>
    rw [hn, Option.map_some, Option.some.injEq] at h
    rw [← h]
    simp [hb]

/-- C98 fails for a time slot that the reader inserted: it has no row numbers. If it is the one to predict for, the
number of rows is wrong (unless nothing is selected). -/
theorem inserted_slot_fails (c : Config K) (b : Buffer K) (hrows : b.filteredRows = []) (hn : b.nFiltered ≠ 0) :
    predictFlags c b = none := by
  unfold predictFlags
  rw [hrows]
  simp only [rowIndices, List.length_nil]
  rw [if_neg (Ne.symm hn)]

end

private theorem advance_le (rows : List Nat) (k i : Nat) (hik : i ≤ k) (hk : k < rows.length) :
    ∃ found, advance rows[k] (rows.drop i) i = some found ∧ i ≤ found ∧ found ≤ k := by
  induction hd : k - i generalizing i with
  | zero =>
    have : i = k := by omega
    subst this
    rw [List.drop_eq_getElem_cons hk, advance, if_neg (Nat.lt_irrefl _)]
    exact ⟨i, rfl, le_refl _, le_refl _⟩
  | succ d ih =>
    have hi : i < rows.length := by omega
    rw [List.drop_eq_getElem_cons hi, advance]
    split
    · obtain ⟨found, h1, h2, h3⟩ := ih (i + 1) (by omega) (by omega)
      exact ⟨found, h1, by omega, h3⟩
    · exact ⟨i, rfl, le_refl _, hik⟩

/-- C98. The search for the rows never goes beyond the end, even if the row numbers do not increase; what it finds
is never behind the selected baseline. -/
theorem rowIndices_defined (rows : List Nat) (selected : List Nat) (hsel : selected.Pairwise (· < ·))
    (hlt : ∀ i ∈ selected, i < rows.length) :
    ∃ found, rowIndices rows (selected.map fun i => rows.getD i 0) 0 = some found ∧
      List.Forall₂ (· ≤ ·) found selected := by
  have gen : ∀ (sel : List Nat) (i : Nat), sel.Pairwise (· < ·) → (∀ k ∈ sel, i ≤ k ∧ k < rows.length) →
      ∃ found, rowIndices rows (sel.map fun i => rows.getD i 0) i = some found ∧ List.Forall₂ (· ≤ ·) found sel := by
    intro sel
    induction sel with
    | nil => intro i _ _; exact ⟨[], rfl, .nil⟩
    | cons k sel ih =>
      intro i hp h
      obtain ⟨h1, h2⟩ := h k (by simp)
      rw [List.pairwise_cons] at hp
      have hg : rows.getD k 0 = rows[k] := by simp [List.getD_eq_getElem?_getD, List.getElem?_eq_getElem h2]
      obtain ⟨f, hf, -, hle⟩ := advance_le rows k i h1 h2
      obtain ⟨fs, hfs, hall⟩ := ih (f + 1) hp.2 fun x hx => ⟨by have := hp.1 x hx; omega, (h x (by simp [hx])).2⟩
      refine ⟨f :: fs, ?_, .cons hle hall⟩
      simp only [List.map_cons, rowIndices]
      rw [hg, hf]
      simp only
      rw [hfs]
      rfl
  exact gen selected 0 hsel fun k hk => ⟨Nat.zero_le _, hlt k hk⟩

/-- C98 fails for row numbers that do not increase (a measurement set that is not in time order is sorted by the
reader, and the row numbers refer to the original order): the flags go to another baseline. -/
theorem unsorted_rows :
    ∃ (rows : List Nat) (selected found : List Nat), rows.Nodup ∧ selected.Pairwise (· < ·) ∧
      (∀ i ∈ selected, i < rows.length) ∧ rowIndices rows (selected.map fun i => rows.getD i 0) 0 = some found ∧
      found ≠ selected :=
  ⟨[5, 7, 3], [2], [0], by decide⟩

/-! ## Examples -/

section Examples

private def exConfig : Config Nat := ⟨2, 2, true, 5, 3, 2⟩

/-- Three baselines of which the first and the last are selected; the second correlation of the second predicted
channel of the last baseline is too bright. -/
private def exBuffer (bright : Nat) : Buffer Nat where
  rows := [10, 11, 12]
  flags := fun _ _ _ => false
  filteredRows := [10, 12]
  nFiltered := 2
  amplitudes := fun j ch corr => if j = 1 ∧ ch = 1 ∧ corr = 1 then bright else 1

/-- The flags of a result as lists. -/
private def show' (f : Flags) : List (List (List Bool)) :=
  (List.range 3).map fun b => (List.range 3).map fun ch => (List.range 2).map fun corr => f b ch corr

/-- Of `rowIndices_spec`, `rowIndices_defined`, `predictFlags_spec` and `flags_kept`. -/
example : (predictFlags exConfig (exBuffer 9)).map show' =
    some [[[false, false], [false, false], [false, false]], [[false, false], [false, false], [false, false]],
      [[false, false], [false, false], [true, true]]] := by decide

/-- Of `run_spec`: the prediction for the first buffer is used for the second, that for the third is new. -/
example : (run exConfig initial [exBuffer 9, exBuffer 2, exBuffer 2, exBuffer 9]).map
    (fun l => l.map fun f => (f 2 2 0, f 2 2 1)) = some [(true, true), (true, true), (false, false), (false, false)] := by
  decide

/-- Of `inserted_slot_fails`. -/
example : (run exConfig initial [{ exBuffer 9 with rows := [], filteredRows := [] }]).isNone = true := by decide

end Examples

end DP3.Clipper
