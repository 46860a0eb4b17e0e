import Verif.Vds.Model
import Mathlib.Tactic.Ring
import Mathlib.Tactic.SplitIfs
import Mathlib.Data.Rat.Cast.Order
import Mathlib.Algebra.Order.Field.Rat
import Mathlib.Algebra.CharZero.Defs

/-!
# Properties of descriptions of data sets

C280 writing and reading of times, C281 combining of parts, C282 description of a measurement set.
-/

namespace DP3.Vds

set_option linter.unusedSimpArgs false

variable {K : Type}

/-! ## C280: writing and reading of times -/

theorem writeStarts_length [Ring K] (step : K) (l : List K) : ∀ t, (writeStarts step t l).length = l.length := by
  induction l with
  | nil => intro t; rfl
  | cons x l ih => intro t; simp [writeStarts, ih]

theorem writeEnds_length [Ring K] (step : K) (l : List K) : ∀ t, (writeEnds step t l).length = l.length := by
  induction l with
  | nil => intro t; rfl
  | cons x l ih => intro t; simp [writeEnds, ih]

theorem readTimes_get [Ring K] (rd : K → K) (step step' : K) : ∀ (starts ends : List K) (t t' : K) (i : Nat),
    starts.length = ends.length →
    (readTimes step' t' ((writeStarts step t starts).map rd) ((writeEnds step t ends).map rd)).1[i]? =
        (starts[i]?.map fun x => rd (x - (t + i * step)) + (t' + i * step')) ∧
      (readTimes step' t' ((writeStarts step t starts).map rd) ((writeEnds step t ends).map rd)).2[i]? =
        (ends[i]?.map fun x => rd (x - (t + (i + 1 : Nat) * step)) + (t' + (i + 1 : Nat) * step')) := by
  intro starts
  induction starts with
  | nil => intro ends t t' i h; cases ends <;> simp_all [writeStarts, writeEnds, readTimes]
  | cons x xs ih =>
    intro ends t t' i h
    cases ends with
    | nil => simp at h
    | cons y ys =>
      simp only [writeStarts, writeEnds, List.map_cons, readTimes]
      cases i with
      | zero => simp
      | succ i =>
        have hl : xs.length = ys.length := by simpa using h
        obtain ⟨h1, h2⟩ := ih ys (t + step) (t' + step') i hl
        simp only [List.getElem?_cons_succ, h1, h2]
        have e : ∀ (a b : K) (n : Nat), a + b + (n : K) * b = a + ((n + 1 : Nat) : K) * b := by
          intro a b n; rw [Nat.cast_succ, add_mul, one_mul, add_assoc, add_comm b]
        simp only [e]
        exact ⟨trivial, trivial⟩

/-- C280: the times that are read, for any loss of digits. -/
theorem times_read [Ring K] (rs rd : K → K) (start step : K) (starts ends : List K) (h : starts.length = ends.length) :
    ∃ ss es, reread rs rd start step starts ends = some (ss, es) ∧
      ∀ i : Nat, ss[i]? = (starts[i]?.map fun x => rd (x - (start + i * step)) + (start + i * rs step)) ∧
        es[i]? = (ends[i]?.map fun x => rd (x - (start + (i + 1 : Nat) * step)) + (start + (i + 1 : Nat) * rs step)) := by
  refine ⟨_, _, ?_, fun i => readTimes_get rd step (rs step) starts ends start start i h⟩
  unfold reread
  simp [writeStarts_length, writeEnds_length, h]

example : reread (fun _ => (1 : ℚ)) id 0 (1001 / 1000) [0, 1001 / 1000, 2002 / 1000]
    [1001 / 1000, 2002 / 1000, 3003 / 1000] = some ([0, 1, 2], [1, 2, 3]) := by decide +kernel

/-- C280: without loss of digits the times are the same. -/
theorem times_exact_partial [Ring K] (start step : K) (starts ends : List K) (h : starts.length = ends.length) :
    reread id id start step starts ends = some (starts, ends) := by
  obtain ⟨ss, es, h1, h2⟩ := times_read id id start step starts ends h
  rw [h1]
  congr 2
  · apply List.ext_getElem?
    intro i
    rw [(h2 i).1]; simp
  · apply List.ext_getElem?
    intro i
    rw [(h2 i).2]; simp

example : reread id id (10 : ℚ) 2 [10, 13, 14] [12, 14, 16] = some ([10, 13, 14], [12, 14, 16]) := by decide +kernel

/-- C280 does not hold: if the step does not fit in the digits that are written for it, each start time but the first is
changed, by more for later slots. -/
theorem times_drift [Field K] [CharZero K] (rs : K → K) (start step : K) (starts ends : List K)
    (h : starts.length = ends.length) (hr : rs step ≠ step) :
    ∃ ss es, reread rs id start step starts ends = some (ss, es) ∧
      ∀ (i : Nat) (x : K), 0 < i → starts[i]? = some x →
        ss[i]? = some (x + i * (rs step - step)) ∧ ss[i]? ≠ some x := by
  obtain ⟨ss, es, h1, h2⟩ := times_read rs id start step starts ends h
  refine ⟨ss, es, h1, fun i x hi hx => ?_⟩
  have e : ss[i]? = some (x + i * (rs step - step)) := by
    rw [(h2 i).1, hx]
    simp only [Option.map_some, id]
    congr 1; ring
  refine ⟨e, ?_⟩
  rw [e]
  intro hh
  have h0 : (i : K) * (rs step - step) = 0 := by simpa using hh
  rcases mul_eq_zero.mp h0 with h0 | h0
  · exact absurd (Nat.cast_eq_zero.mp h0) (by omega)
  · exact hr (sub_eq_zero.mp h0)

example : (fun _ : ℚ => (100139 / 100000 : ℚ)) (1001389568 / 1000000000) ≠ 1001389568 / 1000000000 := by decide +kernel

/-! ## C281: combining -/

/-- What the global description should have for a band: the number of channels, and its start and end. -/
def summary (b : List (K × K)) : Option (Nat × K × K) :=
  b.head?.bind fun x => b.getLast?.map fun y => (b.length, x.1, y.2)

theorem goBands_bands (single : Bool) (bands : List (List (K × K))) : ∀ (pre : List (K × K)),
    (∀ b ∈ bands, b ≠ [] ∧ (single = true → b.length = 1)) →
    goBands single ((pre ++ bands.flatten).map Prod.fst) ((pre ++ bands.flatten).map Prod.snd) (bands.map List.length)
      pre.length = bands.mapM summary := by
  induction bands with
  | nil => intro pre _; simp [goBands]
  | cons b bands ih =>
    intro pre h
    obtain ⟨hb, h1⟩ := h b (by simp)
    have hl : 0 < b.length := List.length_pos_iff.mpr hb
    have hx : (if single = true then pre.length + 1 else pre.length + b.length) = pre.length + b.length := by
      split_ifs with hs
      · rw [h1 hs]
      · rfl
    have ih' := ih (pre ++ b) (fun c hc => h c (List.mem_cons_of_mem _ hc))
    simp only [List.append_assoc, List.length_append] at ih'
    simp only [List.map_cons, List.flatten_cons, goBands, hx, ih']
    have hs : ((pre ++ (b ++ bands.flatten)).map Prod.fst)[pre.length]? = b.head?.map Prod.fst := by
      rw [List.getElem?_map, List.getElem?_append_right (le_refl _), Nat.sub_self, List.getElem?_append_left hl,
        List.head?_eq_getElem?]
    have he : ((pre ++ (b ++ bands.flatten)).map Prod.snd)[pre.length + b.length - 1]? = b.getLast?.map Prod.snd := by
      rw [List.getElem?_map, List.getElem?_append_right (by omega), List.getElem?_append_left (by omega),
        List.getLast?_eq_getElem?]
      congr 2; omega
    have hz : ¬ pre.length + b.length = 0 := by omega
    rw [hs, he]
    simp only [hz, if_false]
    simp only [List.mapM_cons, summary]
    cases b.head? <;> cases b.getLast? <;> simp [Option.map_eq_bind]

/-- C281: for a part of which the bands have individual frequencies, each band is added with its number of channels, the
start of its first and the end of its last channel. -/
theorem bands_summary (bands : List (List (K × K))) (h : ∀ b ∈ bands, b ≠ []) :
    partBands (bands.map List.length) (bands.flatten.map Prod.fst) (bands.flatten.map Prod.snd) =
      bands.mapM summary := by
  unfold partBands
  have key := goBands_bands (decide ((bands.map List.length).length = (bands.flatten.map Prod.fst).length)) bands []
  simp only [List.nil_append, List.length_nil] at key
  refine key fun b hb => ⟨h b hb, fun hs => ?_⟩
  have hlen : bands.length = (bands.map List.length).sum := by
    rw [decide_eq_true_eq, List.length_map, List.length_map, List.length_flatten] at hs
    exact hs
  clear hs key
  induction bands with
  | nil => simp at hb
  | cons c cs ih =>
    have hc : 0 < c.length := List.length_pos_iff.mpr (h c (by simp))
    have hle : ∀ l : List (List (K × K)), (∀ b ∈ l, b ≠ []) → l.length ≤ (l.map List.length).sum := by
      intro l hl
      induction l with
      | nil => simp
      | cons a l ihl =>
        have := ihl fun b hb => hl b (List.mem_cons_of_mem _ hb)
        have h0 : 0 < a.length := List.length_pos_iff.mpr (hl a (by simp))
        simp only [List.length_cons, List.map_cons, List.sum_cons]; omega
    have := hle cs fun b hb => h b (List.mem_cons_of_mem _ hb)
    simp only [List.length_cons, List.map_cons, List.sum_cons] at hlen
    rcases List.mem_cons.mp hb with rfl | hb
    · omega
    · exact ih (fun b hb => h b (List.mem_cons_of_mem _ hb)) hb (by omega)

example : partBands [2, 1] [(1 : ℚ), 2, 7] [2, 3, 8] = some [(2, 1, 3), (1, 7, 8)] := by decide +kernel

theorem goBands_ranges (l : List (Nat × K × K)) : ∀ (pre : List (Nat × K × K)),
    goBands true ((pre ++ l).map fun x => x.2.1) ((pre ++ l).map fun x => x.2.2) (l.map Prod.fst) pre.length =
      some l := by
  induction l with
  | nil => intro pre; simp [goBands]
  | cons x l ih =>
    intro pre
    have ih' := ih (pre ++ [x])
    simp only [List.append_assoc, List.singleton_append, List.length_append, List.length_singleton] at ih'
    simp only [List.map_cons, goBands, if_true, ih']
    rw [List.getElem?_map, List.getElem?_map, Nat.add_sub_cancel, List.getElem?_append_right (le_refl _), Nat.sub_self]
    simp

/-- C281: for a part of which each band has one range of frequencies, as a global description has, the bands are added as
they are. -/
theorem bands_ranges (l : List (Nat × K × K)) :
    partBands (l.map Prod.fst) (l.map fun x => x.2.1) (l.map fun x => x.2.2) = some l := by
  have := goBands_ranges l []
  simpa [partBands] using this

example : partBands [64, 32] [(1 : ℚ), 5] [3, 8] = some [(64, 1, 3), (32, 5, 8)] := by decide +kernel

theorem minMax_fold [LinearOrder K] [Zero K] (times : List (K × K)) : ∀ a : K × K,
    let r := times.foldl (fun a x => if x.1 = 0 then a else (min a.1 x.1, max a.2 x.2)) a
    (r.1 ≤ a.1 ∧ a.2 ≤ r.2) ∧ (∀ x ∈ times, x.1 ≠ 0 → r.1 ≤ x.1 ∧ x.2 ≤ r.2) ∧
      (r.1 = a.1 ∨ ∃ x ∈ times, x.1 ≠ 0 ∧ r.1 = x.1) ∧ (r.2 = a.2 ∨ ∃ x ∈ times, x.1 ≠ 0 ∧ r.2 = x.2) := by
  induction times with
  | nil => intro a; simp
  | cons y ys ih =>
    intro a
    simp only [List.foldl_cons]
    by_cases hy : y.1 = 0
    · simp only [hy, if_true]
      obtain ⟨h1, h2, h3, h4⟩ := ih a
      refine ⟨h1, ?_, ?_, ?_⟩
      · intro x hx hne
        rcases List.mem_cons.mp hx with rfl | hx
        · exact absurd hy hne
        · exact h2 x hx hne
      · exact h3.imp_right fun ⟨x, hx, h⟩ => ⟨x, List.mem_cons_of_mem _ hx, h⟩
      · exact h4.imp_right fun ⟨x, hx, h⟩ => ⟨x, List.mem_cons_of_mem _ hx, h⟩
    · simp only [hy, if_false]
      obtain ⟨h1, h2, h3, h4⟩ := ih (min a.1 y.1, max a.2 y.2)
      refine ⟨⟨h1.1.trans (min_le_left _ _), (le_max_left _ _).trans h1.2⟩, ?_, ?_, ?_⟩
      · intro x hx hne
        rcases List.mem_cons.mp hx with rfl | hx
        · exact ⟨h1.1.trans (min_le_right _ _), (le_max_right _ _).trans h1.2⟩
        · exact h2 x hx hne
      · rcases h3 with h3 | ⟨x, hx, h⟩
        · rcases min_choice a.1 y.1 with h | h
          · exact .inl (h3.trans h)
          · exact .inr ⟨y, by simp, hy, h3.trans h⟩
        · exact .inr ⟨x, List.mem_cons_of_mem _ hx, h⟩
      · rcases h4 with h4 | ⟨x, hx, h⟩
        · rcases max_choice a.2 y.2 with h | h
          · exact .inl (h4.trans h)
          · exact .inr ⟨y, by simp, hy, h4.trans h⟩
        · exact .inr ⟨x, List.mem_cons_of_mem _ hx, h⟩

/-- C281: the global description has the first start time and the last end time of the parts with data. -/
theorem times_combined [LinearOrder K] [Zero K] (big : K) (times : List (K × K)) (x0 : K × K) (h0 : x0 ∈ times)
    (hx0 : x0.1 ≠ 0) (hb : ∀ x ∈ times, x.1 ≠ 0 → x.1 < big ∧ 0 < x.2) :
    ∃ s e, combineTimes big times = some (s, e) ∧ (∀ x ∈ times, x.1 ≠ 0 → s ≤ x.1 ∧ x.2 ≤ e) ∧
      (∃ x ∈ times, x.1 ≠ 0 ∧ s = x.1) ∧ ∃ x ∈ times, x.1 ≠ 0 ∧ e = x.2 := by
  obtain ⟨h1, h2, h3, h4⟩ := minMax_fold times (big, 0)
  have hs : ∃ x ∈ times, x.1 ≠ 0 ∧ (minMax big times).1 = x.1 := by
    rcases h3 with h | h
    · exact absurd h (((h2 x0 h0 hx0).1.trans_lt (hb x0 h0 hx0).1).ne)
    · exact h
  have he : ∃ x ∈ times, x.1 ≠ 0 ∧ (minMax big times).2 = x.2 := by
    rcases h4 with h | h
    · exact absurd h (((hb x0 h0 hx0).2.trans_le (h2 x0 h0 hx0).2).ne')
    · exact h
  refine ⟨(minMax big times).1, (minMax big times).2, ?_, h2, hs, he⟩
  obtain ⟨x, _, hx, hxe⟩ := hs
  have hne : times ≠ [] := List.ne_nil_of_mem h0
  simp [combineTimes, hne, hxe, hx]
  rw [← hxe]

example : combineTimes (1000 : ℚ) [(5, 8), (0, 0), (4, 7)] = some (4, 8) := by decide +kernel

/-- C281 does not hold: if all parts are empty, the global description is made, from 1e30 to zero. -/
theorem all_empty [LinearOrder K] [Zero K] (big : K) (hbig : big ≠ 0) (times : List (K × K)) (hne : times ≠ [])
    (h : ∀ x ∈ times, x.1 = 0) : combineTimes big times = some (big, 0) := by
  have hm : minMax big times = (big, 0) := by
    unfold minMax
    clear hne
    induction times with
    | nil => rfl
    | cons y ys ih =>
      rw [List.foldl_cons, if_pos (h y (by simp))]
      exact ih fun x hx => h x (List.mem_cons_of_mem _ hx)
  simp [combineTimes, hne, hm, hbig]

example : combineTimes (1000 : ℚ) [(0, 0), (0, 0)] = some (1000, 0) := by decide +kernel

/-! ## C282: description of a measurement set -/

/-- C282: the bands are those of the spectral windows if each row of DATA_DESCRIPTION has the spectral window of its own
number. -/
theorem freq_partial [Field K] (dataDesc : List Nat) (spws : List (List (K × K)))
    (h : dataDesc = List.range dataDesc.length) :
    freqInfo dataDesc spws = dataDesc.mapM fun d =>
      spws[d]?.map fun chans => chans.map fun c => (c.1 - c.2 / 2, c.1 + c.2 / 2) := by
  unfold freqInfo
  conv_rhs => rw [h]

example : freqInfo [0, 1] [[((10 : ℚ), 2), (12, 2)], [(20, 4)]] = some [[(9, 11), (11, 13)], [(18, 22)]] := by
  decide +kernel

/-- C282 does not hold: with other spectral windows the bands are still those of the first ones. -/
theorem freq_wrong [Field K] (d : Nat) (a : List (K × K)) (spws : List (List (K × K))) :
    freqInfo [d] (a :: spws) = some [a.map fun c => (c.1 - c.2 / 2, c.1 + c.2 / 2)] := by
  simp [freqInfo, List.range_succ]

example : freqInfo [1] [[((10 : ℚ), 2)], [(20, 2)]] = some [[(9, 11)]] := by decide +kernel

/-- C282: the direction of a single field is its first one. -/
theorem field_partial {D : Type} (x : D) (xs : List D) : fields [x :: xs] = some [x] := by
  simp [fields, List.range_succ]

example : fields [[7, 8]] = some [7] := by decide

/-- C282 does not hold: with two or more fields of one direction each, directions outside the arrays are used. -/
theorem fields_wrong {D : Type} (x y : D) (rest : List (List D)) : fields ([x] :: [y] :: rest) = none := by
  unfold fields
  simp only [List.length_cons, List.range_succ_eq_map, List.map_cons, List.mapM_cons]
  simp

example : fields [[1], [2], [3]] = none := by decide

end DP3.Vds
