import Verif.Transfer.Props
import Mathlib.Data.List.Infix

/-! The checks of the transfer step, and what it leaves as it was. -/

namespace DP3.Transfer

open DP3.StringTools

/-! ## Stations -/

theorem compareNames_ok (source target : List String) : compareNames source target = .ok () ↔ source <+: target := by
  induction source generalizing target with
  | nil => simp [compareNames]
  | cons s source ih =>
    cases target with
    | nil => simp [compareNames]
    | cons t target =>
      rw [compareNames, List.cons_prefix_cons]
      by_cases h : s = t
      · rw [if_neg (by simpa using h), ih]; simp [h]
      · rw [if_pos h]; simp [h]

theorem compareNames_ub (source target : List String) :
    compareNames source target = .error .ub ↔ target <+: source ∧ target.length < source.length := by
  induction source generalizing target with
  | nil => simp [compareNames]
  | cons s source ih =>
    cases target with
    | nil => simp [compareNames]
    | cons t target =>
      rw [compareNames, List.cons_prefix_cons]
      by_cases h : s = t
      · rw [if_neg (by simpa using h), ih]; simp [h]
      · rw [if_pos h]; simp [Ne.symm h]

/-- C267: exactly which lists of stations are accepted. -/
theorem antennas_accepted (source target : List String) :
    antennaCheck source target = .ok () ↔ source.length = target.length ∨ source <+: target := by
  unfold antennaCheck
  by_cases h : source.length = target.length
  · simp [h]
  · rw [if_pos h, compareNames_ok]; simp [h]

/-- C267 is violated: a target with other stations is accepted if there are as many of them, -/
theorem antennas_other (source target : List String) (hl : source.length = target.length) : antennaCheck source target = .ok () :=
  (antennas_accepted source target).2 (Or.inl hl)

/-- a source with some of the stations of the target is refused if these are not the first ones, -/
theorem antennas_refused (source target : List String) (hl : source.length < target.length) (hp : ¬ source <+: target) :
    antennaCheck source target = .error .throws := by
  have h1 : antennaCheck source target ≠ .ok () := by
    rw [Ne, antennas_accepted]; rintro (h | h)
    · omega
    · exact hp h
  have h2 : antennaCheck source target ≠ .error .ub := by
    unfold antennaCheck
    rw [if_pos (by omega), Ne, compareNames_ub]
    rintro ⟨_, h⟩; omega
  have h3 : antennaCheck source target = .ok () ∨ antennaCheck source target = .error .ub ∨ antennaCheck source target = .error .throws := by
    unfold antennaCheck
    rw [if_pos (by omega)]
    clear h1 h2 hl hp
    induction source generalizing target with
    | nil => simp [compareNames]
    | cons s source ih =>
      cases target with
      | nil => simp [compareNames]
      | cons t target =>
        rw [compareNames]
        by_cases h : s = t
        · rw [if_neg (by simpa using h)]; exact ih target
        · rw [if_pos h]; simp
  tauto

/-- and a source with the stations of the target and more reads behind the list of names. -/
theorem antennas_overrun (target more : List String) (hm : more ≠ []) : antennaCheck (target ++ more) target = .error .ub := by
  have hl : 0 < more.length := List.length_pos_iff.2 hm
  unfold antennaCheck
  rw [if_pos (by simp; exact hm), compareNames_ub]
  exact ⟨List.prefix_append .., by simp; omega⟩

example : antennaCheck ["CS001", "CS002"] ["RS106", "RS205"] = .ok () ∧ antennaCheck ["CS002", "RS106"] ["CS001", "CS002", "RS106"] =
    .error .throws ∧ antennaCheck ["CS001", "CS002"] ["CS001", "CS002", "RS106"] = .ok () ∧
    antennaCheck ["CS001", "CS002"] ["CS001"] = .error .ub := by decide

/-! ## Rows and time slots -/

/-- C86: the rows of a transfer, for any row numbers of the buffer: they are the selected baselines exactly if the row numbers of these count
on from the first one. -/
theorem target_rows_any (nSource : Nat) (rowNumbers : List Nat) (first : Nat) (hf : rowNumbers[0]? = some first) (selected : List Nat)
    (hs : ∀ i ∈ selected, i < rowNumbers.length) (hmin : ∀ r ∈ rowNumbers, first ≤ r) (hn : selected.length = nSource) :
    targetRows nSource rowNumbers (selected.map fun i => rowNumbers.getD i 0) = .ok selected ↔
      ∀ i ∈ selected, rowNumbers[i]? = some (first + i) := by
  cases rowNumbers with
  | nil => simp at hf
  | cons a l =>
    have ha : a = first := by simpa using hf
    subst ha
    simp only [targetRows, List.map_map, List.length_map]
    rw [if_neg (by simpa using hn), Except.ok.injEq]
    have hid : selected = selected.map id := by simp
    conv_lhs => rhs; rw [hid]
    rw [List.map_inj_left]
    refine forall_congr' fun i => imp_congr_right fun hi => ?_
    have hlt := hs i hi
    have hmem : (a :: l)[i] ∈ a :: l := List.getElem_mem _
    have := hmin _ hmem
    simp only [Function.comp_apply, id_eq, List.getD_eq_getElem?_getD, List.getElem?_eq_getElem hlt, Option.getD_some, Option.some.injEq]
    omega

/-- C86 is violated: if baselines were removed by an earlier step, the row numbers have gaps and a row behind the end is written; and a time
slot that is missing in the target has no row numbers at all. -/
theorem target_rows_wrong :
    targetRows 1 [0, 2] ([1].map fun i => [0, 2].getD i 0) = .ok [2] ∧
    transferSlot (K := ℚ) none [] [] 1 1 [[7]] [2] [[0], [1]] = .error .ub ∧
    ∀ n, targetRows n [] [] = .error .ub := ⟨by decide, by decide, fun _ => rfl⟩

/-- C86 is violated: if a time slot is missing in the source, the later ones are used too early. Each is given by its number here; with
number 1 missing, the third and fourth buffer, that belong to it, get number 2. -/
theorem source_gap : State.run 2 6 ⟨[0, 2, 3], 0, 0⟩ = [0, 0, 2, 2, 3, 3] := by decide

/-! ## What is not transferred -/

/-- C268: the rows that are not selected: zeros if there were no data, the former data if they are changed in place, but no value at all if
the result gets a name of its own. -/
theorem rest_of_target {K V : Type} [Field K] [LinearOrder K] [IsStrictOrderedRing K] (beyond : Option K) (edges freqs : List K) (named : Bool) (nB n : Nat) (zero : V)
    (main : Cube V) (hmain : main = [] ∨ (Shape nB n main ∧ 0 < nB ∧ 0 < n)) (source : Cube V) (rows : List Nat) (hrows : ∀ r ∈ rows, r < nB)
    (hnd : rows.Nodup) (hlen : rows.length = source.length) (hall : rows.length < nB) :
    ∃ out, transferSlot beyond edges freqs n n (source.map fun row => row.map some) rows (outputArray named nB n zero main) = .ok out ∧
      (∀ (i r : Nat), rows[i]? = some r → out[r]? = source[i]?.map fun row => row.map some) ∧
      ∀ r < nB, r ∉ rows → ∀ t < n, cell out r t =
        some (if main = [] then some zero else if named then none else cell main r t) := by
  have hlenT : (outputArray named nB n zero main).length = nB := by
    rcases hmain with rfl | ⟨hm, h1, h2⟩
    · simp [outputArray]
    · unfold outputArray
      split_ifs <;> simp [hm.1]
  obtain ⟨out, h1, h2, h3, h4⟩ := transfer_rows beyond edges freqs n (source.map fun row => row.map some) rows
    (outputArray named nB n zero main) (by rw [hlenT]; exact hrows) hnd (by simpa using hlen) (by rw [hlenT]; intro h; omega)
  refine ⟨out, h1, ?_, ?_⟩
  · intro i r h
    rw [h3 i r h, List.getElem?_map]
  · intro r hr hn t ht
    unfold cell
    rw [h4 r hn]
    rcases hmain with rfl | ⟨hm, hb, hc⟩
    · simp [outputArray, hr, ht]
    · have hsum : ¬ (main.map List.length).sum = 0 := by
        have : main.map List.length = List.replicate nB n := by
          rw [List.eq_replicate_iff]
          refine ⟨by simp [hm.1], ?_⟩
          intro x hx
          obtain ⟨row, hrow, rfl⟩ := List.mem_map.1 hx
          exact hm.2 row hrow
        rw [this, List.sum_replicate_nat]
        exact (Nat.mul_pos hb hc).ne'
      have hne : main ≠ [] := by rintro rfl; simp at hsum
      have hr' : r < main.length := by rw [hm.1]; exact hr
      have ht' : t < main[r].length := by rw [hm.2 _ (List.getElem_mem hr')]; exact ht
      unfold outputArray
      rw [if_neg hsum, if_neg hne]
      cases named <;> simp [List.getElem?_map, List.getElem?_eq_getElem hr', ht']

/-- Baseline 1 of three is transferred to a new array: the others have no value. -/
example : transferSlot (K := ℚ) none [] [] 1 1 [[some 7]] [1] (outputArray true 3 1 0 [[4], [5], [6]]) = .ok [[none], [some 7], [none]] ∧
    transferSlot (K := ℚ) none [] [] 1 1 [[some 7]] [1] (outputArray false 3 1 0 [[4], [5], [6]]) = .ok [[some 4], [some 7], [some 6]] := by
  decide

end DP3.Transfer
