import Verif.ParmEval.ScaleProps

/-!
# C189, C192: perturbed results, and the coefficients of a solve cell
-/

namespace DP3.ParmEval

open DP3.StringTools DP3.ParmGrid Finset

set_option linter.unusedSectionVars false
set_option linter.unusedSimpArgs false

variable {K : Type} [Field K] [LinearOrder K] [IsStrictOrderedRing K]

/-! ## Perturbations -/

/-- All polynomials of a set have the same shape. -/
def SameShape (s : PSet K) (nx ny : Nat) : Prop :=
  (s.dflt.values.nx = nx ∧ s.dflt.values.ny = ny) ∧ ∀ v ∈ s.values, v.values.nx = nx ∧ v.values.ny = ny

private theorem shape_at (s : PSet K) (nx ny i : Nat) (h : SameShape s nx ny) :
    (cellValues s i).nx = nx ∧ (cellValues s i).ny = ny := by
  rw [cellValues]
  cases hv : s.values[i]? with
  | none => exact h.1
  | some v => exact h.2 v (List.mem_of_getElem? hv)

private theorem shape_first (s : PSet K) (nx ny : Nat) (h : SameShape s nx ny) :
    (firstValue s).values.nx = nx ∧ (firstValue s).values.ny = ny := by
  rw [firstValue]
  cases hv : s.values with
  | nil => simpa using h.1
  | cons v r => simpa using h.2 v (by simp [hv])

private theorem sum_pert (nx ny : Nat) (perts : List K) (i0 j0 : Nat) (hi : i0 < nx) (hj : j0 < ny) (x y : K) :
    ∑ j ∈ range ny, ∑ i ∈ range nx, pertCoeff perts (i0 + j0 * nx) (i + j * nx) * x ^ i * y ^ j =
      perts.getD (i0 + j0 * nx) 0 * x ^ i0 * y ^ j0 := by
  have key : ∀ i j, i < nx → (i + j * nx = i0 + j0 * nx ↔ (j = j0 ∧ i = i0)) := by
    intro i j h
    constructor
    · intro e
      have hm : i = i0 := by
        have := congrArg (· % nx) e
        simpa [Nat.add_mul_mod_self_right, Nat.mod_eq_of_lt h, Nat.mod_eq_of_lt hi] using this
      refine ⟨?_, hm⟩
      have : j * nx = j0 * nx := by omega
      exact Nat.eq_of_mul_eq_mul_right (by omega) this
    · rintro ⟨rfl, rfl⟩; rfl
  rw [sum_eq_single j0]
  · rw [sum_eq_single i0]
    · rw [pertCoeff, if_pos rfl]
    · intro i hi' hne
      rw [pertCoeff, if_neg (fun e => hne ((key i j0 (mem_range.mp hi')).mp e).2)]; simp
    · intro h; exact absurd (mem_range.mpr hi) h
  · intro j _ hne
    refine sum_eq_zero fun i hi' => ?_
    rw [pertCoeff, if_neg (fun e => hne ((key i j (mem_range.mp hi')).mp e).1)]; simp
  · intro h; exact absurd (mem_range.mpr hj) h

/-- C189 (false with a mask of the solvable coefficients, see `perturbed_masked`): without a mask there is one
perturbed result for every coefficient; it is the result with that coefficient increased by its perturbation. -/
theorem perturbed_partial (s : PSet K) (predict : Grid K) (hx : Valid s.grid.x.cells) (hy : Valid s.grid.y.cells)
    (hs : s.scalar = false) (hm : s.mask = none) (nx ny : Nat) (hn : 0 < nx) (hsh : SameShape s nx ny)
    (i0 j0 : Nat) (hi : i0 < nx) (hj : j0 < ny) (ix iy : Nat) (fx fy : K × K)
    (hfx : predict.x.cells[ix]? = some fx) (hfy : predict.y.cells[iy]? = some fy) (kx ky : Nat)
    (hkx : Nearest s.grid.x.cells (center fx) kx) (hky : Nearest s.grid.y.cells (center fy) ky)
    (tx ty : K × K) (htx : s.grid.x.cells[kx]? = some tx) (hty : s.grid.y.cells[ky]? = some ty) :
    (calcPerturbations s).length = nx * ny ∧
    ∃ r, resultCoeff exact s predict ix iy = .ok r ∧
      resultPerturbed exact s (calcPerturbations s) predict (i0 + j0 * nx) ix iy =
        .ok (r + perturbOf s ((firstValue s).values.at_ i0 j0) * ((center fx - tx.1) / (tx.2 - tx.1)) ^ i0 *
          ((center fy - ty.1) / (ty.2 - ty.1)) ^ j0) := by
  obtain ⟨f1, f2⟩ := shape_first s nx ny hsh
  have hp : calcPerturbations s =
      ((List.range (nx * ny)).map (firstValue s).values.flat).map (perturbOf s) := by
    simp [calcPerturbations, hs, copyValues, hm, f1, f2]
  have hlen : (calcPerturbations s).length = nx * ny := by rw [hp]; simp
  have hd : 0 < s.dflt.values.nx := by rw [hsh.1.1]; exact hn
  have hv : ∀ v ∈ s.values, 0 < v.values.nx := fun v h => by rw [(hsh.2 v h).1]; exact hn
  refine ⟨hlen, _, result_coeff s predict hx hy hd hv ix iy fx fy hfx hfy kx ky hkx hky tx ty htx hty, ?_⟩
  obtain ⟨mx, ex, -⟩ := mapping_spec predict.x.cells s.grid.x.cells hx
  obtain ⟨my, ey, -⟩ := mapping_spec predict.y.cells s.grid.y.cells hy
  have h1 := mapping_at _ _ hx mx ex ix fx hfx kx hkx tx htx
  have h2 := mapping_at _ _ hy my ey iy fy hfy ky hky ty hty
  obtain ⟨c1, c2⟩ := shape_at s nx ny (kx + ky * s.grid.x.cells.length) hsh
  simp only [resultPerturbed, ex, ey, h1, h2]
  generalize cellValues s (kx + ky * s.grid.x.cells.length) = m at c1 c2 ⊢
  rw [if_neg (by rw [hlen, c1, c2]; omega), evalLoop_spec _ _ (by omega)]
  congr 1
  generalize (center fx - tx.1) / (tx.2 - tx.1) = X
  generalize (center fy - ty.1) / (ty.2 - ty.1) = Y
  have hsum := sum_pert nx ny (calcPerturbations s) i0 j0 hi hj X Y
  have hget : (calcPerturbations s).getD (i0 + j0 * nx) 0 = perturbOf s ((firstValue s).values.at_ i0 j0) := by
    have hlt : i0 + j0 * nx < nx * ny := by nlinarith [Nat.mul_comm j0 nx]
    rw [hp, List.getD_eq_getElem?_getD]
    simp only [List.getElem?_map, List.getElem?_range hlt, Option.map_some, Option.getD_some]
    rw [Mat.flat, f1, Nat.add_mul_mod_self_right, Nat.mod_eq_of_lt hi, Nat.add_mul_div_right _ _ hn,
      Nat.div_eq_of_lt hi, Nat.zero_add]
  rw [hget] at hsum
  rw [← hsum, zero_add, one_mul, poly, c1, c2, ← sum_add_distrib]
  refine sum_congr rfl fun j _ => ?_
  rw [mul_sum, ← sum_add_distrib]
  refine sum_congr rfl fun i _ => ?_
  rw [Nat.zero_add]
  ring

private theorem filter_lt {α : Type} (l : List α) (p : α → Bool) (a : α) (ha : a ∈ l) (h : p a = false) :
    (l.filter p).length < l.length := by
  rw [List.length_filter_lt_length_iff_exists]
  exact ⟨a, ha, by simp [h]⟩

/-- C189: with a mask that leaves a coefficient out there are fewer perturbations than coefficients, and every
perturbed result reads behind the end of the perturbations. -/
theorem perturbed_masked (s : PSet K) (predict : Grid K) (hx : Valid s.grid.x.cells) (hy : Valid s.grid.y.cells)
    (hs : s.scalar = false) (k : Nat → Nat → Bool) (hm : s.mask = some k) (nx ny : Nat)
    (hsh : SameShape s nx ny) (i0 j0 : Nat) (hi : i0 < nx) (hj : j0 < ny) (hk : k i0 j0 = false) (ip ix iy : Nat) :
    resultPerturbed exact s (calcPerturbations s) predict ip ix iy = .error .ub := by
  obtain ⟨f1, f2⟩ := shape_first s nx ny hsh
  have hlen : (calcPerturbations s).length < nx * ny := by
    have hlt : i0 + j0 * nx < nx * ny := by nlinarith [Nat.mul_comm j0 nx]
    have := filter_lt (List.range (nx * ny)) (fun i => k (i % nx) (i / nx)) (i0 + j0 * nx) (List.mem_range.mpr hlt)
      (by
        have hn : 0 < nx := by omega
        rw [Nat.add_mul_mod_self_right, Nat.mod_eq_of_lt hi, Nat.add_mul_div_right _ _ hn, Nat.div_eq_of_lt hi,
          Nat.zero_add]
        exact hk)
    rw [List.length_range] at this
    simpa [calcPerturbations, hs, copyValues, hm, f1, f2] using this
  obtain ⟨mx, ex, -⟩ := mapping_spec predict.x.cells s.grid.x.cells hx
  obtain ⟨my, ey, -⟩ := mapping_spec predict.y.cells s.grid.y.cells hy
  simp only [resultPerturbed, ex, ey]
  cases ha : mx.cells[ix]? with
  | none => rfl
  | some a =>
    cases hb : my.cells[iy]? with
    | none => rfl
    | some b =>
      simp only
      obtain ⟨c1, c2⟩ := shape_at s nx ny (a.1 + b.1 * s.grid.x.cells.length) hsh
      rw [if_pos (.inr (by rw [c1, c2]; exact hlen))]

/-! An example: the set of C187, whose first line is `1 + 4 x`. -/

/-- C189: there is a perturbation for each solvable coefficient, and none of them is zero, also for coefficients that
are zero. -/
theorem perturbation_nonzero (s : PSet K) (h : s.perturbation ≠ 0) : ∀ p ∈ calcPerturbations s, p ≠ 0 := by
  intro p hp
  obtain ⟨v, -, rfl⟩ := List.mem_map.mp hp
  unfold perturbOf
  split_ifs with hc
  · refine mul_ne_zero ?_ h
    rintro rfl
    rw [abs_zero] at hc
    have : (0 : K) < 1 / 10 ^ 10 := by positivity
    exact absurd hc.2 (not_lt.mpr this.le)
  · exact h

def relSet : PSet ℚ := { sampleSet with perturbation := 1 / 4, pertRel := true }

example : SameShape relSet 2 1 := by
  refine ⟨⟨rfl, rfl⟩, ?_⟩
  intro v hv
  simp only [relSet, sampleSet, List.mem_cons, List.not_mem_nil, or_false] at hv
  rcases hv with rfl | rfl <;> exact ⟨rfl, rfl⟩
example : calcPerturbations relSet = [1 / 4, 1] ∧ relSet.perturbation ≠ 0 := by decide +kernel
example : resultCoeff exact relSet samplePredict 0 0 = .ok 3 ∧
    (List.range 2).map (fun ip => resultPerturbed exact relSet (calcPerturbations relSet) samplePredict ip 1 0) =
      [.ok (7 + 1 / 4), .ok (7 + 1 / 2)] := by decide +kernel
example : resultPerturbed exact { relSet with mask := some fun i _ => i == 0 }
    (calcPerturbations { relSet with mask := some fun i _ => i == 0 }) samplePredict 0 0 0 = .error .ub := by
  decide +kernel

/-! ## Coefficients -/

private theorem flat_set (m : Mat K) (f : Nat → Option K) (i : Nat) :
    (m.setFlat f).flat i = (f i).getD (m.flat i) := by
  simp only [Mat.flat, Mat.setFlat]
  rw [Nat.mul_comm, Nat.mod_add_div]

private theorem range_filter_succ (k : Nat → Bool) (n : Nat) :
    (List.range (n + 1)).filter k = (List.range n).filter k ++ if k n then [n] else [] := by
  rw [List.range_succ, List.filter_append]
  congr 1
  cases h : k n <;> simp [h]

private theorem rank_mono (k : Nat → Bool) (i n : Nat) (hk : k i = true) (h : i < n) : rank k i < rank k n := by
  induction n with
  | zero => omega
  | succ n ih =>
    rw [rank, rank, range_filter_succ]
    by_cases hi : i = n
    · subst hi; simp [hk]
    · have := ih (by omega)
      rw [rank, rank] at this
      rw [List.length_append]; omega

private theorem map_rank {β : Type} (k : Nat → Bool) (f : Nat → β) (n : Nat) :
    ((List.range n).filter k).map (fun i => f (rank k i)) = (List.range (rank k n)).map f := by
  induction n with
  | zero => simp [rank]
  | succ n ih =>
    rw [range_filter_succ, List.map_append, ih]
    rw [show rank k (n + 1) = rank k n + if k n then 1 else 0 by
      rw [rank, range_filter_succ, rank, List.length_append]; cases k n <;> simp]
    cases h : k n
    · simp
    · simp [List.range_succ]

/-- Replaced coefficients are read back, and the coefficients that are not in the mask are unchanged. -/
theorem replace_read (m n : Mat K) (mask : Option (Nat → Nat → Bool)) (u : Bool) (new : List K)
    (h : replaceCoeff m mask u new = .ok n) (hl : new.length = (copyValues m mask u).length) :
    copyValues n mask u = new ∧ n.nx = m.nx ∧ n.ny = m.ny ∧
      ∀ k, u = true → mask = some k → ∀ i, k (i % m.nx) (i / m.nx) = false → n.flat i = m.flat i := by
  have plain : ∀ (n : Mat K), (if m.nx * m.ny < new.length then Except.error Err.ub
      else .ok (m.setFlat fun i => new[i]?)) = .ok n → new.length = m.nx * m.ny →
      (List.range (n.nx * n.ny)).map n.flat = new ∧ n.nx = m.nx ∧ n.ny = m.ny := by
    intro n h hl
    rw [if_neg (by omega)] at h
    obtain rfl := Except.ok.inj h
    refine ⟨?_, rfl, rfl⟩
    show (List.range (m.nx * m.ny)).map _ = new
    apply List.ext_getElem?
    intro i
    rw [List.getElem?_map]
    by_cases hi : i < new.length
    · rw [List.getElem?_range (by omega), Option.map_some, flat_set, List.getElem?_eq_getElem hi]; rfl
    · rw [List.getElem?_eq_none (by simpa using by omega), List.getElem?_eq_none (by omega)]; rfl
  cases u with
  | false =>
    obtain ⟨h1, h2, h3⟩ := plain n (by cases mask <;> exact h) (by cases mask <;> simpa [copyValues] using hl)
    refine ⟨by cases mask <;> exact h1, h2, h3, ?_⟩
    intro k hk; cases hk
  | true =>
    cases mask with
    | none =>
      obtain ⟨h1, h2, h3⟩ := plain n h (by simpa [copyValues] using hl)
      refine ⟨h1, h2, h3, ?_⟩
      intro k _ hk; cases hk
    | some k =>
      have hl' : new.length = rank (fun i => k (i % m.nx) (i / m.nx)) (m.nx * m.ny) := by
        simpa [copyValues, rank] using hl
      simp only [replaceCoeff] at h
      rw [if_neg (by omega)] at h
      obtain rfl := Except.ok.inj h
      refine ⟨?_, rfl, rfl, ?_⟩
      · rw [copyValues]
        show ((List.range (m.nx * m.ny)).filter fun i => k (i % m.nx) (i / m.nx)).map _ = new
        rw [List.map_congr_left (g := fun i => new.getD (rank (fun i => k (i % m.nx) (i / m.nx)) i) 0), map_rank
          (fun i => k (i % m.nx) (i / m.nx)) (fun j => new.getD j 0), ← hl']
        · apply List.ext_getElem?
          intro i
          rw [List.getElem?_map]
          by_cases hi : i < new.length
          · rw [List.getElem?_range hi, Option.map_some, List.getD_eq_getElem?_getD,
              List.getElem?_eq_getElem hi]; rfl
          · rw [List.getElem?_eq_none (by simpa using by omega), List.getElem?_eq_none (by omega)]; rfl
        · intro i hi
          rw [List.mem_filter, List.mem_range] at hi
          have hr := rank_mono (fun i => k (i % m.nx) (i / m.nx)) i _ hi.2 hi.1
          rw [flat_set, if_pos hi, List.getD_eq_getElem?_getD, List.getElem?_eq_getElem (by omega)]
          rfl
      · intro k' _ hk' i hi
        obtain rfl := Option.some.inj hk'
        rw [flat_set, if_neg (by rw [hi]; simp)]
        rfl

private theorem setScalar_values (v w : PVal K) (c : Nat) (x : K) (err : Option K) (h : setScalar v c x err = .ok w) :
    w.grid = v.grid ∧ w.values = v.values.setFlat fun i => if i = c then some x else none := by
  cases err with
  | none =>
    simp only [setScalar] at h
    split_ifs at h
    obtain rfl := Except.ok.inj h
    exact ⟨rfl, rfl⟩
  | some e =>
    simp only [setScalar] at h
    split_ifs at h
    obtain rfl := Except.ok.inj h
    exact ⟨rfl, rfl⟩

/-- The cell of the set that a location in the solve grid has, and for scalars the element of its values. -/
def Cell (s : PSet K) (solve : Grid K) (loc : Nat × Nat) (id : Nat) (v : PVal K) : Prop :=
  findCell exact loc solve s.grid = .ok id ∧ s.values[id]? = some v

/-- C192: after `setCoeff` the coefficients of the location are the new ones. Nothing else changes: neither the
values of other cells, nor coefficients that are not in the mask, nor other scalars, nor the settings. -/
theorem set_get (s t : PSet K) (perts p : List K) (solve : Grid K) (loc : Nat × Nat) (new : List K)
    (errs : Option (List K)) (u : Bool) (old : List K) (h : setCoeff exact s perts solve loc new errs u = .ok (t, p))
    (hg : getCoeff exact s solve loc u = .ok old) (hl : new.length = old.length) :
    getCoeff exact t solve loc u = .ok new ∧
    (∃ id v w, Cell s solve loc id v ∧ t = { s with values := s.values.set id w } ∧ w.grid = v.grid ∧
      w.values.nx = v.values.nx ∧ w.values.ny = v.values.ny ∧
      (∀ k, s.scalar = false → u = true → s.mask = some k → ∀ i, k (i % v.values.nx) (i / v.values.nx) = false →
        w.values.flat i = v.values.flat i) ∧
      (∀ c, s.scalar = true → findCell exact loc solve v.grid = .ok c → ∀ i, i ≠ c →
        w.values.flat i = v.values.flat i)) := by
  rw [setCoeff] at h
  rw [getCoeff] at hg
  cases hid : findCell exact loc solve s.grid with
  | error e => rw [hid] at h; cases h
  | ok id =>
    rw [hid] at h hg
    simp only at h hg
    cases hv : s.values[id]? with
    | none => rw [hv] at h; cases h
    | some v =>
      rw [hv] at h hg
      simp only at h hg
      have hlt : id < s.values.length := (List.getElem?_eq_some_iff.mp hv).1
      have hset : ∀ w, (s.put id w).values[id]? = some w := fun w => by
        simp [PSet.put, List.getElem?_set_self hlt]
      rcases Bool.eq_false_or_eq_true s.scalar with hs | hs
      · rw [hs] at h hg
        simp only [if_true] at h hg
        cases hc : findCell exact loc solve v.grid with
        | error e => rw [hc] at h; cases h
        | ok c =>
          rw [hc] at h hg
          simp only at h hg
          split_ifs at hg with hcl
          obtain rfl := Except.ok.inj hg
          cases hn : new.head? with
          | none => rw [hn] at h; cases h
          | some x =>
            rw [hn] at h
            simp only at h
            obtain rfl : new = [x] := by
              cases new with
              | nil => cases hn
              | cons a r =>
                simp at hn; subst hn
                cases r with
                | nil => rfl
                | cons _ _ => simp at hl
            cases hw : setScalar v c x (errs.bind List.head?) with
            | error e => rw [hw] at h; cases h
            | ok w =>
              rw [hw] at h
              simp only [Except.ok.injEq, Prod.mk.injEq] at h
              obtain ⟨rfl, -⟩ := h
              have hwv := setScalar_values v w c x _ hw
              refine ⟨?_, id, v, w, ⟨hid, hv⟩, rfl, hwv.1, by rw [hwv.2]; rfl, by rw [hwv.2]; rfl, ?_, ?_⟩
              · have e1 : (s.put id w).grid = s.grid := rfl
                have e2 : (s.put id w).scalar = true := hs
                rw [getCoeff, e1, hid]
                simp only
                rw [hset]
                simp only
                rw [e2, if_pos rfl, hwv.1, hc]
                simp only
                have e3 : w.values.nx * w.values.ny = v.values.nx * v.values.ny := by rw [hwv.2]; rfl
                rw [e3, if_pos hcl, hwv.2, flat_set, if_pos rfl]
                rfl
              · intro k hk; rw [hs] at hk; cases hk
              · intro c' _ hc' i hi
                obtain rfl := Except.ok.inj (hc.symm.trans hc')
                rw [hwv.2, flat_set, if_neg hi]; rfl
      · rw [hs] at h hg
        simp only [Bool.false_eq_true, if_false] at h hg
        obtain rfl := Except.ok.inj hg
        cases hm : replaceCoeff v.values s.mask u new with
        | error e => rw [hm] at h; simp at h
        | ok m =>
          cases he : newErrors v s.mask u errs with
          | error e => rw [hm, he] at h; simp at h
          | ok e =>
            rw [hm, he] at h
            simp only [Except.ok.injEq, Prod.mk.injEq] at h
            obtain ⟨rfl, -⟩ := h
            obtain ⟨r1, r2, r3, r4⟩ := replace_read v.values m s.mask u new hm hl
            refine ⟨?_, id, v, { v with values := m, errors := e }, ⟨hid, hv⟩, rfl, rfl, r2, r3, ?_, ?_⟩
            · have e1 : ∀ w, (s.put id w).grid = s.grid := fun _ => rfl
              have e2 : ∀ w, (s.put id w).scalar = false := fun _ => hs
              rw [getCoeff, e1, hid]
              simp only
              rw [hset]
              simp only
              rw [e2, if_neg (by simp)]
              exact congrArg _ r1
            · intro k _ hu hk i hi
              exact r4 k hu hk i hi
            · intro c hc; rw [hs] at hc; cases hc

/-- C192: the perturbations stay those of the first cell. -/
theorem perturbations_current (s t : PSet K) (p : List K) (solve : Grid K) (loc : Nat × Nat) (new : List K)
    (errs : Option (List K)) (u : Bool)
    (h : setCoeff exact s (calcPerturbations s) solve loc new errs u = .ok (t, p)) : p = calcPerturbations t := by
  have other : ∀ id (w : PVal K), id ≠ 0 → calcPerturbations (s.put id w) = calcPerturbations s := by
    intro id w hid
    have : firstValue (s.put id w) = firstValue s := by
      simp only [firstValue, PSet.put]
      cases s.values with
      | nil => simp
      | cons a r =>
        cases id with
        | zero => exact absurd rfl hid
        | succ id => simp
    simp only [calcPerturbations, this]
    rfl
  rw [setCoeff] at h
  cases hid : findCell exact loc solve s.grid with
  | error e => rw [hid] at h; cases h
  | ok id =>
    rw [hid] at h
    simp only at h
    cases hv : s.values[id]? with
    | none => rw [hv] at h; cases h
    | some v =>
      rw [hv] at h
      simp only at h
      have hlt : id < s.values.length := (List.getElem?_eq_some_iff.mp hv).1
      rcases Bool.eq_false_or_eq_true s.scalar with hs | hs
      · rw [hs] at h
        simp only [if_true] at h
        cases hc : findCell exact loc solve v.grid with
        | error e => rw [hc] at h; cases h
        | ok c =>
          rw [hc] at h
          simp only at h
          cases hn : new.head? with
          | none => rw [hn] at h; cases h
          | some x =>
            rw [hn] at h
            simp only at h
            cases hw : setScalar v c x (errs.bind List.head?) with
            | error e => rw [hw] at h; cases h
            | ok w =>
              rw [hw] at h
              simp only [Except.ok.injEq, Prod.mk.injEq] at h
              obtain ⟨rfl, rfl⟩ := h
              by_cases hc0 : c = 0
              · rw [if_pos hc0]
              · rw [if_neg hc0]
                by_cases hid0 : id = 0
                · subst hid0
                  have hwv : w.values.flat 0 = v.values.flat 0 := by
                    rw [(setScalar_values v w c x _ hw).2, flat_set, if_neg (Ne.symm hc0)]; rfl
                  have f1 : firstValue s = v := by
                    rw [firstValue]
                    cases hvs : s.values with
                    | nil => rw [hvs] at hv; simp at hv
                    | cons a r => rw [hvs] at hv; simpa using hv
                  have f2 : firstValue (s.put 0 w) = w := by
                    simp only [firstValue, PSet.put]
                    cases hvs : s.values with
                    | nil => rw [hvs] at hv; simp at hv
                    | cons a r => simp
                  have e2 : (s.put 0 w).scalar = true := hs
                  rw [calcPerturbations, calcPerturbations, e2, hs, if_pos rfl, if_pos rfl, f1, f2, hwv]
                  rfl
                · exact (other id w hid0).symm
      · rw [hs] at h
        simp only [Bool.false_eq_true, if_false] at h
        cases hm : replaceCoeff v.values s.mask u new with
        | error e => rw [hm] at h; simp at h
        | ok m =>
          cases he : newErrors v s.mask u errs with
          | error e => rw [hm, he] at h; simp at h
          | ok e =>
            rw [hm, he] at h
            simp only [Except.ok.injEq, Prod.mk.injEq] at h
            obtain ⟨rfl, rfl⟩ := h
            by_cases hid0 : id = 0
            · rw [if_pos hid0]
            · rw [if_neg hid0]; exact (other _ _ hid0).symm

/-! An example: the second cell of the set of C187, all coefficients and the second one only. -/

example : getCoeff exact sampleSet sampleGrid (1, 0) true = .ok [3, 8] := by decide +kernel
example : ((setCoeff exact sampleSet [] sampleGrid (1, 0) [5, 6] none true).bind fun r =>
    getCoeff exact r.1 sampleGrid (1, 0) true) = .ok [5, 6] := by decide +kernel
example : ((setCoeff exact { sampleSet with mask := some fun i _ => i == 1 } [] sampleGrid (1, 0) [6] (some [2])
    true).bind fun r => getCoeff exact r.1 sampleGrid (1, 0) false) = .ok [3, 6] := by decide +kernel

end DP3.ParmEval
