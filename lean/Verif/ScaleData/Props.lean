import Verif.ScaleData.Lemmas

/-!
# Properties of ScaleData
-/

namespace DP3.ScaleData

set_option linter.unusedSimpArgs false
set_option linter.unusedSectionVars false

variable {K : Type} [Field K] [LinearOrder K] [IsStrictOrderedRing K]

/-! ## C156: the factors of stations and baselines -/

/-- C156. Every visibility of regular data is multiplied by the root of the product of the factors of
its two stations; the factor of a station is the polynomial of the first pattern that matches its
name, with the size correction exactly if it is asked for, or not given and the default coefficients
are used. If a station with size correction uses no element, the result is not finite. -/
theorem scale_right (c : Cfg K) (i : Info K) (hv : Valid c i) (data : Nat → Nat → Nat → Cx K)
    (bl ch p a1 a2 : Nat) (f : K) (h1 : i.ant1[bl]? = some a1) (h2 : i.ant2[bl]? = some a2)
    (ha1 : a1 < i.names.length) (ha2 : a2 < i.names.length) (hf : i.freqs[ch]? = some f) :
    ∃ v1 v2, StationFactor c i a1 f v1 ∧ StationFactor c i a2 f v2 ∧
      scaled c i data bl ch p = .ok (match v1, v2 with
        | some x, some y => some (Cx.ofReal (c.sqrt (x * y)) * data bl ch p)
        | _, _ => none) := by
  obtain ⟨fs, g1, _, g3⟩ := stationFactors_spec c i hv
  obtain ⟨l1, e1, k1⟩ := g3 a1 ha1
  obtain ⟨l2, e2, k2⟩ := g3 a2 ha2
  obtain ⟨v1, m1, s1⟩ := k1 ch f hf
  obtain ⟨v2, m2, s2⟩ := k2 ch f hf
  refine ⟨v1, v2, s1, s2, ?_⟩
  have hb : baselineFactor c i fs bl ch = .ok ((mulF v1 v2).map c.sqrt) := by
    simp only [baselineFactor, h1, h2, Option.bind_some, e1, e2, m1, m2]
  simp only [scaled, g1]
  show (do let f ← baselineFactor c i fs bl ch
           pure (f.map fun x => Cx.ofReal x * data bl ch p)) = _
  rw [hb]
  cases v1 <;> cases v2 <;> rfl

/-- C156. The factor of a station is determined by its name, the settings and the table. -/
theorem factor_unique (c : Cfg K) (i : Info K) (a : Nat) (f : K) (v w : Option K)
    (hv : StationFactor c i a f v) (hw : StationFactor c i a f w) : v = w := by
  obtain ⟨n, co, j, h1, ⟨pat, h2, h3⟩, h4, h5, h6⟩ := hv
  obtain ⟨n', co', j', k1, ⟨pat', k2, k3⟩, k4, k5, k6⟩ := hw
  obtain rfl : n = n' := by rw [h1] at k1; exact Option.some.inj k1
  have hj : j = j' := by
    rcases Nat.lt_trichotomy j j' with h | h | h
    · have := k4 j h pat h2; rw [h3] at this; exact absurd this (by simp)
    · exact h
    · have := h4 j' h pat' k2; rw [k3] at this; exact absurd this (by simp)
  subst hj
  obtain rfl : co = co' := by rw [h5] at k5; exact Option.some.inj k5
  rw [h6, k6]

/-- C156. The step refuses to start if the numbers of patterns and vectors differ, or if the size is
used and the table has another number of antennas. -/
theorem refused (c : Cfg K) (i : Info K)
    (h : c.stations.length ≠ c.coeffs.length ∨
      (c.scaleSize ≠ some false ∧ i.nAntTable ≠ i.names.length ∧
        ∀ r ∈ i.fields, r.1 < i.nAntTable)) : stationFactors c i = .error .throws := by
  by_cases hs : c.stations.length = c.coeffs.length
  · obtain ⟨h1, h2, h3⟩ := h.resolve_left (fun e => e hs)
    obtain ⟨e, g1, g2, _⟩ := sizeFactors_spec i h3
    have hc : c.scaleSize = some true ∨ c.scaleSize = none := by
      match h : c.scaleSize with
      | none => exact Or.inr rfl
      | some true => exact Or.inl rfl
      | some false => exact absurd h h1
    have he : extraFactors c i = .error .throws := by
      simp only [extraFactors, if_pos hc, g1]
      show (if e.length ≠ i.names.length then _ else _) = _
      rw [if_pos (by omega)]
    by_cases hany : (coeffs c i).any List.isEmpty = true
    · simp only [stationFactors, hs, hany, ne_eq, not_true_eq_false, if_false, if_true]
      rfl
    · simp only [stationFactors, hs, hany, ne_eq, not_true_eq_false, if_false, he]
      rfl
  · simp only [stationFactors, ne_eq, hs, not_false_eq_true, if_true]
    rfl

/-! ## C157: BDA data -/

theorem scaleRows_spec (F : Nat → Nat → K) (nf nc : Nat) (rows : List Row) :
    ∀ mem : List (Cx K), (∀ r ∈ rows, r.off + nf * nc ≤ mem.length) →
      ∃ m', scaleRows F nf nc mem rows = some m' ∧ m'.length = mem.length ∧
        ∀ e : Nat, m'[e]? = (mem[e]?).map fun v => rows.foldl (fun v r =>
          if r.off ≤ e ∧ e < r.off + nf * nc then Cx.ofReal (F r.bl ((e - r.off) / nc)) * v
          else v) v := by
  induction rows with
  | nil => intro mem _; exact ⟨mem, rfl, rfl, by simp⟩
  | cons r rows ih =>
    intro mem h
    obtain ⟨m1, a1, a2, a3⟩ := scaleRow_spec F nf nc mem r (h r List.mem_cons_self)
    obtain ⟨m2, b1, b2, b3⟩ := ih m1 (fun s hs => by rw [a2]; exact h s (List.mem_cons_of_mem _ hs))
    refine ⟨m2, ?_, by omega, fun e => ?_⟩
    · simp only [scaleRows, List.foldlM_cons, a1]
      exact b1
    · rw [b3, a3, Option.map_map]
      rfl

theorem fold_skip (F : Nat → Nat → K) (w nc e : Nat) (rows : List Row) (v : Cx K)
    (h : ∀ r ∈ rows, ¬ (r.off ≤ e ∧ e < r.off + w)) :
    rows.foldl (fun v r => if r.off ≤ e ∧ e < r.off + w then
      Cx.ofReal (F r.bl ((e - r.off) / nc)) * v else v) v = v := by
  induction rows generalizing v with
  | nil => rfl
  | cons r rows ih =>
    rw [List.foldl_cons, if_neg (h r List.mem_cons_self)]
    exact ih v fun s hs => h s (List.mem_cons_of_mem _ hs)

/-- C157, partial. If every row has as many channels and correlations as the factors, each visibility of
each row is multiplied once, by the factor of its baseline and channel. The full statement is about
rows with any number of channels; it is false (`bda_outside`, `bda_spill`). -/
theorem bda_partial (F : Nat → Nat → K) (nf nc : Nat) (mem : List (Cx K)) (rows : List Row)
    (hshape : ∀ r ∈ rows, r.nCh = nf ∧ r.nCorr = nc)
    (hin : ∀ r ∈ rows, r.off + r.nCh * r.nCorr ≤ mem.length)
    (hdis : rows.Pairwise fun r s => r.off + r.nCh * r.nCorr ≤ s.off) :
    ∃ m', scaleRows F nf nc mem rows = some m' ∧ m'.length = mem.length ∧
      ∀ r ∈ rows, ∀ ch < r.nCh, ∀ p < r.nCorr,
        m'[r.off + (ch * r.nCorr + p)]? =
          (mem[r.off + (ch * r.nCorr + p)]?).map (Cx.ofReal (F r.bl ch) * ·) := by
  obtain ⟨m', h1, h2, h3⟩ := scaleRows_spec F nf nc rows mem (fun r hr => by
    have := hin r hr
    rwa [(hshape r hr).1, (hshape r hr).2] at this)
  refine ⟨m', h1, h2, fun r hr ch hch p hp => ?_⟩
  rw [h3]
  obtain ⟨e1, e2⟩ := hshape r hr
  rw [e1] at hch; rw [e2] at hp ⊢
  have hx : ch * nc + p < nf * nc := by
    calc ch * nc + p < ch * nc + nc := by omega
      _ = (ch + 1) * nc := by rw [Nat.succ_mul]
      _ ≤ nf * nc := Nat.mul_le_mul_right _ hch
  generalize hy : ch * nc + p = y at hx
  congr 1
  funext v
  obtain ⟨A, B, rfl⟩ := List.append_of_mem hr
  rw [List.foldl_append, List.foldl_cons]
  rw [List.pairwise_append, List.pairwise_cons] at hdis
  obtain ⟨_, ⟨hB, _⟩, hA⟩ := hdis
  rw [fold_skip F _ nc _ A v (fun s hs => by
    have h := hA s hs r List.mem_cons_self
    have := hshape s (by simp [hs])
    rw [this.1, this.2] at h
    omega), if_pos (by omega), fold_skip F _ nc _ B _ (fun s hs => by
    have h := hB s hs
    rw [e1, e2] at h
    omega)]
  have h0 : 0 < nc := by omega
  have : (r.off + y - r.off) / nc = ch := by
    rw [Nat.add_sub_cancel_left, ← hy, Nat.add_comm, Nat.add_mul_div_right _ _ h0,
      Nat.div_eq_of_lt hp, Nat.zero_add]
  rw [this]

/-- C157. If a row at the end of the buffer has fewer visibilities than the factors, memory outside the
buffer is written; this holds for every such buffer. -/
theorem bda_outside (F : Nat → Nat → K) (nf nc : Nat) (mem : List (Cx K)) (rows : List Row) (r : Row)
    (hr : r ∈ rows) (hend : r.off + r.nCh * r.nCorr = mem.length)
    (hshort : r.nCh * r.nCorr < nf * nc) : scaleRows F nf nc mem rows = none := by
  induction rows generalizing mem with
  | nil => simp at hr
  | cons s rows ih =>
    rw [scaleRows, List.foldlM_cons]
    cases h : scaleRow F nf nc mem s with
    | none => rfl
    | some m' =>
      obtain ⟨h1, h2⟩ := scaleRow_length F nc s _ mem m' h
      rcases List.mem_cons.1 hr with rfl | hr'
      · have := h2 (r.nCh * r.nCorr) (List.mem_range.2 hshort)
        omega
      · exact ih m' hr' (by omega)

/-- C157. A row that is not at the end and has fewer visibilities than the factors also scales the start
of the next row, with its own factors: for two rows of a buffer that has room, the first visibility
of the second row is scaled by both. -/
theorem bda_spill (F : Nat → Nat → K) (nf nc : Nat) (mem : List (Cx K)) (r s : Row)
    (hnext : s.off = r.off + r.nCh * r.nCorr) (hshort : r.nCh * r.nCorr < nf * nc)
    (hroom : s.off + nf * nc ≤ mem.length) :
    ∃ m', scaleRows F nf nc mem [r, s] = some m' ∧
      m'[s.off]? = (mem[s.off]?).map fun v =>
        Cx.ofReal (F s.bl 0) * (Cx.ofReal (F r.bl (r.nCh * r.nCorr / nc)) * v) := by
  obtain ⟨m', h1, _, h3⟩ := scaleRows_spec F nf nc [r, s] mem (by
    intro x hx
    simp only [List.mem_cons, List.not_mem_nil, or_false] at hx
    rcases hx with rfl | rfl <;> omega)
  refine ⟨m', h1, ?_⟩
  rw [h3]
  congr 1
  funext v
  simp only [List.foldl_cons, List.foldl_nil]
  rw [if_pos (by omega), if_pos (by omega), Nat.sub_self, Nat.zero_div,
    show s.off - r.off = r.nCh * r.nCorr by omega]

/-! ## Examples -/

/-- A station with coefficients and one without; the size is corrected by default. -/
def exCfg : Cfg ℚ where
  stations := ["CS1"]
  coeffs := [[1, 2]]
  scaleSize := none
  lba := [3]
  hba := [5, 0, 1]
  matches_ p n := p == "*" || p == n
  sqrt x := x

def exInfo : Info ℚ where
  isLba := false
  names := ["CS1", "RS2"]
  ant1 := [0]
  ant2 := [1]
  freqs := [1000000, 2000000]
  fields := [(0, 48), (1, 40), (1, 40)]
  nAntTable := 2

theorem exValid : Valid exCfg exInfo where
  sizes := rfl
  nonempty := by simp [exCfg]
  defaults := by simp [exCfg]
  table := fun _ => ⟨rfl, by simp [exInfo]⟩
  star := fun n => by simp [exCfg]

example := scale_right exCfg exInfo exValid (fun _ _ _ => ⟨1, 1⟩) 0 1 3 0 1 2000000 rfl rfl
  (by decide) (by decide) rfl

example : scaled exCfg exInfo (fun _ _ _ => ⟨1, 1⟩) 0 1 3 = .ok (some ⟨27, 27⟩) := by
  have : (scaled exCfg exInfo (fun _ _ _ => ⟨1, 1⟩) 0 1 3).toOption = some (some ⟨27, 27⟩) := by
    decide +kernel
  match h : scaled exCfg exInfo (fun _ _ _ => ⟨1, 1⟩) 0 1 3 with
  | .ok v => rw [h] at this; simp only [Except.toOption, Option.some.injEq] at this; rw [this]
  | .error e => rw [h] at this; simp [Except.toOption] at this

example : usedTiles exInfo 1 = 40 ∧ polynomial ([5, 0, 1] : List ℚ) 2000000 = 9 := by decide +kernel

example : StationFactor exCfg exInfo 0 1000000 (some 3) :=
  ⟨"CS1", [1, 2], 0, rfl, ⟨"CS1", rfl, by decide⟩, by simp, rfl, by decide +kernel⟩

example : stationFactors { exCfg with coeffs := [] } exInfo = .error .throws :=
  refused _ _ (Or.inl (by simp [exCfg]))

example : stationFactors exCfg { exInfo with names := ["CS1", "RS2", "new"] } = .error .throws :=
  refused _ _ (Or.inr ⟨by simp [exCfg], by simp [exInfo], by simp [exInfo]⟩)

def exRow (bl off nCh : Nat) : Row := ⟨bl, off, nCh, 1⟩

example := bda_partial (fun b ch => (b + ch + 2 : ℚ)) 2 1 [1, 1, 1, 1]
  [exRow 0 0 2, exRow 1 2 2] (by simp [exRow]) (by simp [exRow]) (by simp [exRow])

example : scaleRows (fun b ch => (b + ch + 2 : ℚ)) 2 1 [1, 1, 1] [exRow 0 0 2, exRow 1 2 1] = none :=
  bda_outside _ 2 1 _ _ (exRow 1 2 1) (by simp) rfl (by decide)

example : scaleRows (fun b ch => (b + ch + 2 : ℚ)) 2 1 [1, 1, 1] [exRow 0 0 1, exRow 1 1 2] =
    some [⟨2, 0⟩, ⟨9, 0⟩, ⟨4, 0⟩] := by decide +kernel

example := bda_spill (fun b ch => (b + ch + 2 : ℚ)) 2 1 [1, 1, 1] (exRow 0 0 1) (exRow 1 1 2) rfl
  (by decide) (by decide)

end DP3.ScaleData
