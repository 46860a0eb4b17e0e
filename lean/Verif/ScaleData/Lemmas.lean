import Verif.ScaleData.Spec

namespace DP3.ScaleData

set_option linter.unusedSimpArgs false
set_option linter.unusedSectionVars false

variable {K : Type} [Field K] [LinearOrder K] [IsStrictOrderedRing K]

theorem sum_mul_left (l : List K) (x : K) : (l.map fun a => x * a).sum = x * l.sum := by
  induction l with
  | nil => simp
  | cons a l ih => simp only [List.map_cons, List.sum_cons, ih]; ring

theorem polynomial_cons (a : K) (l : List K) (f : K) :
    polynomial (a :: l) f = a + f / 1000000 * polynomial l f := by
  simp only [polynomial, List.length_cons, List.range_succ_eq_map, List.map_cons, List.map_map,
    List.sum_cons, List.getD_cons_zero, pow_zero, mul_one]
  rw [← sum_mul_left, List.map_map]
  congr 2
  refine List.map_congr_left fun k _ => ?_
  simp only [Function.comp, List.getD_cons_succ, pow_succ]
  ring

theorem evalPoly_eq (coeff : List K) (h : coeff ≠ []) (f : K) :
    evalPoly coeff f = polynomial coeff f := by
  induction coeff with
  | nil => exact absurd rfl h
  | cons a l ih =>
    rw [polynomial_cons]
    cases l with
    | nil => simp [evalPoly, polynomial]
    | cons b l =>
      rw [← ih (by simp)]
      simp only [evalPoly, List.dropLast_cons₂, List.foldr_cons, List.getLast?_cons_cons]
      ring

theorem modify_get {A : Type} (l : List A) (n k : Nat) (g : A → A) :
    (l.modify n g)[k]? = (l[k]?).map fun v => if n = k then g v else v := by
  rw [List.getElem?_modify]
  rfl

theorem countUsed_spec (rows : List (Nat × Nat)) : ∀ (l : List K),
    (∀ r ∈ rows, r.1 < l.length) →
    ∃ l', rows.foldlM (m := Except Err) (fun (l : List K) r =>
        if r.1 < l.length then .ok (l.modify r.1 (· + 1 / 2 * r.2)) else .error .ub) l = .ok l' ∧
      l'.length = l.length ∧ ∀ (a : Nat) (v : K), l[a]? = some v →
        l'[a]? = some (v + ((rows.filter fun r => r.1 == a).map fun r => (r.2 : K)).sum / 2) := by
  induction rows with
  | nil => intro l _; exact ⟨l, rfl, rfl, by simp⟩
  | cons r rows ih =>
    intro l h
    have hr := h r List.mem_cons_self
    obtain ⟨l', h1, h2, h3⟩ := ih (l.modify r.1 (· + 1 / 2 * r.2)) (fun r' hr' => by
      rw [List.length_modify]
      exact h r' (List.mem_cons_of_mem _ hr'))
    refine ⟨l', ?_, by rw [h2, List.length_modify], ?_⟩
    · simp only [List.foldlM_cons, if_pos hr]
      exact h1
    · intro a v hv
      have := h3 a (if r.1 = a then v + 1 / 2 * r.2 else v) (by rw [modify_get, hv]; rfl)
      rw [this]
      by_cases e : r.1 = a
      · simp only [if_pos e, List.filter_cons, beq_iff_eq, e, if_true, List.map_cons, List.sum_cons]
        congr 1; ring
      · simp only [if_neg e, List.filter_cons, beq_iff_eq, e, if_false]

theorem sizeFactors_spec (i : Info K) (h : ∀ r ∈ i.fields, r.1 < i.nAntTable) :
    ∃ e, sizeFactors i = .ok e ∧ e.length = i.nAntTable ∧ ∀ a < i.nAntTable,
      e[a]? = some (if usedTiles i a = 0 then none
        else some ((if i.isLba then 48 else 24) / usedTiles i a)) := by
  obtain ⟨l', h1, h2, h3⟩ := countUsed_spec i.fields (List.replicate i.nAntTable (0 : K))
    (by simpa using h)
  refine ⟨_, by rw [sizeFactors, countUsed, h1]; rfl, by simp [h2], fun a ha => ?_⟩
  have := h3 a 0 (by simp [ha])
  rw [zero_add] at this
  simp only [List.getElem?_map, this, Option.map_some]
  rfl

theorem extra_spec (c : Cfg K) (i : Info K) (hv : Valid c i) :
    ∃ e, extraFactors c i = .ok e ∧ ∀ a < i.names.length, e[a]? = some
      (if c.scaleSize = some false then some 1 else if usedTiles i a = 0 then none
        else some ((if i.isLba then 48 else 24) / usedTiles i a)) := by
  by_cases hs : c.scaleSize = some false
  · refine ⟨List.replicate i.names.length (some 1), by simp [extraFactors, hs], ?_⟩
    intro a ha
    simp [hs, ha]
  · obtain ⟨ht, hf⟩ := hv.table hs
    obtain ⟨e, h1, h2, h3⟩ := sizeFactors_spec i hf
    refine ⟨e, ?_, fun a ha => by rw [if_neg hs]; exact h3 a (by omega)⟩
    have : c.scaleSize = some true ∨ c.scaleSize = none := by
      match h : c.scaleSize with
      | none => exact Or.inr rfl
      | some true => exact Or.inl rfl
      | some false => exact absurd h hs
    simp only [extraFactors, if_pos this, h1]
    show (if e.length ≠ i.names.length then _ else _) = _
    rw [if_neg (by omega)]

theorem addStation_spec (c : Cfg K) (i : Info K) (hv : Valid c i) (e : List (Option K))
    (he : ∀ a < i.names.length, e[a]? = some
      (if c.scaleSize = some false then some 1 else if usedTiles i a = 0 then none
        else some ((if i.isLba then 48 else 24) / usedTiles i a)))
    (fs : List (List (Option K))) (ha : fs.length < i.names.length) :
    ∃ g : List (Option K), addStation c i e fs fs.length = .ok (fs ++ [g]) ∧
      ∀ (ch : Nat) (f : K), i.freqs[ch]? = some f →
        ∃ v, g[ch]? = some v ∧ StationFactor c i fs.length f v := by
  obtain ⟨name, hname⟩ : ∃ n, i.names[fs.length]? = some n := ⟨_, List.getElem?_eq_getElem ha⟩
  obtain ⟨j, hj⟩ : ∃ j, (patterns c).findIdx? (fun p => c.matches_ p name) = some j := by
    have : ((patterns c).findIdx? (fun p => c.matches_ p name)).isSome := by
      rw [List.findIdx?_isSome, List.any_eq_true]
      exact ⟨"*", by simp [patterns], hv.star name⟩
    exact Option.isSome_iff_exists.1 this
  obtain ⟨hjlt, hjm, hjn⟩ := List.findIdx?_eq_some_iff_getElem.1 hj
  have hlen : (coeffs c i).length = (patterns c).length := by
    simp [coeffs, patterns, hv.sizes]
  obtain ⟨coeff, hc⟩ : ∃ x, (coeffs c i)[j]? = some x :=
    ⟨_, List.getElem?_eq_getElem (by omega)⟩
  have hne : coeff ≠ [] := by
    have hm := List.mem_of_getElem? hc
    simp only [coeffs, List.mem_append, List.mem_singleton] at hm
    rcases hm with hm | hm
    · exact hv.nonempty _ hm
    · rw [hm]; split
      · exact hv.defaults.1
      · exact hv.defaults.2
  have hsf : ∀ f v, (v = if c.scaleSize = some true ∨
        (c.scaleSize = none ∧ j = c.stations.length) then
        (if usedTiles i fs.length = 0 then none
          else some (polynomial coeff f * ((if i.isLba then 48 else 24) / usedTiles i fs.length)))
      else some (polynomial coeff f)) → StationFactor c i fs.length f v := by
    intro f v hvv
    refine ⟨name, coeff, j, hname, ⟨_, List.getElem?_eq_getElem hjlt, hjm⟩, ?_, hc, hvv⟩
    intro j' hj' pat hp
    have hlt : j' < (patterns c).length := by omega
    have e1 : (patterns c)[j']? = some pat := hp
    rw [List.getElem?_eq_getElem hlt] at e1
    have := hjn j' hj'
    simp only [Option.some.injEq] at e1
    rw [e1] at this
    simpa using this
  have huse : useSize c j = true ↔
      (c.scaleSize = some true ∨ (c.scaleSize = none ∧ j = c.stations.length)) := by
    simp [useSize, patterns]
  by_cases hu : useSize c j = true
  · have hcond := huse.1 hu
    have hnf : c.scaleSize ≠ some false := by
      rcases hcond with h | ⟨h, _⟩ <;> rw [h] <;> simp
    have hea := he fs.length ha
    rw [if_neg hnf] at hea
    refine ⟨(scales i coeff).map fun x => mulF x (if usedTiles i fs.length = 0 then none
        else some ((if i.isLba then 48 else 24) / usedTiles i fs.length)), ?_, ?_⟩
    · simp only [addStation, hname, hj, hc, hu, if_true, hea]
      rw [if_pos (by simp)]
      congr 1
      apply List.ext_getElem?
      intro k
      rw [modify_get]
      rcases Nat.lt_trichotomy k fs.length with h | h | h
      · rw [List.getElem?_append_left h, List.getElem?_append_left h,
          List.getElem?_eq_getElem h, Option.map_some, if_neg (by omega)]
      · subst h
        simp
      · rw [List.getElem?_eq_none (by simp; omega), List.getElem?_eq_none (by simp; omega)]
        rfl
    · intro ch f hf
      refine ⟨_, ?_, hsf f _ rfl⟩
      rw [if_pos hcond]
      simp only [scales, List.getElem?_map, hf, Option.map_some, evalPoly_eq coeff hne]
      by_cases h0 : usedTiles i fs.length = 0
      · simp [h0, mulF]
      · simp only [if_neg h0, mulF]
        rfl
  · refine ⟨scales i coeff, ?_, ?_⟩
    · simp only [addStation, hname, hj, hc, hu]
      rfl
    · intro ch f hf
      refine ⟨_, ?_, hsf f _ rfl⟩
      rw [if_neg (fun h => hu (huse.2 h))]
      simp only [scales, List.getElem?_map, hf, Option.map_some, evalPoly_eq coeff hne]

theorem stationFactors_spec (c : Cfg K) (i : Info K) (hv : Valid c i) :
    ∃ fs, stationFactors c i = .ok fs ∧ fs.length = i.names.length ∧
      ∀ a < i.names.length, ∃ g : List (Option K), fs[a]? = some g ∧
        ∀ (ch : Nat) (f : K), i.freqs[ch]? = some f →
          ∃ v, g[ch]? = some v ∧ StationFactor c i a f v := by
  obtain ⟨e, he1, he2⟩ := extra_spec c i hv
  have key : ∀ n ≤ i.names.length, ∃ fs, (List.range n).foldlM (addStation c i e) [] = .ok fs ∧
      fs.length = n ∧ ∀ a < n, ∃ g : List (Option K), fs[a]? = some g ∧
        ∀ (ch : Nat) (f : K), i.freqs[ch]? = some f →
          ∃ v, g[ch]? = some v ∧ StationFactor c i a f v := by
    intro n
    induction n with
    | zero => intro _; exact ⟨[], rfl, rfl, by simp⟩
    | succ n ih =>
      intro hn
      obtain ⟨fs, h1, h2, h3⟩ := ih (by omega)
      obtain ⟨g, g1, g2⟩ := addStation_spec c i hv e he2 fs (by omega)
      rw [h2] at g1 g2
      refine ⟨fs ++ [g], ?_, by simp [h2], ?_⟩
      · rw [List.range_succ, List.foldlM_append, h1]
        show List.foldlM (addStation c i e) fs [n] = _
        rw [List.foldlM_cons, g1]; rfl
      · intro a ha
        rcases Nat.lt_succ_iff_lt_or_eq.1 ha with h | rfl
        · obtain ⟨g', h', h''⟩ := h3 a h
          exact ⟨g', by rw [List.getElem?_append_left (by omega)]; exact h', h''⟩
        · exact ⟨g, by rw [← h2]; simp, g2⟩
  obtain ⟨fs, h1, h2, h3⟩ := key i.names.length (Nat.le_refl _)
  refine ⟨fs, ?_, h2, h3⟩
  have hany : (coeffs c i).any List.isEmpty = false := by
    rw [List.any_eq_false]
    intro l hl
    simp only [coeffs, List.mem_append, List.mem_singleton] at hl
    rcases hl with hm | hm
    · simpa using hv.nonempty _ hm
    · rw [hm]; split
      · simpa using hv.defaults.1
      · simpa using hv.defaults.2
  simp only [stationFactors, hv.sizes, hany, he1, ne_eq, not_true_eq_false, if_false,
    Bool.false_eq_true]
  exact h1

/-! ### BDA rows -/

theorem scale_prefix (F : Nat → Nat → K) (nc : Nat) (r : Row) (mem : List (Cx K)) (n : Nat)
    (h : r.off + n ≤ mem.length) :
    ∃ m', (List.range n).foldlM (fun (m : List (Cx K)) x =>
        if r.off + x < m.length then some (m.modify (r.off + x) (Cx.ofReal (F r.bl (x / nc)) * ·))
        else none) mem = some m' ∧ m'.length = mem.length ∧
      ∀ e : Nat, m'[e]? = (mem[e]?).map fun v =>
        if r.off ≤ e ∧ e < r.off + n then Cx.ofReal (F r.bl ((e - r.off) / nc)) * v else v := by
  induction n with
  | zero =>
    refine ⟨mem, rfl, rfl, fun e => ?_⟩
    have : ¬ (r.off ≤ e ∧ e < r.off + 0) := by omega
    simp only [this, if_false, Option.map_id']
  | succ n ih =>
    obtain ⟨m', h1, h2, h3⟩ := ih (by omega)
    refine ⟨m'.modify (r.off + n) (Cx.ofReal (F r.bl (n / nc)) * ·), ?_, by simp [h2], fun e => ?_⟩
    · rw [List.range_succ, List.foldlM_append, h1]
      rw [Option.bind_eq_bind, Option.bind_some, List.foldlM_cons, if_pos (by omega)]; rfl
    · rw [modify_get, h3, Option.map_map]
      congr 1
      funext v
      simp only [Function.comp]
      by_cases he : r.off + n = e
      · have h4 : ¬ (r.off ≤ e ∧ e < r.off + n) := by omega
        have h5 : r.off ≤ e ∧ e < r.off + (n + 1) := by omega
        rw [if_pos he, if_neg h4, if_pos h5, show e - r.off = n by omega]
      · by_cases h4 : r.off ≤ e ∧ e < r.off + n
        · rw [if_neg he, if_pos h4, if_pos (by omega)]
        · rw [if_neg he, if_neg h4, if_neg (by omega)]

theorem scaleRow_spec (F : Nat → Nat → K) (nf nc : Nat) (mem : List (Cx K)) (r : Row)
    (h : r.off + nf * nc ≤ mem.length) :
    ∃ m', scaleRow F nf nc mem r = some m' ∧ m'.length = mem.length ∧
      ∀ e : Nat, m'[e]? = (mem[e]?).map fun v =>
        if r.off ≤ e ∧ e < r.off + nf * nc then Cx.ofReal (F r.bl ((e - r.off) / nc)) * v else v :=
  scale_prefix F nc r mem (nf * nc) h

theorem scaleRow_length (F : Nat → Nat → K) (nc : Nat) (r : Row) (l : List Nat) :
    ∀ (mem m' : List (Cx K)), l.foldlM (fun (m : List (Cx K)) x =>
        if r.off + x < m.length then some (m.modify (r.off + x) (Cx.ofReal (F r.bl (x / nc)) * ·))
        else none) mem = some m' → m'.length = mem.length ∧ ∀ x ∈ l, r.off + x < mem.length := by
  induction l with
  | nil => intro mem m' h; simp at h; simp [h]
  | cons x l ih =>
    intro mem m' h
    rw [List.foldlM_cons] at h
    by_cases hx : r.off + x < mem.length
    · rw [if_pos hx] at h
      obtain ⟨h1, h2⟩ := ih _ _ h
      rw [List.length_modify] at h1 h2
      exact ⟨h1, fun y hy => by
        rcases List.mem_cons.1 hy with rfl | hy
        · exact hx
        · exact h2 y hy⟩
    · rw [if_neg hx] at h
      exact absurd h (by simp)

end DP3.ScaleData
