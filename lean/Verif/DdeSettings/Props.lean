import Verif.DdeSettings.Lemmas
import Mathlib.Data.List.TakeWhile
import Mathlib.Analysis.Real.Sqrt

/-!
# Properties of the settings of DDECal that are derived from the data
-/

namespace DP3.DdeSettings

set_option linter.unusedSimpArgs false
set_option linter.unusedSectionVars false

/-! ## C172: solutions per direction -/

/-- What the manual asks of `solutions_per_direction`, `solint` and `smoothness_dd_factors`: at most
one count per direction, all positive and divisors of the solution interval, more than one solution
only with an explicit interval, and no or one smoothness factor per direction. -/
def Fits (given : List Nat) (solint nDd n : Nat) : Prop :=
  given.length ≤ n ∧ (∀ v ∈ given, 0 < v ∧ v ∣ solint) ∧ (solint = 0 → ∀ v ∈ given, v = 1) ∧
    (nDd = 0 ∨ nDd = n)

theorem prepare_fits (given : List Nat) (solint nDd n : Nat) (hn : 0 < n)
    (h : Fits given solint nDd n) :
    prepare given solint nDd n = .ok (given ++ List.replicate (n - given.length) 1) := by
  obtain ⟨h1, h2, h3, h4⟩ := h
  have hmem : ∀ v ∈ given ++ List.replicate (n - given.length) 1, 0 < v ∧ v ∣ solint := by
    intro v hv
    rcases List.mem_append.1 hv with hv | hv
    · exact h2 v hv
    · rw [(List.mem_replicate.1 hv).2]; exact ⟨Nat.one_pos, one_dvd _⟩
  have hone : solint = 0 → ∀ v ∈ given ++ List.replicate (n - given.length) 1, v = 1 := by
    intro h0 v hv
    rcases List.mem_append.1 hv with hv | hv
    · exact h3 h0 v hv
    · exact (List.mem_replicate.1 hv).2
  have hne : given ++ List.replicate (n - given.length) 1 ≠ [] := by
    intro hh
    have := congrArg List.length hh
    rw [List.length_append, List.length_replicate, List.length_nil] at this
    omega
  unfold prepare
  rw [if_neg (by omega)]
  dsimp only
  generalize hp : given ++ List.replicate (n - given.length) 1 = padded at *
  rw [if_neg (fun h0 => absurd (hmem 0 h0).1 (lt_irrefl 0))]
  rw [if_neg (by
    simp only [List.any_eq_true, not_exists, not_and]
    intro v hv
    have := Nat.mod_eq_zero_of_dvd (hmem v hv).2
    simp [this])]
  obtain ⟨m, hm, hmm, hle⟩ := max?_isSome_pos padded hne
  rw [hm]
  dsimp only
  rw [if_neg (by
    rintro ⟨hm1, h0⟩
    have := hone h0 m hmm
    omega)]
  rw [if_neg (by
    rintro ⟨hm1, h0⟩
    rcases Nat.eq_zero_or_pos solint with hs | hs
    · have := hone hs m hmm; omega
    · have hd := Nat.le_of_dvd hs (hmem m hmm).2
      have := Nat.div_pos hd (by omega)
      omega)]
  rw [if_neg (by
    rintro ⟨ha, hb⟩
    rcases h4 with h4 | h4
    · exact ha h4
    · exact hb h4)]

/-- **C172.** `PrepareSubSolutionsPerDirection` accepts settings precisely when they fit.  (The
requirement of at least one direction is met in the steps, see `step_no_ub`.) -/
theorem prepare_accepts (given : List Nat) (solint nDd n : Nat) (hn : 0 < n) :
    (∃ r, prepare given solint nDd n = .ok r) ↔ Fits given solint nDd n := by
  constructor
  · rintro ⟨r, h⟩
    unfold prepare at h
    split at h
    · cases h
    · rename_i h1
      dsimp only at h
      split at h
      · cases h
      · rename_i h0
        split at h
        · cases h
        · rename_i hdiv
          split at h
          · cases h
          · rename_i m hm
            split at h
            · cases h
            · rename_i hz
              split at h
              · cases h
              · split at h
                · cases h
                · rename_i hf
                  have hmax := List.max?_eq_some_iff.1 hm
                  refine ⟨by omega, ?_, ?_, ?_⟩
                  · intro v hv
                    have hv' : v ∈ given ++ List.replicate (n - given.length) 1 :=
                      List.mem_append_left _ hv
                    refine ⟨?_, ?_⟩
                    · rcases Nat.eq_zero_or_pos v with hv0 | hv0
                      · subst hv0; exact absurd hv' h0
                      · exact hv0
                    · simp only [List.any_eq_true, not_exists, not_and] at hdiv
                      have := hdiv v hv'
                      simp only [bne_iff_ne, ne_eq, not_not] at this
                      exact Nat.dvd_of_mod_eq_zero this
                  · intro hs v hv
                    have hv' : v ∈ given ++ List.replicate (n - given.length) 1 :=
                      List.mem_append_left _ hv
                    have hle := hmax.2 v hv'
                    have hm1 : ¬ 1 < m := fun hm1 => hz ⟨hm1, hs⟩
                    have : v ≠ 0 := fun hv0 => h0 (hv0 ▸ hv')
                    omega
                  · by_cases hd : nDd = 0
                    · exact Or.inl hd
                    · by_cases hd2 : nDd = n
                      · exact Or.inr hd2
                      · exact absurd ⟨hd, hd2⟩ hf
  · intro h
    exact ⟨_, prepare_fits given solint nDd n hn h⟩

/-- **C172.** The result has one count per direction: the given ones, and one for every other
direction. -/
theorem prepare_result (given : List Nat) (solint nDd n : Nat) (hn : 0 < n) (r : List Nat)
    (h : prepare given solint nDd n = .ok r) :
    r.length = n ∧ (∀ d, (hd : d < given.length) → r[d]? = some given[d]) ∧
      (∀ d, given.length ≤ d → d < n → r[d]? = some 1) ∧ ∀ v ∈ r, 0 < v ∧ v ∣ solint := by
  have hfit := (prepare_accepts given solint nDd n hn).1 ⟨r, h⟩
  rw [prepare_fits given solint nDd n hn hfit] at h
  obtain rfl := Except.ok.inj h
  obtain ⟨h1, h2, -, -⟩ := hfit
  refine ⟨by simp; omega, ?_, ?_, ?_⟩
  · intro d hd
    rw [List.getElem?_append_left hd]
    simp
  · intro d hd hdn
    rw [List.getElem?_append_right hd, List.getElem?_replicate, if_pos (by omega)]
  · intro v hv
    rcases List.mem_append.1 hv with hv | hv
    · exact h2 v hv
    · rw [(List.mem_replicate.1 hv).2]; exact ⟨Nat.one_pos, one_dvd _⟩

/-- **C172.** In the steps the largest count is never taken of an empty list. -/
theorem step_no_ub (given : List Nat) (solint nDd n : Nat) :
    prepareStep given solint nDd n ≠ .error .ub := by
  unfold prepareStep
  split
  · simp
  · rename_i hn
    intro h
    unfold prepare at h
    split at h
    · cases h
    · dsimp only at h
      split at h
      · cases h
      · split at h
        · cases h
        · split at h
          · rename_i hm
            rw [List.max?_eq_none_iff] at hm
            have := congrArg List.length hm
            rw [List.length_append, List.length_replicate, List.length_nil] at this
            omega
          · split at h
            · cases h
            · split at h
              · cases h
              · split at h <;> cases h

/-- Without that check the function itself would read a value that does not exist. -/
theorem prepare_ub : prepare [] 4 0 0 = .error .ub := by decide

example : prepare [2, 4] 4 3 3 = .ok [2, 4, 1] ∧ prepare [3] 4 0 1 = .error .refused ∧
    prepare [2] 0 0 1 = .error .refused ∧ prepare [1] 0 0 2 = .ok [1, 1] ∧
    Fits [2, 4] 4 3 3 := by
  refine ⟨by decide, by decide, by decide, by decide, ?_⟩
  refine ⟨by decide, by decide, by decide, by decide⟩

/-! ## C173: one smoothness factor and direction per solution -/

/-- **C173.** `GetSolutionToDirectionVector` has one element per solution, and solution `i` of
direction `d` belongs to direction `d`. -/
theorem solution_direction (sub : List Nat) :
    (toDirection sub).length = sub.sum ∧
      ∀ d, (hd : d < sub.length) → ∀ i < sub[d],
        (toDirection sub)[(sub.take d).sum + i]? = some d := by
  refine ⟨toDirectionFrom_length 0 sub, ?_⟩
  intro d hd i hi
  have := toDirectionFrom_get 0 sub d hd i hi
  simpa [toDirection] using this

/-- **C173.** After the settings were accepted, the factors of the directions can be expanded, the
smoothness constraint accepts them, and every solution gets the factor of its direction. -/
theorem factors_per_solution {K : Type} (given : List Nat) (solint n : Nat) (factors : List K)
    (sub : List Nat) (h : prepareStep given solint factors.length n = .ok sub)
    (hsum : sub.sum < 2 ^ 32) :
    ∃ e, expand sub factors = some e ∧ setDdFactors sub e = .ok e ∧
      (factors ≠ [] → ∀ d, (hd : d < sub.length) → ∀ i < sub[d],
        e[(sub.take d).sum + i]? = factors[d]?) := by
  unfold prepareStep at h
  split at h
  · cases h
  · rename_i hn
    have hn' : 0 < n := by omega
    have hfit := (prepare_accepts _ _ _ _ hn').1 ⟨sub, h⟩
    have hres := prepare_result _ _ _ _ hn' sub h
    by_cases hf : factors = []
    · subst hf
      exact ⟨[], by simp [expand], by simp [setDdFactors], fun hh => absurd rfl hh⟩
    · have hlen : sub.length = factors.length := by
        rw [hres.1]
        rcases hfit.2.2.2 with h0 | h0
        · exact absurd (List.length_eq_zero_iff.1 h0) hf
        · exact h0.symm
      obtain ⟨e, he, hl, hm⟩ := expandLoop_spec sub factors 0 factors rfl hlen
      have hs : sub ≠ [] := by
        intro hs
        rw [hs] at hlen
        exact hf (List.length_eq_zero_iff.1 hlen.symm)
      refine ⟨e, ?_, ?_, ?_⟩
      · unfold expand
        rw [if_neg (by simp [hs, hf])]
        exact he
      · unfold setDdFactors nSubSolutions
        rw [nSolutions_eq, Nat.mod_eq_of_lt hsum, if_neg (by simp [hl])]
      · intro _ d hd i hi
        have hd2 := (solution_direction sub).2 d hd i hi
        have hg := congrArg (fun l => l[(sub.take d).sum + i]?) hm
        simp only [List.getElem?_map] at hg
        unfold toDirection at hd2
        rw [hd2] at hg
        simp only [Option.map_some] at hg
        have hdf : d < factors.length := by omega
        rw [List.getElem?_eq_getElem hdf] at hg ⊢
        cases hx : e[(sub.take d).sum + i]? with
        | none => rw [hx] at hg; simp at hg
        | some x => rw [hx] at hg; simpa using hg

/-- **C173.** `GetNSolutions` is the number of solutions, up to 2³². -/
theorem count_solutions (sub : List Nat) (h : sub.sum < 2 ^ 32) :
    nSolutions sub = (toDirection sub).length := by
  rw [nSolutions_eq, Nat.mod_eq_of_lt h, (solution_direction sub).1]

/-- The sum is taken in 32 bits, while the counts are 64 bits wide. -/
theorem count_wraps : nSolutions [2 ^ 31, 2 ^ 31] = 0 := by decide

example : prepareStep [2, 4] 4 3 3 = .ok [2, 4, 1] ∧ toDirection [2, 4, 1] = [0, 0, 1, 1, 1, 1, 2] ∧
    expand [2, 4, 1] [(1 : ℚ), 2, 3] = some [1, 1, 2, 2, 2, 2, 3] := by
  refine ⟨by decide, by decide, by simp [expand, expandLoop, List.replicate]⟩

/-! ## C174: reused model data -/

/-- **C174 (partial).** When the directions are accepted, they are precisely the directions that a
pattern matches, each once and in order, with the name after the first period; and every pattern
matches at least one. -/
theorem reused_partial (isMatch : List Char → List Char → Bool) (patterns names : List (List Char))
    (r : List (List Char × List Char)) (h : reused isMatch patterns names = .ok r) :
    r.map Prod.fst = names.filter (fun n => patterns.any fun p => isMatch p n) ∧
      (∀ x ∈ r, x.2 = withoutPrefix x.1) ∧ ∀ p ∈ patterns, ∃ n ∈ names, isMatch p n = true := by
  unfold reused at h
  split at h
  · cases h
  · rename_i hp
    obtain rfl := Except.ok.inj h
    refine ⟨?_, ?_, ?_⟩
    · rw [List.map_map]
      have : (Prod.fst ∘ fun n : List Char => (n, withoutPrefix n)) = id := rfl
      rw [this, List.map_id]
      congr 1
      funext n
      rw [Bool.eq_iff_iff]
      simp [winner]
    · intro x hx
      obtain ⟨n, -, rfl⟩ := List.mem_map.1 hx
      rfl
    · intro p hpp
      simp only [List.any_eq_true, not_exists, not_and] at hp
      have := hp p hpp
      simp only [Bool.not_eq_true', Bool.not_eq_false, List.any_eq_true, beq_iff_eq] at this
      obtain ⟨n, hn, hw⟩ := this
      exact ⟨n, hn, by simpa using List.find?_some hw⟩

/-- **C174 (partial).** Patterns of which each matches a direction that no earlier pattern matches
are accepted. -/
theorem reused_accepted (isMatch : List Char → List Char → Bool) (patterns names : List (List Char))
    (h : ∀ i, (hi : i < patterns.length) → ∃ n ∈ names, isMatch patterns[i] n = true ∧
      ∀ j, (hj : j < i) → isMatch (patterns[j]'(by omega)) n = false) :
    ∃ r, reused isMatch patterns names = .ok r := by
  unfold reused
  rw [if_neg]
  · exact ⟨_, rfl⟩
  · simp only [List.any_eq_true, not_exists, not_and]
    intro p hp
    obtain ⟨i, hi, rfl⟩ := List.getElem_of_mem hp
    obtain ⟨n, hn, hm, hbefore⟩ := h i hi
    simp only [Bool.not_eq_true', Bool.not_eq_false, List.any_eq_true, beq_iff_eq]
    refine ⟨n, hn, ?_⟩
    unfold winner
    rw [List.find?_eq_some_iff_getElem]
    refine ⟨hm, i, hi, rfl, ?_⟩
    intro j hj
    simp [hbefore j hj]

/-- A pattern that matches nothing is refused. -/
theorem reused_refused (isMatch : List Char → List Char → Bool) (patterns names : List (List Char))
    (p : List Char) (hp : p ∈ patterns) (h : ∀ n ∈ names, isMatch p n = false) :
    reused isMatch patterns names = .error .refused := by
  cases hr : reused isMatch patterns names with
  | ok r =>
    obtain ⟨-, -, hall⟩ := reused_partial _ _ _ _ hr
    obtain ⟨n, hn, hm⟩ := hall p hp
    rw [h n hn] at hm
    cases hm
  | error e =>
    unfold reused at hr
    split at hr
    · exact hr ▸ rfl
    · cases hr

/-- A matching that knows a lone star, for the examples. -/
def starMatch (p n : List Char) : Bool := p = ['*'] || p == n

/-- **C174 (partial).** A pattern whose directions are all matched by an earlier pattern is refused
with the message that it did not match any model data, although it does. -/
theorem reused_wrong :
    reused starMatch [['*'], ['p', '.', 'a']] [['p', '.', 'a'], ['p', '.', 'b']] = .error .refused ∧
      starMatch ['p', '.', 'a'] ['p', '.', 'a'] = true ∧
      reused starMatch [['p', '.', 'a'], ['*']] [['p', '.', 'a'], ['p', '.', 'b']] =
        .ok [(['p', '.', 'a'], ['a']), (['p', '.', 'b'], ['b'])] := by
  decide

/-- **C174 (partial).** Model data of two steps with the same direction name get the same name in
the solutions. -/
theorem reused_same_name :
    reused starMatch [['*']] [['p', '.', 'a'], ['q', '.', 'a']] =
      .ok [(['p', '.', 'a'], ['a']), (['q', '.', 'a'], ['a'])] := by
  decide

/-- The name without prefix is the part after the first period. -/
theorem withoutPrefix_spec (before after : List Char) (h : '.' ∉ before) :
    withoutPrefix (before ++ '.' :: after) = after ∧ withoutPrefix before = before := by
  have h1 : before.dropWhile (· ≠ '.') = [] := by
    apply List.dropWhile_eq_nil_iff.2
    intro x hx
    simp only [ne_eq, decide_not, Bool.not_eq_eq_eq_not, Bool.not_true, decide_eq_false_iff_not]
    rintro rfl
    exact h hx
  constructor
  · unfold withoutPrefix
    rw [List.dropWhile_append, h1]
    simp
  · unfold withoutPrefix
    rw [h1]

example : withoutPrefix ['p', '.', 'a', '.', 'b'] = ['a', '.', 'b'] := by decide

example : ∃ r, reused starMatch [['p', '.', 'a'], ['*']] [['p', '.', 'a'], ['p', '.', 'b']] = .ok r :=
  reused_accepted _ _ _ (by
    intro i hi
    match i, hi with
    | 0, _ => exact ⟨['p', '.', 'a'], by simp, rfl, by intro j hj; omega⟩
    | 1, _ =>
      refine ⟨['p', '.', 'b'], by simp, rfl, ?_⟩
      intro j hj
      have : j = 0 := by omega
      subst this
      rfl)

/-! ## C175: the core constraint -/

section
variable {K : Type} [Field K] [LinearOrder K] [IsStrictOrderedRing K]

/-- **C175 (partial).** The core antennas are precisely the antennas within the distance of the
first antenna, that antenna included, in increasing order. -/
theorem core_set (core : K) (positions : List (K × K × K)) (ref : K × K × K)
    (hr : positions.head? = some ref) (ant : Nat) :
    (ant ∈ coreAntennas core positions ↔
      ∃ p, positions[ant]? = some p ∧ dist2 ref p ≤ core * core) ∧
      0 ∈ coreAntennas core positions ∧ (coreAntennas core positions).Pairwise (· < ·) := by
  have key : ∀ ant, ant ∈ coreAntennas core positions ↔
      ∃ p, positions[ant]? = some p ∧ dist2 ref p ≤ core * core := by
    intro ant
    unfold coreAntennas
    rw [hr]
    dsimp only
    rw [List.mem_filter]
    constructor
    · rintro ⟨-, h⟩
      cases hp : positions[ant]? with
      | none => rw [hp] at h; cases h
      | some p => rw [hp] at h; exact ⟨p, rfl, by simpa using h⟩
    · rintro ⟨p, hp, hd⟩
      refine ⟨List.mem_range.2 (List.getElem?_eq_some_iff.1 hp).1, ?_⟩
      rw [hp]
      simpa using hd
  refine ⟨key ant, (key 0).2 ⟨ref, ?_, ?_⟩, ?_⟩
  · rw [← hr, List.head?_eq_getElem?]
  · rw [(dist2_eq_zero ref ref).2 rfl]
    exact mul_self_nonneg _
  · unfold coreAntennas
    rw [hr]
    exact List.Pairwise.filter _ List.pairwise_lt_range

/-- **C175.** A larger distance gives a larger set. -/
theorem core_mono (a b : K) (h0 : 0 ≤ a) (hab : a ≤ b) (positions : List (K × K × K)) :
    ∀ ant ∈ coreAntennas a positions, ant ∈ coreAntennas b positions := by
  intro ant h
  cases hr : positions.head? with
  | none => simp [coreAntennas, hr] at h
  | some ref =>
    obtain ⟨p, hp, hd⟩ := (core_set a positions ref hr ant).1.1 h
    exact (core_set b positions ref hr ant).1.2
      ⟨p, hp, le_trans hd (mul_self_le_mul_self h0 hab)⟩

/-- **C175 (partial).** A negative distance is not refused, it counts as its opposite. -/
theorem core_negative (a : K) (positions : List (K × K × K)) :
    coreAntennas (-a) positions = coreAntennas a positions := by
  simp [coreAntennas]

/-- **C175 (partial).** When groups of antennas are given too, the core constraint is ignored: the
sets do not depend on it. -/
theorem core_ignored (a b : K) (groups : List (List String)) (positions : List (K × K × K))
    (names : List String) (hg : groups ≠ []) :
    constraintSets a groups positions names = constraintSets b groups positions names := by
  unfold constraintSets
  rw [if_neg (by simp [hg]), if_neg hg, if_neg (by simp [hg]), if_neg hg]

end

example : coreAntennas (5 : ℚ) [(0, 0, 0), (10, 0, 0), (3, 4, 0)] = [0, 2] ∧
    constraintSets (5 : ℚ) [] [(0, 0, 0), (10, 0, 0), (3, 4, 0)] ["a", "b", "c"] =
      .ok (some [[0, 2]]) ∧
    constraintSets (5 : ℚ) [["a", "b"]] [(0, 0, 0), (10, 0, 0), (3, 4, 0)] ["a", "b", "c"] =
      .ok (some [[0, 1]]) := by
  refine ⟨by decide +kernel, by decide +kernel, by decide +kernel⟩

/-! ## C176: groups of antennas -/

/-- **C176 (partial).** An accepted group becomes the set of the indices of its antennas that are in
the data, and two different antennas keep different indices. -/
theorem groups_partial (groups : List (List String)) (names : List String)
    (sets : List (List Nat)) (h : antennaSets groups names = .ok sets) :
    sets.length = groups.length ∧
      ∀ g, (hg : g < groups.length) → ∃ s, sets[g]? = some s ∧ ∀ ant,
        ant ∈ s ↔ ∃ name ∈ groups[g], ∃ h : ant < names.length, names[ant] = name ∧
          ∀ k, (hk : k < ant) → names[k] ≠ name := by
  unfold antennaSets at h
  split at h
  · cases h
  · obtain rfl := Except.ok.inj h
    refine ⟨by simp, ?_⟩
    intro g hg
    refine ⟨indicesOf names groups[g], by simp [hg], ?_⟩
    intro ant
    unfold indicesOf
    rw [List.mem_filterMap]
    constructor
    · rintro ⟨name, hn, hi⟩
      split at hi
      · rename_i hmem
        have hi' : names.idxOf name = ant := Option.some.inj hi
        have hlt : names.idxOf name < names.length := List.idxOf_lt_length_of_mem hmem
        subst hi'
        refine ⟨name, hn, hlt, List.getElem_idxOf hlt, ?_⟩
        intro k hk hkn
        have := List.not_of_lt_findIdx (p := (· == name)) hk
        simp at this
        exact this hkn
      · cases hi
    · rintro ⟨name, hn, hlt, hname, hfirst⟩
      refine ⟨name, hn, ?_⟩
      have hmem : name ∈ names := hname ▸ List.getElem_mem hlt
      rw [if_pos hmem]
      congr 1
      have hl := List.idxOf_lt_length_of_mem hmem
      rcases Nat.lt_trichotomy (names.idxOf name) ant with hx | hx | hx
      · exact absurd (List.getElem_idxOf hl) (hfirst _ hx)
      · exact hx
      · have := List.not_of_lt_findIdx (p := (· == name)) hx
        simp at this
        exact absurd hname this

/-- **C176.** Groups with fewer than two different antennas are refused, whatever their names. -/
theorem groups_refused (lists : List (List String)) (names : List String) (g : List String)
    (hg : g ∈ lists) (h : g.dedup.length ≤ 1) :
    (readGroups lists).bind (fun groups => antennaSets groups names) = .error .refused := by
  unfold readGroups
  split
  · rfl
  · show antennaSets (lists.map List.dedup) names = .error .refused
    unfold antennaSets
    rw [if_pos]
    rw [List.any_eq_true]
    exact ⟨g.dedup, List.mem_map_of_mem hg, by simpa using h⟩

/-- **C176 (partial).** The size is only tested before unknown antennas are left out: a group of two
antennas of which one (or both) is not in the data is accepted, and constrains nothing. -/
theorem groups_shrink :
    antennaSets [["a", "x"], ["y", "x"]] ["a", "b"] = .ok [[0], []] := by
  decide

example : antennaSets [["a", "c"]] ["a", "b", "c"] = .ok [[0, 2]] ∧
    (readGroups [["a", "a"]]).bind (fun groups => antennaSets groups ["a", "b"]) =
      .error .refused := by
  refine ⟨by decide, by decide⟩

/-! ## C177: averaging factors per antenna -/

/-- **C177 (partial).** When all antennas of the data are used, factors are accepted precisely when
all are positive and none exceeds the largest number of solutions of a direction. -/
theorem averaging_partial (parse : List String → List Nat → List Nat) (names : List String)
    (hparse : (averagingFactors parse names).length = names.length) (hn : names ≠ [])
    (sub : List Nat) (hs : sub ≠ []) :
    initInterval (averagingFactors parse names) names.length sub = .ok () ↔
      (∀ f ∈ averagingFactors parse names, 0 < f) ∧
        ∀ f ∈ averagingFactors parse names, ∃ n ∈ sub, f ≤ n := by
  generalize averagingFactors parse names = factors at *
  have hf : factors ≠ [] := by
    intro h
    rw [h] at hparse
    exact hn (List.length_eq_zero_iff.1 hparse.symm)
  obtain ⟨ms, hms, hms1, hms2⟩ := max?_isSome_pos sub hs
  obtain ⟨hi, hhi, hhi1, hhi2⟩ := max?_isSome_pos factors hf
  cases hlo : factors.min? with
  | none => exact absurd (List.min?_eq_none_iff.1 hlo) hf
  | some lo =>
    obtain ⟨hlo1, hlo2⟩ := List.min?_eq_some_iff.1 hlo
    unfold initInterval
    rw [if_neg (by simp [hparse]), hms, hlo, hhi]
    dsimp only
    constructor
    · intro h
      split at h
      · cases h
      · rename_i h0
        split at h
        · cases h
        · rename_i h1
          refine ⟨fun f hf => ?_, fun f hf => ⟨ms, hms1, ?_⟩⟩
          · have := hlo2 f hf; omega
          · have := hhi2 f hf; omega
    · rintro ⟨h1, h2⟩
      rw [if_neg (by have := h1 lo hlo1; omega), if_neg]
      obtain ⟨n, hn, hle⟩ := h2 hi hhi1
      have := hms2 n hn
      omega

/-- **C177 (partial).** When an antenna of the data takes no part in any baseline, every setting of
the factors is refused: they are made for all antennas and compared with the used ones. -/
theorem averaging_unused_refused (parse : List String → List Nat → List Nat) (names : List String)
    (hparse : (averagingFactors parse names).length = names.length) (nUsed : Nat)
    (hu : nUsed < names.length) (sub : List Nat) :
    initInterval (averagingFactors parse names) nUsed sub = .error .refused := by
  unfold initInterval
  rw [if_pos (by omega)]

example : initInterval (averagingFactors (fun _ f => f.set 1 2) ["a", "b", "c"]) 3 [4, 1] = .ok () ∧
    initInterval (averagingFactors (fun _ f => f.set 1 2) ["a", "b", "c"]) 2 [4, 1] =
      .error .refused := by
  refine ⟨by decide, by decide⟩

/-! ## C178: smoothing per antenna -/

section
variable {K : Type} [Field K] [LinearOrder K] [IsStrictOrderedRing K]

/-- The square root as far as needed. -/
def IsRoot (root : K → K) : Prop := root 0 = 0 ∧ ∀ a b, 0 ≤ a → a < b → root a < root b

theorem root_pos {root : K → K} (hroot : IsRoot root) (a : K) (h : 0 < a) : 0 < root a := by
  have := hroot.2 0 a le_rfl h
  rwa [hroot.1] at this

theorem rawFactors_get (root : K → K) (hroot : IsRoot root) (refDistance : K) (r : Nat)
    (ref : K × K × K) (positions : List (K × K × K)) (i : Nat) (p : K × K × K)
    (hp : positions[i]? = some p) (hi : i ≠ r) (hne : p ≠ ref) :
    (rawFactors root refDistance r ref positions)[i]? =
      some (some (refDistance / root (dist2 ref p))) := by
  have hd : 0 < dist2 ref p :=
    lt_of_le_of_ne (dist2_nonneg _ _) (fun h => hne ((dist2_eq_zero ref p).1 h.symm).symm)
  unfold rawFactors
  rw [List.getElem?_mapIdx, hp]
  simp only [Option.map_some, if_neg hi, factor]
  rw [if_neg (ne_of_gt (root_pos hroot _ hd))]

/-- **C178 (partial).** With a positive reference distance, a known reference antenna and no other
antenna at its place: an antenna has the reference distance over its distance, so a nearer antenna
has a larger factor; and the reference antenna has the factor of the nearest antenna. -/
theorem smoothing_partial (root : K → K) (hroot : IsRoot root) (refDistance : K)
    (hd : 0 < refDistance) (refAntenna : String) (positions : List (K × K × K))
    (names : List String) (r : Nat) (hr : refIndex refAntenna names = some r) (ref : K × K × K)
    (href : positions[r]? = some ref)
    (hne : ∀ (i : Nat) p, positions[i]? = some p → i ≠ r → p ≠ ref)
    (hmore : ∃ (i : Nat) (p : K × K × K), positions[i]? = some p ∧ i ≠ r) :
    ∃ fs, distanceFactors root refDistance refAntenna positions names = .ok fs ∧
      fs.length = positions.length ∧
      (∀ (i : Nat) p, positions[i]? = some p → i ≠ r →
        fs[i]? = some (some (refDistance / root (dist2 ref p)))) ∧
      (∀ (i j : Nat) p q, positions[i]? = some p → positions[j]? = some q → i ≠ r → j ≠ r →
        dist2 ref p < dist2 ref q →
        refDistance / root (dist2 ref q) < refDistance / root (dist2 ref p)) ∧
      ∃ (i : Nat) (p : K × K × K), positions[i]? = some p ∧ i ≠ r ∧
        fs[r]? = some (some (refDistance / root (dist2 ref p))) ∧
        ∀ (j : Nat) q, positions[j]? = some q → j ≠ r → dist2 ref p ≤ dist2 ref q := by
  have hpos : ∀ (i : Nat) p, positions[i]? = some p → i ≠ r → 0 < dist2 ref p := by
    intro i p hp hi
    exact lt_of_le_of_ne (dist2_nonneg _ _)
      (fun h => hne i p hp hi ((dist2_eq_zero ref p).1 h.symm).symm)
  have hmono : ∀ (i j : Nat) p q, positions[i]? = some p → positions[j]? = some q → i ≠ r → j ≠ r →
      dist2 ref p < dist2 ref q →
      refDistance / root (dist2 ref q) < refDistance / root (dist2 ref p) := by
    intro i j p q hp hq hi hj hlt
    have h1 := root_pos hroot _ (hpos i p hp hi)
    have h2 := hroot.2 _ _ (dist2_nonneg ref p) hlt
    exact div_lt_div_of_pos_left hd h1 h2
  have hraw : ∀ (i : Nat) p, positions[i]? = some p → i ≠ r →
      (rawFactors root refDistance r ref positions)[i]? =
        some (some (refDistance / root (dist2 ref p))) :=
    fun i p hp hi => rawFactors_get root hroot refDistance r ref positions i p hp hi (hne i p hp hi)
  have hrawr : (rawFactors root refDistance r ref positions)[r]? = some (some 0) := by
    unfold rawFactors
    rw [List.getElem?_mapIdx, href]
    simp
  have hlen : (rawFactors root refDistance r ref positions).length = positions.length := by
    simp [rawFactors]
  have hrl : r < positions.length := (List.getElem?_eq_some_iff.1 href).1
  -- all raw factors are finite
  have hfin : ∀ x ∈ rawFactors root refDistance r ref positions, ∃ v : K, x = some v := by
    intro x hx
    obtain ⟨i, hi, rfl⟩ := List.getElem_of_mem hx
    have hi' : i < positions.length := by omega
    by_cases hir : i = r
    · subst hir
      rw [List.getElem?_eq_getElem hi] at hrawr
      exact ⟨0, Option.some.inj hrawr⟩
    · have := hraw i positions[i] (List.getElem?_eq_getElem hi') hir
      rw [List.getElem?_eq_getElem hi] at this
      exact ⟨_, Option.some.inj this⟩
  have hmaxsome : ∀ (l : List (Option K)) (a : K), (∀ x ∈ l, ∃ v : K, x = some v) →
      ∃ m : K, l.foldl maxOpt (some a) = some m := by
    intro l
    induction l with
    | nil => intro a _; exact ⟨a, rfl⟩
    | cons x rest ih =>
      intro a hx
      obtain ⟨v, rfl⟩ := hx x List.mem_cons_self
      exact ih (max a v) fun y hy => hx y (List.mem_cons_of_mem _ hy)
  obtain ⟨m, hm⟩ := hmaxsome _ 0 hfin
  obtain ⟨-, hm2, hm3⟩ := foldl_maxOpt _ 0 m hm
  refine ⟨(rawFactors root refDistance r ref positions).set r (some m), ?_, by simp [hlen], ?_,
    hmono, ?_⟩
  · unfold distanceFactors
    rw [if_neg (ne_of_gt hd), hr]
    dsimp only
    rw [href]
    dsimp only
    rw [show maxFactor (rawFactors root refDistance r ref positions) = some m from hm]
  · intro i p hp hi
    rw [List.getElem?_set_ne (Ne.symm hi)]
    exact hraw i p hp hi
  · obtain ⟨i0, p0, hp0, hi0⟩ := hmore
    have hm0 : 0 < m := by
      obtain ⟨v, hv, hle⟩ := hm2 _ (List.mem_of_getElem? (hraw i0 p0 hp0 hi0))
      have hv' := Option.some.inj hv
      rw [← hv'] at hle
      exact lt_of_lt_of_le (div_pos hd (root_pos hroot _ (hpos i0 p0 hp0 hi0))) hle
    have hmem : some m ∈ rawFactors root refDistance r ref positions := by
      rcases hm3 with h | h
      · exact absurd h (ne_of_gt hm0)
      · exact h
    obtain ⟨i, hi, him⟩ := List.getElem_of_mem hmem
    have hi' : i < positions.length := by omega
    have hir : i ≠ r := by
      rintro rfl
      rw [List.getElem?_eq_getElem hi, him] at hrawr
      have := Option.some.inj (Option.some.inj hrawr)
      exact absurd this (ne_of_gt hm0)
    have hval := hraw i positions[i] (List.getElem?_eq_getElem hi') hir
    rw [List.getElem?_eq_getElem hi, him] at hval
    refine ⟨i, positions[i], List.getElem?_eq_getElem hi', hir, ?_, ?_⟩
    · rw [List.getElem?_set_self (by omega)]
      exact hval
    · intro j q hq hj
      by_contra hlt
      push Not at hlt
      have h1 := hmono j i q positions[i] hq (List.getElem?_eq_getElem hi') hj hir hlt
      obtain ⟨v, hv, hle⟩ := hm2 _ (List.mem_of_getElem? (hraw j q hq hj))
      have hv' := Option.some.inj hv
      have hval' := Option.some.inj (Option.some.inj hval)
      rw [← hv', hval'] at hle
      exact absurd h1 (not_lt.2 hle)

/-- **C178.** Without a reference distance all antennas have the same factor. -/
theorem smoothing_same (root : K → K) (refAntenna : String) (positions : List (K × K × K))
    (names : List String) :
    distanceFactors root 0 refAntenna positions names = .ok (positions.map fun _ => some 1) := by
  simp [distanceFactors]

/-- **C178.** An unknown reference antenna and a negative antenna factor are refused. -/
theorem smoothing_refused (root : K → K) (refDistance : K) (hd : refDistance ≠ 0)
    (refAntenna : String) (positions : List (K × K × K)) (names : List String)
    (parsed : Option (List K)) (h1 : refAntenna ≠ "") (h2 : refAntenna ∉ names) :
    smoothnessFactors root refDistance refAntenna positions names parsed = .error .refused := by
  unfold smoothnessFactors distanceFactors refIndex
  rw [if_neg hd, if_neg h1, if_neg h2]
  rfl

/-- **C178.** The values of the setting multiply the factors. -/
theorem smoothing_scaled (root : K → K) (refDistance : K) (refAntenna : String)
    (positions : List (K × K × K)) (names : List String) (values : List K) (fs : List (Option K))
    (h : smoothnessFactors root refDistance refAntenna positions names (some values) = .ok fs) :
    (∀ v ∈ values, 0 ≤ v) ∧
      ∃ base, distanceFactors root refDistance refAntenna positions names = .ok base ∧
        ∀ (i : Nat) b v, base[i]? = some (some b) → values[i]? = some v →
          fs[i]? = some (some (b * v)) := by
  unfold smoothnessFactors at h
  cases hb : distanceFactors root refDistance refAntenna positions names with
  | error e => rw [hb] at h; cases h
  | ok base =>
    rw [hb] at h
    change (if (values.any fun v => decide (v < 0)) = true then _ else _) = _ at h
    split at h
    · cases h
    · rename_i hv
      obtain rfl := Except.ok.inj h
      refine ⟨?_, base, rfl, ?_⟩
      · intro v hv'
        simp only [List.any_eq_true, decide_eq_true_eq, not_exists, not_and, not_lt] at hv
        exact hv v hv'
      · intro i b v hbi hvi
        rw [List.getElem?_zipWith, hbi, hvi]
        rfl

/-- **C178 (partial).** With a single antenna and a reference distance its factor is zero, and the
scale of its kernel is not finite. -/
theorem smoothing_single (root : K → K) (refDistance : K) (hd : refDistance ≠ 0) (p : K × K × K)
    (name : String) (dd : K) :
    distanceFactors root refDistance "" [p] [name] = .ok [some 0] ∧
      kernelScale dd (some (0 : K)) = none := by
  refine ⟨?_, by simp [kernelScale]⟩
  unfold distanceFactors
  rw [if_neg hd]
  simp [refIndex, rawFactors, maxFactor, maxOpt]

end

/-- **C178 (partial).** A negative reference distance is not refused; the reference antenna gets
factor zero and the others negative ones.  An antenna factor of zero is not refused either. -/
theorem smoothing_negative :
    distanceFactors (K := ℚ) id (-4) "" [(0, 0, 0), (2, 0, 0), (1, 0, 0)] ["a", "b", "c"] =
        .ok [some 0, some (-1), some (-4)] ∧
      smoothnessFactors (K := ℚ) id 4 "" [(0, 0, 0), (2, 0, 0), (1, 0, 0)] ["a", "b", "c"]
        (some [1, 0, 2]) = .ok [some 4, some 0, some 8] := by
  refine ⟨by decide +kernel, by decide +kernel⟩

/-- The real square root meets the requirement. -/
theorem isRoot_sqrt : IsRoot Real.sqrt :=
  ⟨Real.sqrt_zero, fun _ _ ha hab => Real.sqrt_lt_sqrt ha hab⟩

example : ∃ fs, distanceFactors Real.sqrt 12 "b" [(4, 0, 0), (0, 0, 0), (0, 3, 0)] ["a", "b", "c"] =
    .ok fs ∧ fs.length = 3 := by
  obtain ⟨fs, h, hl, -⟩ := smoothing_partial Real.sqrt isRoot_sqrt 12 (by norm_num) "b"
    [(4, 0, 0), (0, 0, 0), (0, 3, 0)] ["a", "b", "c"] 1 (by decide) (0, 0, 0) rfl
    (by
      intro i p hp hi
      match i with
      | 0 => simp at hp; subst hp; simp
      | 1 => exact absurd rfl hi
      | 2 => simp at hp; subst hp; simp
      | k + 3 => simp at hp)
    ⟨0, _, rfl, by decide⟩
  exact ⟨fs, h, hl⟩

end DP3.DdeSettings
