import Verif.ApplyBeam.Model
import Verif.ApplyCal.Props
import Verif.IterSolver.Laws
import Mathlib.Data.List.NodupEquivFin
import Mathlib.Tactic.Linarith
import Mathlib.Tactic.Ring
import Mathlib.Tactic.Abel

/-!
# Properties of the correction for the beam
-/

namespace DP3.ApplyBeam

set_option linter.unusedSimpArgs false
set_option linter.unusedSectionVars false

/-! ## C182: stations of the telescope for the antennas of the data -/

section Stations

/-- Stations of the telescope, in the order of the telescope, with the given names. -/
def IsSelection (tel names : List String) (ixs : List Nat) : Prop :=
  ixs.Pairwise (· < ·) ∧ ixs.map (tel[·]?) = names.map some

theorem matchFrom_nil (i : Nat) (ts : List String) : matchFrom i ts [] = ([], []) := by
  induction ts generalizing i with
  | nil => rfl
  | cons t ts ih => exact ih (i + 1)

/-- What the loop finds. -/
theorem matchFrom_spec (ts : List String) (i : Nat) (ns : List String) :
    ∃ pre, ns = pre ++ (matchFrom i ts ns).2 ∧ (matchFrom i ts ns).1.Pairwise (· < ·) ∧
      (∀ j ∈ (matchFrom i ts ns).1, i ≤ j) ∧ (matchFrom i ts ns).1.map (fun j => ts[j - i]?) = pre.map some := by
  induction ts generalizing i ns with
  | nil => exact ⟨[], by simp [matchFrom]⟩
  | cons t ts ih =>
    have shift : ∀ l : List Nat, (∀ j ∈ l, i + 1 ≤ j) →
        l.map (fun j => (t :: ts)[j - i]?) = l.map (fun j => ts[j - (i + 1)]?) := by
      intro l hl
      refine List.map_congr_left fun j hj => ?_
      obtain ⟨k, rfl⟩ := Nat.exists_eq_add_of_le (hl j hj)
      have h1 : i + 1 + k - i = k + 1 := by omega
      have h2 : i + 1 + k - (i + 1) = k := by omega
      rw [h1, h2, List.getElem?_cons_succ]
    cases ns with
    | nil => exact ⟨[], by simp [matchFrom_nil]⟩
    | cons n ns =>
      by_cases h : t = n
      · obtain ⟨pre, h1, h2, h3, h4⟩ := ih (i + 1) ns
        have e : matchFrom i (t :: ts) (n :: ns) =
            (i :: (matchFrom (i + 1) ts ns).1, (matchFrom (i + 1) ts ns).2) := by rw [matchFrom, if_pos h]
        rw [e]
        refine ⟨n :: pre, by rw [List.cons_append, ← h1], ?_, ?_, ?_⟩
        · exact List.pairwise_cons.mpr ⟨fun j hj => h3 j hj, h2⟩
        · intro j hj
          rcases List.mem_cons.mp hj with rfl | hj
          · exact le_refl _
          · exact Nat.le_of_succ_le (h3 j hj)
        · rw [List.map_cons, List.map_cons, shift _ h3, h4]
          simp [h]
      · obtain ⟨pre, h1, h2, h3, h4⟩ := ih (i + 1) (n :: ns)
        have e : matchFrom i (t :: ts) (n :: ns) = matchFrom (i + 1) ts (n :: ns) := by rw [matchFrom, if_neg h]
        rw [e]
        exact ⟨pre, h1, h2, fun j hj => Nat.le_of_succ_le (h3 j hj), by rw [shift _ h3, h4]⟩

/-- Nothing is left if the names are in the telescope, in its order. -/
theorem matchFrom_complete (ts : List String) (i : Nat) (ns : List String) (h : ns.Sublist ts) :
    (matchFrom i ts ns).2 = [] := by
  induction ts generalizing i ns with
  | nil => rw [List.eq_nil_of_sublist_nil h]; rfl
  | cons t ts ih =>
    cases ns with
    | nil => rw [matchFrom_nil]
    | cons n ns =>
      rw [matchFrom]
      by_cases e : t = n
      · rw [if_pos e]
        refine ih _ _ ?_
        rw [e] at h
        exact List.cons_sublist_cons.mp h
      · rw [if_neg e]
        refine ih _ _ ?_
        cases h with
        | cons _ h => exact h
        | cons_cons _ h => exact absurd rfl e

theorem sublist_of_selection {tel names : List String} {ixs : List Nat} (h : IsSelection tel names ixs) :
    names.Sublist tel := by
  obtain ⟨h1, h2⟩ := h
  have hlen : ixs.length = names.length := by simpa using congrArg List.length h2
  have hget : ∀ k : Nat, ∀ (hk : k < ixs.length), tel[ixs[k]]? = some (names[k]'(hlen ▸ hk)) := by
    intro k hk
    have := congrArg (fun l => l[k]?) h2
    simpa [List.getElem?_map, List.getElem?_eq_getElem hk, List.getElem?_eq_getElem (hlen ▸ hk)] using this
  rw [List.sublist_iff_exists_orderEmbedding_getElem?_eq]
  have hmono : ∀ a b : Nat, ∀ (ha : a < ixs.length) (hb : b < ixs.length), a < b → ixs[a] < ixs[b] :=
    fun a b ha hb hab => List.pairwise_iff_getElem.mp h1 a b ha hb hab
  -- beyond the last name the embedding goes beyond the telescope
  let f : Nat → Nat := fun k => if hk : k < ixs.length then ixs[k] else tel.length + k
  have hlt : ∀ (k : Nat) (hk : k < ixs.length), ixs[k] < tel.length := by
    intro k hk
    by_contra c
    have := hget k hk
    rw [List.getElem?_eq_none (Nat.le_of_not_lt c)] at this
    cases this
  have hf : StrictMono f := by
    intro a b hab
    simp only [f]
    by_cases hb : b < ixs.length
    · rw [dif_pos hb, dif_pos (lt_trans hab hb)]
      exact hmono a b _ hb hab
    · rw [dif_neg hb]
      by_cases ha : a < ixs.length
      · rw [dif_pos ha]
        exact lt_of_lt_of_le (hlt a ha) (Nat.le_add_right _ _)
      · rw [dif_neg ha]
        omega
  refine ⟨OrderEmbedding.ofStrictMono f hf, fun k => ?_⟩
  simp only [OrderEmbedding.coe_ofStrictMono, f]
  by_cases hk : k < ixs.length
  · rw [dif_pos hk, hget k hk, List.getElem?_eq_getElem (hlen ▸ hk)]
  · rw [dif_neg hk, List.getElem?_eq_none (by omega), List.getElem?_eq_none (by omega)]

/-- C182. If the stations of the telescope differ, the result has for each antenna of the data a station with its
name, in the order of the telescope; the step is refused only if there are no such stations. -/
theorem select_spec (t : Telescope) (names : List String) (hh : t.homogeneous = false) :
    (∀ ixs, selectStations t names = some ixs → IsSelection t.names names ixs) ∧
    (selectStations t names = none → ¬ ∃ ixs, IsSelection t.names names ixs) := by
  unfold selectStations
  simp only [hh, Bool.false_eq_true, if_false]
  constructor
  · intro ixs h
    split at h
    · rename_i hr
      obtain rfl := Option.some.inj h
      obtain ⟨pre, h1, h2, _, h4⟩ := matchFrom_spec t.names 0 names
      rw [hr, List.append_nil] at h1
      subst h1
      exact ⟨h2, by simpa using h4⟩
    · cases h
  · rintro h ⟨ixs, hs⟩
    split at h
    · cases h
    · rename_i hr
      exact hr (matchFrom_complete _ _ _ (sublist_of_selection hs))

example : selectStations ⟨false, ["CS001", "CS002", "RS106", "DE601"]⟩ ["CS002", "DE601"] = some [1, 3] := by
  decide

example : selectStations ⟨false, ["CS001", "CS002", "RS106", "DE601"]⟩ ["DE601", "CS002"] = none := by
  decide

/-- C182. With different names of stations, there is only one such list: the station of an antenna is the one with
its name. -/
theorem select_unique (tel names : List String) (hnd : tel.Nodup) (ixs : List Nat)
    (h : IsSelection tel names ixs) : ixs = names.map (tel.idxOf ·) := by
  obtain ⟨_, h2⟩ := h
  have hlen : ixs.length = names.length := by simpa using congrArg List.length h2
  refine List.ext_getElem (by simpa using hlen) fun k h1 h3 => ?_
  have hk : k < names.length := hlen ▸ h1
  have := congrArg (fun l => l[k]?) h2
  simp only [List.getElem?_map, List.getElem?_eq_getElem h1, List.getElem?_eq_getElem hk, Option.map_some,
    Option.some.injEq] at this
  obtain ⟨hl, he⟩ := List.getElem?_eq_some_iff.mp this
  rw [List.getElem_map, ← he]
  exact (hnd.idxOf_getElem _ hl).symm

example : IsSelection ["CS001", "CS002", "RS106", "DE601"] ["CS002", "DE601"] [1, 3] := by
  constructor <;> decide

end Stations

/-! ## The beam of an antenna -/

section Beam
variable {K : Type} [Field K] [LinearOrder K] [IsStrictOrderedRing K]

/-- The station of an antenna of the data: the first one if all are equal, and otherwise the one with the name of
the antenna. -/
def stationOf (e : Env K) (ant : Nat) : Nat :=
  if e.tel.homogeneous then 0 else e.tel.names.idxOf (e.antennas.getD ant "")

/-- The beam of an antenna. -/
def antennaBeam (e : Env K) (mode : Mode) (dir : Dir K) (ant ch : Nat) : M2 K :=
  if mode = .none then 1 else e.resp mode (stationOf e ant) ch dir

/-- The telescope has different names, and the baselines have antennas of the data. -/
structure Valid (e : Env K) : Prop where
  nodup : e.tel.names.Nodup
  ant1 : ∀ bl < e.bls.nBl, e.bls.ant1 bl < e.antennas.length
  ant2 : ∀ bl < e.bls.nBl, e.bls.ant2 bl < e.antennas.length

/-- Where `ApplyBeamToData` finds the value of an antenna. -/
theorem lookup (e : Env K) (hnd : e.tel.names.Nodup) (stations : List Nat)
    (hs : selectStations e.tel e.antennas = some stations) (ant ch : Nat) (ha : ant < e.antennas.length)
    (hc : ch < e.bls.nChan) (dir : Dir K) (invert : Bool) (mode : Mode) (skip : List Nat) :
    ∃ st, stations[st]? = some (stationOf e ant) ∧ (e.tel.homogeneous = false → st = ant) ∧
      (e.tel.homogeneous = true → st = 0) ∧
      computeBeam e.resp dir invert mode stations skip e.bls.nChan
        (beamIndex stations.length e.bls.nChan ant + ch) =
      stationBeam e.resp dir invert mode stations skip st ch := by
  have hpos : 0 < e.bls.nChan := by omega
  cases hh : e.tel.homogeneous with
  | true =>
    have : stations = [0] := by
      simp [selectStations, hh] at hs
      exact hs.symm
    subst this
    refine ⟨0, by simp [stationOf, hh], by simp, by simp, ?_⟩
    simp only [computeBeam, beamIndex, List.length_singleton, if_true, Nat.zero_add, one_mul]
    rw [if_pos hc, Nat.div_eq_of_lt hc, Nat.mod_eq_of_lt hc]
  | false =>
    have hsel := (select_spec e.tel e.antennas hh).1 stations hs
    have hu := select_unique _ _ hnd _ hsel
    have hlen : stations.length = e.antennas.length := by rw [hu]; simp
    have hst : stations[ant]? = some (stationOf e ant) := by
      rw [hu]
      simp [stationOf, hh, List.getElem?_eq_getElem ha]
    refine ⟨ant, hst, by simp, by simp, ?_⟩
    have hi : beamIndex stations.length e.bls.nChan ant = e.bls.nChan * ant := by
      unfold beamIndex
      split
      · rename_i h1
        have : ant = 0 := by omega
        rw [this, Nat.mul_zero]
      · rfl
    rw [hi]
    unfold computeBeam
    have hlt : e.bls.nChan * ant + ch < stations.length * e.bls.nChan := by
      rw [hlen]
      calc e.bls.nChan * ant + ch < e.bls.nChan * ant + e.bls.nChan := Nat.add_lt_add_left hc _
        _ = (ant + 1) * e.bls.nChan := by ring
        _ ≤ e.antennas.length * e.bls.nChan := Nat.mul_le_mul_right _ ha
    rw [if_pos hlt, Nat.mul_add_div hpos, Nat.div_eq_of_lt hc, Nat.add_zero, Nat.mul_add_mod, Nat.mod_eq_of_lt hc]

/-- A matrix that the step can invert: it has an inverse, and an array factor is diagonal. -/
def Invertible (mode : Mode) (v : M2 K) : Prop :=
  v.det ≠ 0 ∧ (mode = .arrayFactor → v.b = 0 ∧ v.c = 0)

theorem recip_spec (x : Cx K) (hx : x ≠ 0) : ∃ y, recip x = some y ∧ y * x = 1 ∧ x * y = 1 := by
  refine ⟨Cx.div 1 x, by simp [recip, hx], ?_, ?_⟩
  all_goals
    have hn : x.normSq ≠ 0 := fun c => hx (Cx.normSq_eq_zero.mp c)
    have hn' : x.re * x.re + x.im * x.im ≠ 0 := hn
    refine Cx.ext ?_ ?_
    · simp only [Cx.div, Cx.divReal, Cx.mul_re, Cx.mul_im, Cx.one_re, Cx.one_im, Cx.conj_re, Cx.conj_im, Cx.normSq]
      refine Eq.trans (b := (x.re * x.re + x.im * x.im) / (x.re * x.re + x.im * x.im)) (by ring) (div_self hn')
    · simp only [Cx.div, Cx.divReal, Cx.mul_re, Cx.mul_im, Cx.one_re, Cx.one_im, Cx.conj_re, Cx.conj_im, Cx.normSq]
      field_simp
      ring

/-- Without skipped stations the value is the beam of the antenna. -/
theorem stationBeam_apply (r : Response K) (dir : Dir K) (mode : Mode) (stations : List Nat) (st ch s : Nat)
    (hs : stations[st]? = some s) :
    stationBeam r dir false mode stations [] st ch = some (if mode = .none then 1 else r mode s ch dir) := by
  cases mode <;> simp [stationBeam, hs]

/-- Without skipped stations the inverted value is the inverse of the beam of the antenna. -/
theorem stationBeam_invert (r : Response K) (dir : Dir K) (mode : Mode) (stations : List Nat) (st ch s : Nat)
    (hs : stations[st]? = some s) (h : mode = .none ∨ Invertible mode (r mode s ch dir)) :
    ∃ w, stationBeam r dir true mode stations [] st ch = some w ∧
      w * (if mode = .none then 1 else r mode s ch dir) = 1 ∧
      (if mode = .none then 1 else r mode s ch dir) * w = 1 := by
  have full : ∀ v : M2 K, v.det ≠ 0 → ∃ w, v.inv = some w ∧ w * v = 1 ∧ v * w = 1 := by
    intro v hv
    cases hi : v.inv with
    | none => simp [M2.inv, hv] at hi
    | some w => exact ⟨w, rfl, IterSolver.inv_mul_self hi⟩
  cases mode with
  | none => exact ⟨1, by simp [stationBeam]⟩
  | full =>
    have h := h.resolve_left (by simp)
    obtain ⟨w, h1, h2, h3⟩ := full _ h.1
    exact ⟨w, by simp [stationBeam, hs, h1], by simpa using h2, by simpa using h3⟩
  | element =>
    have h := h.resolve_left (by simp)
    obtain ⟨w, h1, h2, h3⟩ := full _ h.1
    exact ⟨w, by simp [stationBeam, hs, h1], by simpa using h2, by simpa using h3⟩
  | arrayFactor =>
    have h := h.resolve_left (by simp)
    obtain ⟨hd, hb⟩ := h
    obtain ⟨hb, hc⟩ := hb rfl
    generalize hv : r .arrayFactor s ch dir = v at hd hb hc
    have ha' : v.a ≠ 0 := by
      intro c
      simp [M2.det, c, hb] at hd
    have hd' : v.d ≠ 0 := by
      intro c
      simp [M2.det, c, hb] at hd
    obtain ⟨a, e1, a1, a2⟩ := recip_spec v.a ha'
    obtain ⟨d, e2, d1, d2⟩ := recip_spec v.d hd'
    refine ⟨⟨a, 0, 0, d⟩, by simp [stationBeam, hs, hv, e1, e2], ?_, ?_⟩
    · simp [hv, M2.ext_iff, a1, d1, hb, hc]
    · simp [hv, M2.ext_iff, a2, d2, hb, hc]

end Beam

/-! ## C183: skipped stations -/

section Skip
variable {K : Type} [Field K] [LinearOrder K] [IsStrictOrderedRing K]

theorem select_single (t : Telescope) (hh : t.homogeneous = false) (hnd : t.names.Nodup) (n : String) :
    selectStations t [n] = if n ∈ t.names then some [t.names.idxOf n] else none := by
  have h := select_spec t [n] hh
  cases hs : selectStations t [n] with
  | none =>
    rw [if_neg]
    intro hm
    refine h.2 hs ⟨[t.names.idxOf n], List.pairwise_singleton _ _, ?_⟩
    simp [List.getElem?_idxOf hm]
  | some ixs =>
    have hsel := h.1 ixs hs
    have hu := select_unique _ _ hnd _ hsel
    have hm : n ∈ t.names := (sublist_of_selection hsel).subset (by simp)
    rw [if_pos hm, hu]
    rfl

theorem skipIndices_spec (t : Telescope) (hh : t.homogeneous = false) (hnd : t.names.Nodup) (ns : List String) :
    skipIndices t ns = if ∀ n ∈ ns, n ∈ t.names then some (ns.map (t.names.idxOf ·)) else none := by
  induction ns with
  | nil => rfl
  | cons n ns ih =>
    rw [skipIndices, select_single t hh hnd, ih]
    by_cases h1 : n ∈ t.names
    · by_cases h2 : ∀ n ∈ ns, n ∈ t.names
      · rw [if_pos h1, if_pos h2, if_pos (by simpa [h1] using h2)]
        rfl
      · rw [if_pos h1, if_neg h2, if_neg (by simp only [List.forall_mem_cons, not_and]; exact fun _ => h2)]
        rfl
    · have h3 : ¬ ∀ m ∈ n :: ns, m ∈ t.names := fun h => h1 (h n List.mem_cons_self)
      rw [if_neg h1, if_neg h3]
      rfl

/-- The beam that the user asks for: none for the stations to be skipped. -/
def wantedBeam (e : Env K) (skip : List String) (mode : Mode) (dir : Dir K) (ant ch : Nat) : M2 K :=
  if e.antennas.getD ant "" ∈ skip then 1 else antennaBeam e mode dir ant ch

/-- C183. If the antennas of the data are the first stations of the telescope, then the beam of an antenna is
skipped if and only if its name is in `skipstations`. (Full claim: for the antennas of any data. That is false, see
`skip_wrong_station` and `skip_all_homogeneous`.) -/
theorem skip_stations_partial (e : Env K) (hnd : e.tel.names.Nodup) (hh : e.tel.homogeneous = false)
    (hpre : e.antennas <+: e.tel.names) (stations : List Nat) (names : List String) (skip : List Nat)
    (hs : selectStations e.tel e.antennas = some stations) (hk : skipIndices e.tel names = some skip) (ant ch : Nat)
    (ha : ant < e.antennas.length) (hc : ch < e.bls.nChan) (dir : Dir K) (mode : Mode) :
    computeBeam e.resp dir false mode stations skip e.bls.nChan (beamIndex stations.length e.bls.nChan ant + ch) =
      some (wantedBeam e names mode dir ant ch) := by
  obtain ⟨st, h1, h2, _, h4⟩ := lookup e hnd stations hs ant ch ha hc dir false mode skip
  have := h2 hh
  subst this
  rw [h4]
  rw [skipIndices_spec _ hh hnd] at hk
  split at hk
  swap
  · cases hk
  rename_i hall
  obtain rfl := Option.some.inj hk
  obtain ⟨rest, hrest⟩ := hpre
  have hget : e.tel.names[st]? = some (e.antennas.getD st "") := by
    rw [← hrest, List.getElem?_append_left ha, List.getElem?_eq_getElem ha]
    simp [ha]
  have hmem : st ∈ names.map (e.tel.names.idxOf ·) ↔ e.antennas.getD st "" ∈ names := by
    constructor
    · intro h
      obtain ⟨n, hn, hi⟩ := List.mem_map.mp h
      have := List.getElem?_idxOf (hall n hn)
      rw [hi, hget] at this
      rw [Option.some.inj this]
      exact hn
    · intro h
      refine List.mem_map.mpr ⟨_, h, ?_⟩
      obtain ⟨hl, he⟩ := List.getElem?_eq_some_iff.mp hget
      rw [← he]
      exact hnd.idxOf_getElem _ hl
  unfold wantedBeam antennaBeam
  by_cases hm : e.antennas.getD st "" ∈ names
  · have hm' := hmem.mpr hm
    rw [if_pos hm]
    cases mode <;> simp only [stationBeam, if_pos hm']
  · have hm' := fun c => hm (hmem.mp c)
    rw [if_neg hm]
    cases mode <;> simp only [stationBeam, if_neg hm', h1] <;> rfl

/-- An unknown name is refused. -/
theorem skip_unknown_refused (e : Env K) (hnd : e.tel.names.Nodup) (hh : e.tel.homogeneous = false) (c : Cfg K)
    (n : String) (hn : n ∈ c.skip) (hu : n ∉ e.tel.names) (s : St K) : step e c s = none := by
  have hk : skipIndices e.tel c.skip = none := by
    rw [skipIndices_spec _ hh hnd, if_neg fun h => hu (h n hn)]
  unfold step
  split
  · rfl
  · rw [hk]
    cases updateCorrection c s.mode s.dir with
    | none => rfl
    | some p => cases selectStations e.tel e.antennas <;> rfl

/-- A telescope with three stations, of which the response is a number. -/
def tel3 : Telescope := ⟨false, ["CS001", "CS002", "CS003"]⟩

/-- Data of the stations of `tel3`. -/
def env3 (antennas : List String) : Env ℚ :=
  ⟨tel3, antennas, ⟨1, fun _ => 0, fun _ => 1, 1⟩, fun _ s _ _ => ⟨⟨s + 2, 0⟩, 0, 0, ⟨s + 2, 0⟩⟩⟩

/-- A direction. -/
def up : Dir ℚ := ⟨0, 0, 1⟩

example : (computeBeam (env3 ["CS001", "CS002"]).resp up false .full [0, 1] [1] 1 (beamIndex 2 1 0 + 0),
    computeBeam (env3 ["CS001", "CS002"]).resp up false .full [0, 1] [1] 1 (beamIndex 2 1 1 + 0)) =
    (some (wantedBeam (env3 ["CS001", "CS002"]) ["CS002"] .full up 0 0), some 1) ∧
    ["CS001", "CS002"] <+: tel3.names ∧ skipIndices tel3 ["CS002"] = some [1] := by
  decide +kernel

/-- C183, counterexample. In data without the first station, the beam of CS003 is skipped when the user asks to
skip CS002. -/
theorem skip_wrong_station :
    selectStations tel3 ["CS002", "CS003"] = some [1, 2] ∧ skipIndices tel3 ["CS002"] = some [1] ∧
    computeBeam (env3 ["CS002", "CS003"]).resp up false .full [1, 2] [1] 1 (beamIndex 2 1 0 + 0) =
      some (antennaBeam (env3 ["CS002", "CS003"]) .full up 0 0) ∧
    wantedBeam (env3 ["CS002", "CS003"]) ["CS002"] .full up 0 0 = 1 ∧
    antennaBeam (env3 ["CS002", "CS003"]) .full up 0 0 ≠ 1 ∧
    computeBeam (env3 ["CS002", "CS003"]).resp up false .full [1, 2] [1] 1 (beamIndex 2 1 1 + 0) = some 1 ∧
    wantedBeam (env3 ["CS002", "CS003"]) ["CS002"] .full up 1 0 ≠ 1 := by
  decide +kernel

/-- C183, counterexample. If all stations of the telescope are equal, then skipping one station, even one that does
not exist, skips the beam of all antennas. -/
theorem skip_all_homogeneous (e : Env K) (hh : e.tel.homogeneous = true) (name : String) (dir : Dir K)
    (invert : Bool) (mode : Mode) (ant ch : Nat) (hc : ch < e.bls.nChan) :
    ∃ stations skip, selectStations e.tel e.antennas = some stations ∧ skipIndices e.tel [name] = some skip ∧
      computeBeam e.resp dir invert mode stations skip e.bls.nChan
        (beamIndex stations.length e.bls.nChan ant + ch) = some 1 := by
  refine ⟨[0], [0], by simp [selectStations, hh], by simp [skipIndices, selectStations, hh], ?_⟩
  simp only [computeBeam, beamIndex, List.length_singleton, if_true, Nat.zero_add, one_mul]
  rw [if_pos hc, Nat.div_eq_of_lt hc, Nat.mod_eq_of_lt hc]
  cases mode <;> simp [stationBeam]

example : (⟨⟨true, ["A"]⟩, ["A", "B"], ⟨1, fun _ => 0, fun _ => 1, 1⟩, fun _ _ _ _ => 0⟩ : Env ℚ).tel.homogeneous = true :=
  rfl

end Skip

/-! ## C184: the correction in the metadata is that of the data -/

section Correction
variable {K : Type} [Field K] [LinearOrder K] [IsStrictOrderedRing K]

/-- The data are the raw data, corrected for the beam in a mode and a direction. -/
def Corrected (e : Env K) (raw : Nat → Nat → M2 K) (mode : Mode) (dir : Dir K) (data : Data K) : Prop :=
  ∀ bl < e.bls.nBl, ∀ ch < e.bls.nChan, ∃ v, data bl ch = some v ∧
    antennaBeam e mode dir (e.bls.ant1 bl) ch * v * (antennaBeam e mode dir (e.bls.ant2 bl) ch).herm = raw bl ch

/-- The beam of all antennas has an inverse. -/
def Regular (e : Env K) (mode : Mode) (dir : Dir K) : Prop :=
  ∀ ant < e.antennas.length, ∀ ch < e.bls.nChan,
    mode = .none ∨ Invertible mode (e.resp mode (stationOf e ant) ch dir)

theorem herm_one : M2.herm (1 : M2 K) = 1 := by simp [M2.herm, M2.ext_iff]

/-- Applying the beam for which the data were corrected restores the raw data. -/
theorem oneBeam_apply (e : Env K) (hv : Valid e) (stations : List Nat)
    (hs : selectStations e.tel e.antennas = some stations) (raw : Nat → Nat → M2 K) (mode : Mode) (dir : Dir K)
    (data : Data K) (h : Corrected e raw mode dir data) (bl ch : Nat) (hbl : bl < e.bls.nBl) (hch : ch < e.bls.nChan) :
    oneBeam e dir false mode stations [] data bl ch = some (raw bl ch) := by
  obtain ⟨v, hv1, hv2⟩ := h bl hbl ch hch
  obtain ⟨s1, a1, _, _, a4⟩ := lookup e hv.nodup stations hs (e.bls.ant1 bl) ch (hv.ant1 bl hbl) hch dir false mode []
  obtain ⟨s2, b1, _, _, b4⟩ := lookup e hv.nodup stations hs (e.bls.ant2 bl) ch (hv.ant2 bl hbl) hch dir false mode []
  unfold oneBeam applyBeamToData
  rw [hv1, a4, b4, stationBeam_apply _ _ _ _ _ _ _ a1, stationBeam_apply _ _ _ _ _ _ _ b1]
  show some _ = some _
  rw [← hv2, mul_assoc]
  rfl

/-- Applying the inverse beam corrects the raw data. -/
theorem oneBeam_invert (e : Env K) (hv : Valid e) (stations : List Nat)
    (hs : selectStations e.tel e.antennas = some stations) (raw : Nat → Nat → M2 K) (mode : Mode) (dir : Dir K)
    (hr : Regular e mode dir) (data : Data K)
    (h : ∀ bl < e.bls.nBl, ∀ ch < e.bls.nChan, data bl ch = some (raw bl ch)) :
    Corrected e raw mode dir (oneBeam e dir true mode stations [] data) := by
  intro bl hbl ch hch
  obtain ⟨s1, a1, _, _, a4⟩ := lookup e hv.nodup stations hs (e.bls.ant1 bl) ch (hv.ant1 bl hbl) hch dir true mode []
  obtain ⟨s2, b1, _, _, b4⟩ := lookup e hv.nodup stations hs (e.bls.ant2 bl) ch (hv.ant2 bl hbl) hch dir true mode []
  obtain ⟨w1, c1, _, c3⟩ := stationBeam_invert e.resp dir mode stations s1 ch _ a1 (hr _ (hv.ant1 bl hbl) ch hch)
  obtain ⟨w2, d1, _, d3⟩ := stationBeam_invert e.resp dir mode stations s2 ch _ b1 (hr _ (hv.ant2 bl hbl) ch hch)
  refine ⟨w1 * (raw bl ch * w2.herm), ?_, ?_⟩
  · unfold oneBeam applyBeamToData
    rw [h bl hbl ch hch, a4, b4, c1, d1]
    rfl
  · show antennaBeam e mode dir (e.bls.ant1 bl) ch * _ * (antennaBeam e mode dir (e.bls.ant2 bl) ch).herm = _
    unfold antennaBeam
    generalize (if mode = Mode.none then (1 : M2 K) else e.resp mode (stationOf e (e.bls.ant1 bl)) ch dir) = A at c3
    generalize (if mode = Mode.none then (1 : M2 K) else e.resp mode (stationOf e (e.bls.ant2 bl)) ch dir) = B at d3
    have hB : w2.herm * B.herm = 1 := by rw [← M2.herm_mul, d3, herm_one]
    calc A * (w1 * (raw bl ch * w2.herm)) * B.herm = (A * w1) * raw bl ch * (w2.herm * B.herm) := by
          simp only [mul_assoc]
      _ = raw bl ch := by rw [c3, hB, one_mul, mul_one]

/-- What a step needs so that it can keep the metadata right: it corrects data and not model data, skips no
stations, and its beam has an inverse. -/
structure Plain (e : Env K) (c : Cfg K) : Prop where
  useModel : c.useModel = false
  skip : c.skip = []
  regular : Regular e c.mode c.dir

theorem step_corrected (e : Env K) (hv : Valid e) (raw : Nat → Nat → M2 K) (c : Cfg K) (hp : Plain e c) (s s' : St K)
    (hdir : s.mode ≠ .none → sameDir s.dir c.dir = true → s.dir = c.dir)
    (h : Corrected e raw s.mode s.dir s.data) (hs : step e c s = some s') :
    Corrected e raw s'.mode s'.dir s'.data := by
  have hraw0 : ∀ (dir : Dir K) (data : Data K), Corrected e raw .none dir data →
      ∀ bl < e.bls.nBl, ∀ ch < e.bls.nChan, data bl ch = some (raw bl ch) := by
    intro dir data h bl hbl ch hch
    obtain ⟨v, h1, h2⟩ := h bl hbl ch hch
    rw [h1, ← h2]
    simp [antennaBeam, herm_one]
  unfold step at hs
  rw [hp.useModel, hp.skip] at hs
  simp only [Bool.false_and, Bool.false_eq_true, if_false] at hs
  cases hu : updateCorrection c s.mode s.dir with
  | none => rw [hu] at hs; cases hs
  | some p =>
    rw [hu] at hs
    cases hst : selectStations e.tel e.antennas with
    | none => rw [hst] at hs; cases hs
    | some stations =>
      rw [hst] at hs
      obtain rfl := Option.some.inj hs
      show Corrected e raw p.1 p.2 (processData e c s.mode s.dir stations [] s.data)
      unfold processData
      unfold updateCorrection at hu
      cases hi : c.invert with
      | true =>
        rw [hi] at hu
        obtain rfl := Option.some.inj hu
        refine oneBeam_invert e hv stations hst raw c.mode c.dir hp.regular _ ?_
        by_cases hm : s.mode = .none
        · rw [if_neg (by simp [hm])]
          rw [hm] at h
          exact hraw0 _ _ h
        · rw [if_pos (by simp [hm])]
          exact fun bl hbl ch hch => oneBeam_apply e hv stations hst raw s.mode s.dir s.data h bl ch hbl hch
      | false =>
        rw [hi, hp.useModel] at hu
        simp only [Bool.false_eq_true, if_false, Bool.not_false, if_true] at hu
        split at hu
        · cases hu
        · rename_i hm
          split at hu
          · cases hu
          · rename_i hm2
            split at hu
            · rename_i hd
              obtain rfl := Option.some.inj hu
              have hm2 : s.mode = c.mode := by simpa using hm2
              have hd := hdir hm hd
              rw [if_neg (by simp)]
              intro bl hbl ch hch
              refine ⟨raw bl ch, ?_, by simp [antennaBeam, herm_one]⟩
              rw [← hd, ← hm2]
              exact oneBeam_apply e hv stations hst raw s.mode s.dir s.data h bl ch hbl hch
            · cases hu

theorem step_dir (e : Env K) (c : Cfg K) (s s' : St K) (hs : step e c s = some s') :
    s'.mode = .none ∨ s'.dir = c.dir ∨ (s'.dir = s.dir ∧ s'.mode = s.mode) := by
  unfold step at hs
  split at hs
  · cases hs
  · cases hu : updateCorrection c s.mode s.dir with
    | none => rw [hu] at hs; cases hs
    | some p =>
      rw [hu] at hs
      have hp : p.1 = .none ∨ p.2 = c.dir ∨ (p.2 = s.dir ∧ p.1 = s.mode) := by
        unfold updateCorrection at hu
        split at hu
        · obtain rfl := Option.some.inj hu; exact Or.inr (Or.inl rfl)
        · split at hu
          · split at hu
            · cases hu
            · split at hu
              · cases hu
              · split at hu
                · obtain rfl := Option.some.inj hu; exact Or.inl rfl
                · cases hu
          · obtain rfl := Option.some.inj hu; exact Or.inr (Or.inr ⟨rfl, rfl⟩)
      cases hst : selectStations e.tel e.antennas with
      | none => rw [hst] at hs; cases hs
      | some stations =>
        rw [hst] at hs
        cases hk : skipIndices e.tel c.skip with
        | none => rw [hk] at hs; cases hs
        | some skip =>
          rw [hk] at hs
          simp only [Option.bind_eq_bind, Option.bind_some] at hs
          split at hs
          · obtain rfl := Option.some.inj hs; exact hp
          · obtain rfl := Option.some.inj hs; exact hp

/-- C184. After any number of steps that are accepted, the data are the raw data corrected in the mode and the
direction that the metadata give: each step first undoes the correction of an earlier one, and `invert=false` gives
the raw data. This is for steps that do not skip stations, that are not for model data, and of which different
directions differ in the first two coordinates. (Full claim: for all accepted steps. That is false, see
`mirrored_direction`, `model_data_metadata` and `skipped_not_recorded`.) -/
theorem metadata_right_partial (e : Env K) (hv : Valid e) (raw : Nat → Nat → M2 K) (cs : List (Cfg K))
    (hp : ∀ c ∈ cs, Plain e c) (hdir : ∀ c ∈ cs, ∀ c' ∈ cs, sameDir c.dir c'.dir = true → c.dir = c'.dir)
    (s s' : St K) (hmode : s.mode = .none)
    (h : ∀ bl < e.bls.nBl, ∀ ch < e.bls.nChan, s.data bl ch = some (raw bl ch)) (hrun : run e cs s = some s') :
    Corrected e raw s'.mode s'.dir s'.data := by
  have key : ∀ (l : List (Cfg K)) (s : St K), (∀ c ∈ l, c ∈ cs) → Corrected e raw s.mode s.dir s.data →
      (s.mode = .none ∨ ∃ c ∈ cs, s.dir = c.dir) → run e l s = some s' → Corrected e raw s'.mode s'.dir s'.data := by
    intro l
    induction l with
    | nil => intro s _ h _ hr; obtain rfl := Option.some.inj hr; exact h
    | cons c l ih =>
      intro s hl h hd hr
      rw [run] at hr
      cases hs : step e c s with
      | none => rw [hs] at hr; cases hr
      | some t =>
        rw [hs] at hr
        have hc := hl c (List.mem_cons_self)
        refine ih t (fun c' h' => hl c' (List.mem_cons_of_mem _ h')) ?_ ?_ hr
        · refine step_corrected e hv raw c (hp c hc) s t ?_ h hs
          intro hm hsame
          rcases hd with hd | ⟨c', hc', hd⟩
          · exact absurd hd hm
          · rw [hd] at hsame ⊢
            exact hdir c' hc' c hc hsame
        · rcases step_dir e c s t hs with h1 | h1 | ⟨h1, h2⟩
          · exact Or.inl h1
          · exact Or.inr ⟨c, hc, h1⟩
          · rcases hd with hd | ⟨c', hc', hd⟩
            · exact Or.inl (h2.trans hd)
            · exact Or.inr ⟨c', hc', h1.trans hd⟩
  refine key cs s (fun c h => h) ?_ (Or.inl hmode) hrun
  intro bl hbl ch hch
  refine ⟨raw bl ch, h bl hbl ch hch, ?_⟩
  rw [hmode]
  simp [antennaBeam, herm_one]

/-- C184. A step with `invert=false` for the data is accepted only if the data have been corrected, in the mode of the
step, and in a direction of which the first two coordinates are those of the step. -/
theorem undo_checked (e : Env K) (c : Cfg K) (s s' : St K) (hi : c.invert = false) (hm : c.useModel = false)
    (h : step e c s = some s') : s.mode ≠ .none ∧ s.mode = c.mode ∧ |s.dir.x - c.dir.x| ≤ 1 / 1000000000 ∧
      |s.dir.y - c.dir.y| ≤ 1 / 1000000000 := by
  unfold step at h
  rw [hm] at h
  simp only [Bool.false_and, Bool.false_eq_true, if_false] at h
  cases hu : updateCorrection c s.mode s.dir with
  | none => rw [hu] at h; cases h
  | some p =>
    unfold updateCorrection at hu
    rw [hi, hm] at hu
    simp only [Bool.false_eq_true, if_false, Bool.not_false, if_true] at hu
    split at hu
    · cases hu
    · rename_i h1
      split at hu
      · cases hu
      · rename_i h2
        split at hu
        · rename_i h3
          simp only [sameDir, Bool.not_eq_true', Bool.or_eq_false_iff, decide_eq_false_iff_not, not_lt] at h3
          exact ⟨h1, not_not.mp h2, h3.1, h3.2⟩
        · cases hu

/-- C184. The mode and the direction determine the corrected data: the result does not depend on the corrections that
came before. -/
theorem corrected_unique (e : Env K) (hv : Valid e) (raw : Nat → Nat → M2 K) (mode : Mode) (dir : Dir K)
    (hr : Regular e mode dir) (d d' : Data K) (h : Corrected e raw mode dir d) (h' : Corrected e raw mode dir d')
    (bl ch : Nat) (hbl : bl < e.bls.nBl) (hch : ch < e.bls.nChan) : d bl ch = d' bl ch := by
  obtain ⟨v, h1, h2⟩ := h bl hbl ch hch
  obtain ⟨v', h1', h2'⟩ := h' bl hbl ch hch
  have inv : ∀ ant < e.antennas.length, ∃ w, w * antennaBeam e mode dir ant ch = 1 := by
    intro ant ha
    obtain ⟨w, _, hw, _⟩ := stationBeam_invert e.resp dir mode [stationOf e ant] 0 ch _ rfl (hr ant ha ch hch)
    exact ⟨w, hw⟩
  obtain ⟨w1, hw1⟩ := inv _ (hv.ant1 bl hbl)
  obtain ⟨w2, hw2⟩ := inv _ (hv.ant2 bl hbl)
  have key : ∀ u : M2 K, u = w1 * (antennaBeam e mode dir (e.bls.ant1 bl) ch * u *
      (antennaBeam e mode dir (e.bls.ant2 bl) ch).herm) * w2.herm := by
    intro u
    have hB : (antennaBeam e mode dir (e.bls.ant2 bl) ch).herm * w2.herm = 1 := by rw [← M2.herm_mul, hw2, herm_one]
    generalize antennaBeam e mode dir (e.bls.ant1 bl) ch = A at hw1
    generalize (antennaBeam e mode dir (e.bls.ant2 bl) ch).herm = B at hB
    calc u = (w1 * A) * u * (B * w2.herm) := by rw [hw1, hB, one_mul, mul_one]
      _ = w1 * (A * u * B) * w2.herm := by simp only [mul_assoc]
  rw [h1, h1', key v, key v', h2, h2']

/-- A correction after `SetBeam` is right if the data had the correction that `SetBeam` was given. -/
theorem setBeam_corrected (e : Env K) (raw : Nat → Nat → M2 K) (mode : Mode) (dir : Dir K) (s : St K) :
    (Corrected e raw (setBeam mode dir s).mode (setBeam mode dir s).dir (setBeam mode dir s).data ↔
      Corrected e raw mode dir s.data) ∧ (setBeam mode dir s).data = s.data ∧ (setBeam mode dir s).models = s.models :=
  ⟨Iff.rfl, rfl, rfl⟩

/-! ### An example -/

/-- A telescope with two stations, and responses that depend on everything. -/
def envX : Env ℚ where
  tel := ⟨false, ["CS001", "CS002", "CS003"]⟩
  antennas := ["CS001", "CS003"]
  bls := ⟨1, fun _ => 0, fun _ => 1, 1⟩
  resp m s _ d := match m with
    | .arrayFactor => ⟨⟨s + 2, d.x⟩, 0, 0, ⟨s + 3, d.z⟩⟩
    | _ => ⟨⟨s + 2, 0⟩, ⟨1, 0⟩, 0, ⟨d.z + 4, 1⟩⟩

/-- A correction in a direction. -/
def cfgX (invert : Bool) (mode : Mode) (dir : Dir ℚ) : Cfg ℚ := ⟨invert, mode, dir, [], false⟩

/-- Uncorrected data. -/
def stX : St ℚ := ⟨.none, ⟨0, 0, 1⟩, fun _ _ => some 1, []⟩

/-- A direction in the north, and its mirror image in the south. -/
def north : Dir ℚ := ⟨3 / 5, 0, 4 / 5⟩
/-- The mirror image of `north`. -/
def south : Dir ℚ := ⟨3 / 5, 0, -4 / 5⟩

example : Valid envX ∧ Plain envX (cfgX true .full north) ∧ Plain envX (cfgX true .arrayFactor up) ∧
    (sameDir north up = true → north = up) ∧
    ((run envX [cfgX true .full north, cfgX true .arrayFactor up, cfgX false .arrayFactor up] stX).map
      fun s => (s.mode, s.data 0 0)) = some (.none, some 1) ∧
    ((run envX [cfgX true .full north] stX).map fun s => decide (s.data 0 0 = some 1)) = some false := by
  have hreg : ∀ c ∈ [cfgX true .full north, cfgX true .arrayFactor up], Regular envX c.mode c.dir := by
    intro c hc ant ha ch hch
    have ha : ant < 2 := ha
    have hch : ch < 1 := hch
    obtain rfl : ch = 0 := by omega
    right
    unfold Invertible
    have h2 : ant = 0 ∨ ant = 1 := by omega
    simp only [List.mem_cons, List.not_mem_nil, or_false] at hc
    rcases hc with rfl | rfl <;> rcases h2 with rfl | rfl <;> decide +kernel
  refine ⟨⟨by decide, ?_, ?_⟩, ⟨rfl, rfl, hreg _ (by simp)⟩, ⟨rfl, rfl, hreg _ (by simp)⟩, ?_, ?_, ?_⟩
  · intro bl _; show 0 < 2; omega
  · intro bl _; show 1 < 2; omega
  · decide +kernel
  · decide +kernel
  · decide +kernel

example : (step envX (cfgX false .full up) stX).isNone ∧
    (step envX (cfgX false .element up) { stX with mode := .full }).isNone ∧
    (step envX (cfgX false .full up) { stX with mode := .full }).isSome := by
  decide +kernel

/-- C184, counterexample. Data that were corrected in a northern direction are accepted by a step with
`invert=false` and the mirrored direction in the south; the result is not the raw data, and the metadata say that it
is. -/
theorem mirrored_direction : north ≠ south ∧
    ((run envX [cfgX true .full north, cfgX false .full south] stX).map fun s => (s.mode, decide (s.data 0 0 = some 1))) =
      some (.none, false) := by
  decide +kernel

/-- C184, counterexample. A correction of the model data only changes the metadata of the data: the data are
raw and the metadata say that they are corrected. -/
theorem model_data_metadata :
    ((run envX [⟨true, .full, north, [], true⟩] { stX with models := [(north, fun _ _ => some 1)] }).map
      fun s => (s.mode, s.data 0 0)) = some (.full, some 1) ∧
    antennaBeam envX .full north 0 0 * 1 * (antennaBeam envX .full north 1 0).herm ≠ 1 := by
  decide +kernel

/-- C184, counterexample. The skipped stations are not in the metadata: after a correction in which a station was
skipped, a step with `invert=false` is accepted and does not give the raw data. -/
theorem skipped_not_recorded :
    ((run envX [⟨true, .full, north, ["CS001"], false⟩, cfgX false .full north] stX).map
      fun s => (s.mode, decide (s.data 0 0 = some 1))) = some (.none, false) := by
  decide +kernel

end Correction

/-! ## C185: the scalar array factor -/

section Scalar
variable {K : Type} [Field K] [LinearOrder K] [IsStrictOrderedRing K]

/-- C185. For unpolarised data, and array factors that are the same for both polarisations, the calculation with
scalars gives the diagonal of the calculation with matrices, and the other elements do not change. -/
theorem arrayFactor_scalar (r : Response K) (dir : Dir K) (invert : Bool) (stations skip : List Nat) (b : Baselines)
    (hr : ∀ s ch, ∃ g, r .arrayFactor s ch dir = ⟨g, 0, 0, g⟩) (nStations : Nat)
    (data model : Nat → Nat → Option (Cx K)) (bl ch : Nat) :
    applyBeamToDataAndAdd b nStations (computeBeam r dir invert .arrayFactor stations skip b.nChan)
      (fun bl ch => (data bl ch).map fun v => ⟨v, 0, 0, v⟩) (fun bl ch => (model bl ch).map fun v => ⟨v, 0, 0, v⟩) bl ch =
    (applyArrayFactorAndAdd b nStations (computeArrayFactor r dir invert stations skip b.nChan) data model bl ch).map
      fun v => ⟨v, 0, 0, v⟩ := by
  have hst : ∀ st ch, stationBeam r dir invert .arrayFactor stations skip st ch =
      (stationArrayFactor r dir invert stations skip st ch).map fun v => ⟨v, 0, 0, v⟩ := by
    intro st ch
    unfold stationBeam stationArrayFactor
    by_cases hk : st ∈ skip
    · simp [hk, M2.ext_iff]
    · simp only [hk, if_false]
      cases hs : stations[st]? with
      | none => rfl
      | some s =>
        obtain ⟨g, hg⟩ := hr s ch
        simp only [Option.bind_eq_bind, Option.bind_some, hg]
        cases invert with
        | false => simp
        | true =>
          simp only [if_true]
          cases recip g <;> rfl
  have hbeam : ∀ i, computeBeam r dir invert .arrayFactor stations skip b.nChan i =
      (computeArrayFactor r dir invert stations skip b.nChan i).map fun v => ⟨v, 0, 0, v⟩ := by
    intro i
    unfold computeBeam computeArrayFactor
    split
    · exact hst _ _
    · rfl
  unfold applyBeamToDataAndAdd applyArrayFactorAndAdd
  simp only [hbeam]
  cases data bl ch with
  | none => rfl
  | some v =>
    cases model bl ch with
    | none => rfl
    | some m =>
      cases computeArrayFactor r dir invert stations skip b.nChan (beamIndex nStations b.nChan (b.ant1 bl) + ch) with
      | none => rfl
      | some x =>
        cases computeArrayFactor r dir invert stations skip b.nChan (beamIndex nStations b.nChan (b.ant2 bl) + ch) with
        | none => rfl
        | some y =>
          show some _ = some _
          congr 1
          refine M2.ext ?_ ?_ ?_ ?_ <;> simp [M2.herm] <;> ring

example : ∃ g : Cx ℚ, (env3 ["CS001"]).resp .arrayFactor 1 0 up = ⟨g, 0, 0, g⟩ :=
  ⟨⟨3, 0⟩, by decide +kernel⟩

/-- C185. Adding to a model is adding what the step applies to data. -/
theorem addBeam_spec (b : Baselines) (nStations : Nat) (beam : Nat → Option (M2 K)) (data model : Data K)
    (bl ch : Nat) (v m : M2 K) (hv : applyBeamToData b nStations beam data bl ch = some v)
    (hm : model bl ch = some m) : applyBeamToDataAndAdd b nStations beam data model bl ch = some (m + v) := by
  unfold applyBeamToData at hv
  unfold applyBeamToDataAndAdd
  cases hd : data bl ch with
  | none => rw [hd] at hv; cases hv
  | some d =>
    rw [hd] at hv
    rw [hm]
    cases h1 : beam (beamIndex nStations b.nChan (b.ant1 bl) + ch) with
    | none => rw [h1] at hv; cases hv
    | some x =>
      rw [h1] at hv
      cases h2 : beam (beamIndex nStations b.nChan (b.ant2 bl) + ch) with
      | none => rw [h2] at hv; cases hv
      | some y =>
        rw [h2] at hv
        obtain rfl := Option.some.inj hv
        rfl

example : applyBeamToData (K := ℚ) ⟨1, fun _ => 0, fun _ => 1, 1⟩ 2 (fun i => some ⟨⟨i + 1, 0⟩, 0, 0, ⟨1, 1⟩⟩)
    (fun _ _ => some 1) 0 0 = some ⟨⟨2, 0⟩, 0, 0, ⟨2, 0⟩⟩ := by
  decide +kernel

end Scalar

/-! ## C186: weights -/

section Weights
variable {K : Type} [Field K] [LinearOrder K] [IsStrictOrderedRing K]

open ApplyCal

theorem applyWeights_diag (a1 a2 b1 b2 : Cx K) (ha1 : a1 ≠ 0) (ha2 : a2 ≠ 0) (hb1 : b1 ≠ 0) (hb2 : b2 ≠ 0)
    (w : Four K) (hw : 0 < w.xx ∧ 0 < w.xy ∧ 0 < w.yx ∧ 0 < w.yy) :
    applyWeights ⟨a1, 0, 0, a2⟩ ⟨b1, 0, 0, b2⟩ ⟨.fin w.xx, .fin w.xy, .fin w.yx, .fin w.yy⟩ =
      ⟨.fin (w.xx / (a1.normSq * b1.normSq)), .fin (w.xy / (a1.normSq * b2.normSq)),
        .fin (w.yx / (a2.normSq * b1.normSq)), .fin (w.yy / (a2.normSq * b2.normSq))⟩ := by
  obtain ⟨h1, h2, h3, h4⟩ := hw
  have n : ∀ x : Cx K, x ≠ 0 → x.normSq ≠ 0 := fun x hx c => hx (Cx.normSq_eq_zero.mp c)
  have := n a1 ha1
  have := n a2 ha2
  have := n b1 hb1
  have := n b2 hb2
  simp [applyWeights, Flt.inv, Flt.mulFin, Flt.add, h1.ne', h2.ne', h3.ne', h4.ne', *]
  refine ⟨?_, ?_, ?_, ?_⟩ <;> field_simp

/-- C186. With a diagonal beam, as that of the array factor, correcting and applying again restores positive
weights. (Full claim: for any beam. That is false, see `weights_not_restored`.) -/
theorem weights_restored_partial (a1 a2 b1 b2 a1' a2' b1' b2' : Cx K) (ha1 : a1' * a1 = 1) (ha2 : a2' * a2 = 1)
    (hb1 : b1' * b1 = 1) (hb2 : b2' * b2 = 1) (w : Four K)
    (hw : 0 < w.xx ∧ 0 < w.xy ∧ 0 < w.yx ∧ 0 < w.yy) :
    applyWeights ⟨a1, 0, 0, a2⟩ ⟨b1, 0, 0, b2⟩
      (applyWeights ⟨a1', 0, 0, a2'⟩ ⟨b1', 0, 0, b2'⟩ ⟨.fin w.xx, .fin w.xy, .fin w.yx, .fin w.yy⟩) =
      ⟨.fin w.xx, .fin w.xy, .fin w.yx, .fin w.yy⟩ := by
  have nz : ∀ x y : Cx K, y * x = 1 → x ≠ 0 ∧ y ≠ 0 ∧ y.normSq * x.normSq = 1 ∧ 0 < y.normSq := by
    intro x y h
    have h1 : y.normSq * x.normSq = 1 := by rw [← Cx.normSq_mul, h]; simp [Cx.normSq]
    have hy : y ≠ 0 := by rintro rfl; simp at h1
    refine ⟨by rintro rfl; simp at h1, hy, h1, ?_⟩
    exact lt_of_le_of_ne (Cx.normSq_nonneg y) fun c => hy (Cx.normSq_eq_zero.mp c.symm)
  obtain ⟨p1, q1, r1, s1⟩ := nz _ _ ha1
  obtain ⟨p2, q2, r2, s2⟩ := nz _ _ ha2
  obtain ⟨p3, q3, r3, s3⟩ := nz _ _ hb1
  obtain ⟨p4, q4, r4, s4⟩ := nz _ _ hb2
  rw [applyWeights_diag a1' a2' b1' b2' q1 q2 q3 q4 w hw]
  obtain ⟨h1, h2, h3, h4⟩ := hw
  rw [applyWeights_diag a1 a2 b1 b2 p1 p2 p3 p4 ⟨_, _, _, _⟩
    ⟨div_pos h1 (mul_pos s1 s3), div_pos h2 (mul_pos s1 s4), div_pos h3 (mul_pos s2 s3), div_pos h4 (mul_pos s2 s4)⟩]
  have key : ∀ x p q p' q' : K, p' * p = 1 → q' * q = 1 → x / (p' * q') / (p * q) = x := by
    intro x p q p' q' hp hq
    rw [div_div, show p' * q' * (p * q) = (p' * p) * (q' * q) by ring, hp, hq, one_mul, div_one]
  simp only [key _ _ _ _ _ r1 r3, key _ _ _ _ _ r1 r4, key _ _ _ _ _ r2 r3, key _ _ _ _ _ r2 r4]

example : (⟨1 / 2, 0⟩ : Cx ℚ) * ⟨2, 0⟩ = 1 ∧ (⟨0, -1⟩ : Cx ℚ) * ⟨0, 1⟩ = 1 := by decide +kernel

/-- C186, counterexample. With a beam that is not diagonal, the weights after correcting and applying again are not
the weights of before. -/
theorem weights_not_restored : ∃ a a' : M2 ℚ, a' * a = 1 ∧ a * a' = 1 ∧
    (applyWeights a a (applyWeights a' a' ⟨.fin 1, .fin 1, .fin 1, .fin 1⟩)).xx = .fin (1 / 9) :=
  ⟨⟨1, 1, 0, 1⟩, ⟨1, -1, 0, 1⟩, by decide +kernel⟩

end Weights

end DP3.ApplyBeam
