import Verif.MsOutput.UpdateProps
import Mathlib.Tactic.Ring

/-!
# C200-C202: the contents of a new measurement set, and its update in the same run
-/

namespace DP3.MsOutput

set_option linter.unusedSimpArgs false
set_option linter.unusedSectionVars false

variable {V W : Type}

/-- A buffer with all fields for `nbl` baselines. -/
def Buf.Full (nbl : Nat) (b : Buf V W) : Prop :=
  b.data.length = nbl ∧ b.weights.length = nbl ∧ b.flags.length = nbl

private theorem masked_length {α : Type} (g : List Bool → α → α) :
    ∀ (fs : List (List (List Bool))) (vs : List (List α)), (masked g fs vs).length = vs.length := by
  intro fs
  induction fs with
  | nil => intro vs; cases vs <;> rfl
  | cons f fs ih =>
    intro vs
    cases vs with
    | nil => rfl
    | cons v vs => simp [masked, ih vs]

private theorem compress_full (m) (nbl : Nat) (b : Buf V W) (h : b.Full nbl) : (compress m b).Full nbl := by
  unfold compress
  cases m with
  | none => exact h
  | some m => exact ⟨by rw [masked_length]; exact h.1, by rw [masked_length]; exact h.2.1, h.2.2⟩

private theorem newRows_at : ∀ (ds : List (List V)) (ws : List (List W)) (fs : List (List (List Bool))) (nbl : Nat),
    ds.length = nbl → ws.length = nbl → fs.length = nbl →
    (newRows ds ws fs).length = nbl ∧
    ∀ (i : Nat) d w f, ds[i]? = some d → ws[i]? = some w → fs[i]? = some f → (newRows ds ws fs)[i]? = some (newRow d w f) := by
  intro ds
  induction ds with
  | nil =>
    intro ws fs nbl h1 _ _
    subst h1
    refine ⟨by simp [newRows], ?_⟩
    intro i d w f h
    simp at h
  | cons d ds ih =>
    intro ws fs nbl h1 h2 h3
    cases ws with
    | nil => simp at h1 h2; omega
    | cons w ws =>
      cases fs with
      | nil => simp at h1 h3; omega
      | cons f fs =>
        simp only [List.length_cons] at h1 h2 h3
        obtain ⟨e1, e2⟩ := ih ws fs (nbl - 1) (by omega) (by omega) (by omega)
        refine ⟨by simp only [newRows, List.length_cons, e1]; omega, ?_⟩
        intro i d' w' f' g1 g2 g3
        cases i with
        | zero =>
          simp only [List.getElem?_cons_zero, Option.some.injEq] at g1 g2 g3
          subst g1; subst g2; subst g3
          rfl
        | succ i =>
          simp only [List.getElem?_cons_succ] at g1 g2 g3
          simp only [newRows, List.getElem?_cons_succ]
          exact e2 i d' w' f' g1 g2 g3

private theorem compress_at (m) (b : Buf V W) (i : Nat) (d : List V) (w : List W) (f : List (List Bool))
    (hd : b.data[i]? = some d) (hw : b.weights[i]? = some w) (hf : b.flags[i]? = some f) :
    ∃ d' w', (compress m b).data[i]? = some d' ∧ (compress m b).weights[i]? = some w' ∧
      (compress m b).flags[i]? = some f ∧ (m = none → d' = d ∧ w' = w) ∧
      (∀ g, m = some g → d' = List.zipWith g.1 f d ∧ w' = List.zipWith g.2 f w) := by
  have key := written_values (⟨0, 0, 0, true, true, true, m⟩ : Config V W) b i d w hd hw
  cases m with
  | none => exact ⟨d, w, hd, hw, hf, fun _ => ⟨rfl, rfl⟩, (fun g h => by cases h)⟩
  | some m =>
    obtain ⟨h1, h2⟩ := key.2.1 m f rfl hf
    refine ⟨_, _, h1, h2, hf, (fun h => by cases h), ?_⟩
    intro g h
    obtain rfl := Option.some.inj h
    exact ⟨rfl, rfl⟩

/-- C200: row `k * nbl + i` of a new measurement set has the data, weights and flags of baseline `i` of buffer `k`, with
compression those of flagged correlations replaced; the row is flagged if and only if all its flags are set. -/
theorem new_rows (m : Option ((List Bool → V → V) × (List Bool → W → W))) (nbl : Nat) (bs : List (Buf V W)) :
    ∀ t : List (Row V W), (∀ b ∈ bs, b.Full nbl) →
      (writeAll m t bs).length = t.length + bs.length * nbl ∧
      (∀ r, r < t.length → (writeAll m t bs)[r]? = t[r]?) ∧
      ∀ (k i : Nat) b d w f, bs[k]? = some b → b.data[i]? = some d → b.weights[i]? = some w → b.flags[i]? = some f →
        ∃ row, (writeAll m t bs)[t.length + k * nbl + i]? = some row ∧ row.flags = f ∧
          (m = none → row.data = d ∧ row.weights = w) ∧
          (∀ g, m = some g → row.data = List.zipWith g.1 f d ∧ row.weights = List.zipWith g.2 f w) ∧
          (row.flagRow = true ↔ ∀ l ∈ f, ∀ x ∈ l, x = true) := by
  induction bs with
  | nil =>
    intro t _
    refine ⟨by simp [writeAll], fun r _ => rfl, ?_⟩
    intro k i b d w f h
    simp at h
  | cons b0 bs ih =>
    intro t hb
    have hf0 := compress_full m nbl b0 (hb b0 (by simp))
    obtain ⟨n1, n2⟩ := newRows_at _ _ _ nbl hf0.1 hf0.2.1 hf0.2.2
    have ht1 : (writeBuffer m t b0).1 =
        t ++ newRows (compress m b0).data (compress m b0).weights (compress m b0).flags := rfl
    obtain ⟨i1, i2, i3⟩ := ih (writeBuffer m t b0).1 (fun b hb' => hb b (List.mem_cons_of_mem _ hb'))
    have hl1 : (writeBuffer m t b0).1.length = t.length + nbl := by rw [ht1, List.length_append, n1]
    rw [hl1] at i1 i2 i3
    refine ⟨?_, ?_, ?_⟩
    · rw [writeAll, i1, List.length_cons]; ring
    · intro r hr
      rw [writeAll, i2 r (by omega), ht1, List.getElem?_append_left hr]
    · intro k i b d w f hk hd hw hf
      cases k with
      | zero =>
        simp only [List.getElem?_cons_zero, Option.some.injEq] at hk
        subst hk
        have hi : i < nbl := by
          rcases Nat.lt_or_ge i b0.data.length with g | g
          · rw [(hb b0 (by simp)).1] at g; exact g
          · rw [List.getElem?_eq_none g] at hd; cases hd
        obtain ⟨d', w', c1, c2, c3, c4, c5⟩ := compress_at m b0 i d w f hd hw hf
        have hrow := n2 i _ _ _ c1 c2 c3
        refine ⟨newRow d' w' f, ?_, rfl, c4, c5, by simp [newRow, List.all_eq_true]⟩
        · rw [writeAll, Nat.zero_mul, Nat.add_zero, i2 _ (by omega), ht1,
            List.getElem?_append_right (by omega), Nat.add_sub_cancel_left]
          exact hrow
      | succ k =>
        simp only [List.getElem?_cons_succ] at hk
        obtain ⟨row, r1, r2⟩ := i3 k i b d w f hk hd hw hf
        refine ⟨row, ?_, r2⟩
        rw [writeAll, ← r1]
        congr 1
        ring

/-- C200: reading the flags of a new measurement set gives the flags that were written. -/
theorem new_flags_read (d : List V) (w : List W) (f : List (List Bool)) :
    readFlags (newRow d w f) 0 f.length = f := by
  rw [readFlags]
  show (((f.drop 0).take f.length).map fun l => l.map fun x => x || f.all fun l => l.all id) = f
  rw [List.drop_zero, List.take_length]
  by_cases h : (f.all fun l => l.all id) = true
  · rw [h]
    have hall : ∀ l ∈ f, ∀ x ∈ l, x = true := by simpa [List.all_eq_true] using h
    conv_rhs => rw [← List.map_id f]
    apply List.map_congr_left
    intro l hl
    show (l.map fun x => x || true) = l
    conv_rhs => rw [← List.map_id l]
    apply List.map_congr_left
    intro x hx
    rw [hall l hl x hx]; rfl
  · rw [Bool.not_eq_true] at h
    rw [h]; simp

/-- The replacement of flagged values by zero. -/
def zeroMask : Option ((List Bool → ℕ → ℕ) × (List Bool → ℕ → ℕ)) :=
  some (fun f d => if f.any id then 0 else d, fun f w => if f.any id then 0 else w)

example : ∀ b ∈ ([⟨[7], [[1, 2]], [[1, 1]], [[[false], [true]]]⟩, ⟨[8], [[3, 4]], [[1, 1]], [[[true], [true]]]⟩] :
    List (Buf ℕ ℕ)), b.Full 1 := by
  intro b hb
  have h : b.data.length = 1 ∧ b.weights.length = 1 ∧ b.flags.length = 1 := by
    revert b
    decide +kernel
  exact h

example : writeAll zeroMask ([] : List (Row ℕ ℕ)) [⟨[7], [[1, 2]], [[1, 1]], [[[false], [true]]]⟩,
    ⟨[8], [[3, 4]], [[1, 1]], [[[true], [true]]]⟩] =
    [⟨[1, 0], [1, 0], [[false], [true]], false⟩, ⟨[0, 0], [0, 0], [[true], [true]], true⟩] := by decide +kernel

/-! ## C201: what is passed on, and a later update -/

/-- C201 (see `compressed_passed_on`): without compression, a writer passes on the data, weights and flags that it
got. -/
theorem passed_on_partial (t : List (Row V W)) (b : Buf V W) :
    (writeBuffer none t b).2.data = b.data ∧ (writeBuffer none t b).2.weights = b.weights ∧
    (writeBuffer none t b).2.flags = b.flags := ⟨rfl, rfl, rfl⟩

private theorem masked_id {α : Type} (g : List Bool → α → α) : ∀ (fs : List (List (List Bool))) (vs : List (List α)),
    (∀ (i : Nat) f v, fs[i]? = some f → vs[i]? = some v → v.length ≤ f.length ∧ ∀ l ∈ f, ∀ x, g l x = x) →
    masked g fs vs = vs := by
  have hz : ∀ (f : List (List Bool)) (v : List α), v.length ≤ f.length → (∀ l ∈ f, ∀ x, g l x = x) →
      List.zipWith g f v = v := by
    intro f
    induction f with
    | nil =>
      intro v hv _
      have : v = [] := List.eq_nil_of_length_eq_zero (by simpa using hv)
      subst this; rfl
    | cons a f ih =>
      intro v hv hg
      cases v with
      | nil => rfl
      | cons b v =>
        rw [List.zipWith_cons_cons, hg a (by simp) b, ih v (by simpa using hv)
          (fun l hl => hg l (List.mem_cons_of_mem _ hl))]
  intro fs
  induction fs with
  | nil => intro vs _; cases vs <;> rfl
  | cons f fs ih =>
    intro vs h
    cases vs with
    | nil => rfl
    | cons v vs =>
      obtain ⟨h1, h2⟩ := h 0 f v rfl rfl
      show List.zipWith g f v :: masked g fs vs = v :: vs
      rw [hz f v h1 h2, ih vs (fun i f' v' e1 e2 => h (i + 1) f' v' (by simpa using e1) (by simpa using e2))]

/-- C201: also with compression, if the replacement leaves the values of channels without flags, and there are no
flags. -/
theorem passed_on_unflagged (m : (List Bool → V → V) × (List Bool → W → W)) (t : List (Row V W)) (b : Buf V W)
    (hm : ∀ l : List Bool, (∀ x ∈ l, x = false) → (∀ v, m.1 l v = v) ∧ ∀ w, m.2 l w = w)
    (hf : ∀ f ∈ b.flags, ∀ l ∈ f, ∀ x ∈ l, x = false)
    (hl : ∀ (i : Nat) f, b.flags[i]? = some f → (∀ v, b.data[i]? = some v → v.length ≤ f.length) ∧
      ∀ w, b.weights[i]? = some w → w.length ≤ f.length) :
    (writeBuffer (some m) t b).2.data = b.data ∧ (writeBuffer (some m) t b).2.weights = b.weights ∧
    (writeBuffer (some m) t b).2.flags = b.flags := by
  refine ⟨?_, ?_, rfl⟩
  · exact masked_id m.1 b.flags b.data fun i f v e1 e2 =>
      ⟨(hl i f e1).1 v e2, fun l hl x => (hm l (hf f (List.mem_of_getElem? e1) l hl)).1 x⟩
  · exact masked_id m.2 b.flags b.weights fun i f v e1 e2 =>
      ⟨(hl i f e1).2 v e2, fun l hl x => (hm l (hf f (List.mem_of_getElem? e1) l hl)).2 x⟩

example : (writeBuffer zeroMask ([] : List (Row ℕ ℕ)) ⟨[0], [[1, 2]], [[1, 1]], [[[false], [false]]]⟩).2.data =
    [[1, 2]] := by decide +kernel

/-- C201: with compression, later steps get the replaced values. -/
theorem compressed_passed_on :
    (writeBuffer zeroMask ([] : List (Row ℕ ℕ)) ⟨[0], [[1, 2]], [[1, 1]], [[[false], [true]]]⟩).2.data = [[1, 0]] ∧
    (writeBuffer zeroMask ([] : List (Row ℕ ℕ)) ⟨[0], [[1, 2]], [[1, 1]], [[[false], [true]]]⟩).2.weights =
      [[1, 0]] := by decide +kernel

/-- C201 (see `selected_channels_fail`): an update of a new measurement set in the same run writes the values that later
steps made of a buffer into the rows of that buffer, and no others. -/
theorem update_new_partial (m) (nbl : Nat) (t t' : List (Row V W)) (b b' : Buf V W) (c : Config V W)
    (hfull : b.Full nbl) (hrows : b'.rows = (writeBuffer m t b).2.rows) (hfit : b'.Fits c)
    (hs : c.start = 0) (h : update c (writeBuffer m t b).1 b' = some t') :
    t'.length = t.length + nbl ∧ (∀ r, r < t.length → t'[r]? = t[r]?) ∧
    ∀ i, i < nbl → ∃ row', t'[t.length + i]? = some row' ∧ ∀ j, j < c.nChan →
      (c.wData = true → ∃ d, (dataOut c b')[i]? = some d ∧ row'.data[j]? = d[j]?) ∧
      (c.wWeights = true → ∃ d, (weightsOut c b')[i]? = some d ∧ row'.weights[j]? = d[j]?) ∧
      (c.wFlags = true → ∃ d, b'.flags[i]? = some d ∧ row'.flags[j]? = d[j]?) := by
  have hf0 := compress_full m nbl b hfull
  obtain ⟨n1, -⟩ := newRows_at _ _ _ nbl hf0.1 hf0.2.1 hf0.2.2
  have ht1 : (writeBuffer m t b).1 =
      t ++ newRows (compress m b).data (compress m b).weights (compress m b).flags := rfl
  have hrows' : b'.rows = (List.range nbl).map fun i => t.length + i := by
    rw [hrows]
    show (List.range (newRows _ _ _).length).map _ = _
    rw [n1]
  have hl : (writeBuffer m t b).1.length = t.length + nbl := by rw [ht1, List.length_append, n1]
  have hone : updates c (writeBuffer m t b).1 [b'] = some t' := by
    rw [updates, h]; rfl
  have hfits : ∀ x ∈ [b'], x.Fits c := by
    intro x hx
    rw [List.mem_singleton.mp hx]
    exact hfit
  obtain ⟨o1, o2⟩ := updates_outside c (fun _ => hs) [b'] _ t' hone hfits
  refine ⟨by rw [o1, hl], ?_, ?_⟩
  · intro r hr
    have hget : (writeBuffer m t b).1[r]? = some t[r] := by
      rw [ht1, List.getElem?_append_left hr, List.getElem?_eq_getElem hr]
    obtain ⟨row', g1, g2, -⟩ := o2 r _ hget
    have hno : ∀ x ∈ [b'], r ∉ x.rows := by
      intro x hx
      rw [List.mem_singleton.mp hx, hrows']
      intro hmem
      obtain ⟨k, -, hk⟩ := List.mem_map.mp hmem
      omega
    rw [g1, g2 hno, List.getElem?_eq_getElem hr]
  · intro i hi
    have hat : b'.rows[i]? = some (t.length + i) := by
      rw [hrows', List.getElem?_map, List.getElem?_range hi]; rfl
    obtain ⟨row', g1, g2⟩ := updates_inside c (fun _ => hs) [] [] b' _ t' hone (by simpa using hfits) i _ hat
      (by omega) (by simp)
    refine ⟨row', g1, ?_⟩
    intro j hj
    have := g2 j hj
    rw [hs, Nat.zero_add] at this
    exact this

example : (update (⟨0, 2, 2, true, true, false, none⟩ : Config ℕ ℕ)
    (writeBuffer none [] ⟨[5], [[1, 2]], [[1, 1]], [[[false], [true]]]⟩).1 ⟨[0], [[3, 4]], [], [[[true], [true]]]⟩).map
      (fun t' => t'.map Row.data) = some [[3, 4]] := by decide +kernel

/-- C201: when the channels that were read do not start at the first one, the update of a new measurement set always
fails: the first channel is still that of the measurement set that was read. -/
theorem selected_channels_fail (c : Config V W) (row : Row V W) (hs : 0 < c.start) (hw : row.Wide c.nChan)
    (f : List (List Bool)) (hf : f.length = c.nChan) : putRowFlags c row f = none := by
  rw [putRowFlags, putSlice, if_neg (by rw [hw.2.2]; omega)]

/-- C201: the same for data, if a part of the channels was read. -/
theorem selected_channels_fail_data (c : Config V W) (row : Row V W) (hs : 0 < c.start) (ho : c.origNChan ≠ c.nChan)
    (hw : row.Wide c.nChan) (d : List V) (hd : d.length = c.nChan) : putRowData c row d = none := by
  rw [putRowData, if_neg ho, putSlice, if_neg (by rw [hw.1]; omega)]

/-! ## C202: the choice of the output step -/

/-- C202: a measurement set is updated if and only if no name is given, or `.`, or the name of the measurement set that
was read or written last; otherwise a new one is written with the given name. -/
theorem output_choice (abs : List Char → List Char) (name current : List Char) (hc : current ≠ []) :
    ((∃ h out, makeOutput abs name current = some (.updater current h, out)) ↔
      name = [] ∨ name = ['.'] ∨ abs name = current) ∧
    (¬ (name = [] ∨ name = ['.'] ∨ abs name = current) →
      makeOutput abs name current = some (.writer name, abs name)) := by
  unfold makeOutput
  by_cases h1 : name = [] ∨ name = ['.']
  · rw [if_pos h1, if_neg hc]
    have h3 : name = [] ∨ name = ['.'] ∨ abs name = current := by
      rcases h1 with h | h
      · exact .inl h
      · exact .inr (.inl h)
    exact ⟨⟨fun _ => h3, fun _ => ⟨_, _, rfl⟩⟩, fun h => absurd h3 h⟩
  · rw [if_neg h1]
    by_cases h2 : current = abs name
    · rw [if_pos h2]
      have h3 : name = [] ∨ name = ['.'] ∨ abs name = current := .inr (.inr h2.symm)
      exact ⟨⟨fun _ => h3, fun _ => ⟨_, _, rfl⟩⟩, fun h => absurd h3 h⟩
    · rw [if_neg h2]
      refine ⟨⟨?_, ?_⟩, fun _ => rfl⟩
      · rintro ⟨h, out, he⟩
        cases he
      · rintro (h | h | h)
        · exact absurd (.inl h) h1
        · exact absurd (.inr h) h1
        · exact absurd h.symm h2

/-- C202: no update is ever recorded in the history of the measurement set. -/
theorem history_never (abs : List Char → List Char) (name current out nm : List Char) (h : Bool)
    (hm : makeOutput abs name current = some (.updater nm h, out)) : h = false := by
  unfold makeOutput at hm
  split_ifs at hm
  · have := (Prod.mk.inj (Option.some.inj hm)).1
    simp only [Output.updater.injEq] at this
    rw [← this.2]; simp
  · have := (Prod.mk.inj (Option.some.inj hm)).1
    simp only [Output.updater.injEq] at this
    rw [← this.2]; simp
  · cases hm

example : makeOutput id [] "/a.ms".toList = some (.updater "/a.ms".toList false, "/a.ms".toList) ∧
    makeOutput id "/b.ms".toList "/a.ms".toList = some (.writer "/b.ms".toList, "/b.ms".toList) := by decide +kernel

end DP3.MsOutput
