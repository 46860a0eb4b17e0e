import Verif.GainCalStep.RunProps
import Mathlib.Algebra.Order.Ring.Abs
import Mathlib.Tactic.FieldSimp

/-!
# C209 and C210: the time intervals and frequency cells of the solutions
-/

namespace DP3.GainCalStep

set_option linter.unusedSimpArgs false
set_option linter.unusedSectionVars false

variable {A B S F : Type} [Field F] [LinearOrder F] [IsStrictOrderedRing F]

/-- The interval of solution `k`: up to the end of the observation. -/
def solutionTime (c : Config F) (k : Nat) : F × F :=
  (c.startTime + (k : F) * ((c.solInt : F) * c.interval),
    min (c.startTime + ((k : F) + 1) * ((c.solInt : F) * c.interval)) (c.startTime + (c.ntime : F) * c.interval))

private theorem timeAxis_eq (c : Config F) (hd : 0 ≤ c.interval) (o n : Nat) :
    timeAxis c (c.startTime + (o : F) * ((c.solInt : F) * c.interval)) n =
      (List.range n).map fun t => solutionTime c (o + t) := by
  unfold timeAxis
  refine List.map_congr_left ?_
  intro t ht
  have ht := List.mem_range.mp ht
  have hD : 0 ≤ (c.solInt : F) * c.interval := mul_nonneg (Nat.cast_nonneg _) hd
  have htn : (t : F) + 1 ≤ (n : F) := by exact_mod_cast ht
  unfold solutionTime
  refine Prod.ext ?_ ?_
  · simp only; push_cast; ring
  · simp only
    rw [← min_assoc]
    congr 1
    · rw [min_eq_left]
      · push_cast; ring
      · have := mul_le_mul_of_nonneg_right htn hD
        nlinarith [this]

private theorem writes_times (c : Config F) (hd : 0 ≤ c.interval) (ws : List (F × List S)) : ∀ o : Nat,
    (∀ (k : Nat) w, ws[k]? = some w →
      w.1 = c.startTime + ((o + k : Nat) : F) * ((c.solInt : F) * (c.perUpdate : F) * c.interval) ∧
      (k + 1 < ws.length → w.2.length = c.perUpdate)) →
    ws.flatMap (fun w => timeAxis c w.1 w.2.length) =
      (List.range (ws.flatMap Prod.snd).length).map fun i => solutionTime c (o * c.perUpdate + i) := by
  induction ws with
  | nil => intro o _; rfl
  | cons w ws ih =>
    intro o h
    obtain ⟨h1, h2⟩ := h 0 w rfl
    have e1 : timeAxis c w.1 w.2.length = (List.range w.2.length).map fun t => solutionTime c (o * c.perUpdate + t) := by
      rw [← timeAxis_eq c hd, h1]
      congr 1
      push_cast; ring
    rw [List.flatMap_cons, e1]
    cases ws with
    | nil => simp
    | cons w' ws =>
      have h2 := h2 (by simp)
      rw [ih (o + 1) (fun k x hx => by
        have := h (k + 1) x (by simpa using hx)
        rw [show o + 1 + k = o + (k + 1) by omega]
        exact ⟨this.1, fun hk => this.2 (by simpa using hk)⟩)]
      rw [List.flatMap_cons (x := w), List.length_append, List.range_add, List.map_append, List.map_map]
      congr 1
      refine List.map_congr_left ?_
      intro i _
      simp only [Function.comp]
      congr 1
      rw [h2]; ring

/-- C209: all parts of the time axes in a ParmDB together: one interval for each solution, in the order of the
solutions; the number of them is that of the time slots divided by `solint`, rounded up. -/
theorem parmdb_times (c : Config F) (calib : A → List B → A × S) (alg : A) (bs : List B) (hn : 0 < c.solInt)
    (h5 : c.h5 = false) (hp : 0 < c.perUpdate) (ha : c.apply = true → c.solint ≠ 0) (hd : 0 < c.interval)
    (hb : bs.length = c.ntime) :
    ∃ s, run c calib alg bs = some s ∧
      s.writes.flatMap Prod.snd = (solutions calib alg (intervals c.solInt bs)).2 ∧
      s.writes.flatMap (fun w => timeAxis c w.1 w.2.length) =
        (List.range ((c.ntime + c.solInt - 1) / c.solInt)).map (solutionTime c) := by
  obtain ⟨s, e, _, h2, _, h4⟩ := gaincal_run_partial c calib alg bs hn (fun _ => hp) ha
  refine ⟨s, e, h2, ?_⟩
  rw [writes_times c hd.le s.writes 0 (fun k w hw => by
    obtain ⟨_, g2, g3⟩ := h4 k w hw
    exact ⟨by rw [g2, Nat.zero_add], fun hk => (g3 h5).2 hk⟩), h2, solutions_length]
  simp [intervals, hb]

/-- The middle of time slot `j`. -/
def slotTime (c : Config F) (j : Nat) : F := c.startTime + ((j : F) + 1 / 2) * c.interval

private theorem div_bounds (n j k : Nat) (hn : 0 < n) : (k * n ≤ j ∧ j < (k + 1) * n) ↔ k = j / n := by
  constructor
  · rintro ⟨h1, h2⟩
    have a := (Nat.le_div_iff_mul_le hn).mpr h1
    have b := (Nat.div_lt_iff_lt_mul hn).mpr h2
    omega
  · rintro rfl
    exact ⟨(Nat.le_div_iff_mul_le hn).mp le_rfl, (Nat.div_lt_iff_lt_mul hn).mp (by omega)⟩

private theorem half_between (a j b : Nat) : ((a : F) ≤ (j : F) + 1 / 2 ∧ (j : F) + 1 / 2 ≤ (b : F)) ↔ (a ≤ j ∧ j < b) := by
  constructor
  · rintro ⟨h1, h2⟩
    constructor
    · by_contra h
      have : ((j + 1 : Nat) : F) ≤ (a : F) := by exact_mod_cast (by omega : j + 1 ≤ a)
      push_cast at this
      linarith
    · by_contra h
      have : (b : F) ≤ (j : F) := by exact_mod_cast (by omega : b ≤ j)
      linarith
  · rintro ⟨h1, h2⟩
    have g1 : (a : F) ≤ (j : F) := by exact_mod_cast h1
    have g2 : ((j + 1 : Nat) : F) ≤ (b : F) := by exact_mod_cast h2
    push_cast at g2
    constructor <;> linarith

/-- C209: the interval in a ParmDB that has the middle of a time slot is that of the solution that was made with its
data. -/
theorem slot_in_interval (c : Config F) (hn : 0 < c.solInt) (hd : 0 < c.interval) (j k : Nat) (hj : j < c.ntime) :
    ((solutionTime c k).1 ≤ slotTime c j ∧ slotTime c j ≤ (solutionTime c k).2) ↔ k = j / c.solInt := by
  rw [← div_bounds _ _ _ hn, ← half_between (F := F) (k * c.solInt) j ((k + 1) * c.solInt)]
  unfold solutionTime slotTime
  simp only [le_min_iff, add_le_add_iff_left]
  have hj' : ((j : F) + 1 / 2) * c.interval ≤ (c.ntime : F) * c.interval := by
    refine mul_le_mul_of_nonneg_right ?_ hd.le
    have : ((j + 1 : Nat) : F) ≤ (c.ntime : F) := by exact_mod_cast hj
    push_cast at this
    linarith
  rw [← mul_assoc, ← mul_assoc, mul_le_mul_iff_left₀ hd, mul_le_mul_iff_left₀ hd]
  push_cast
  tauto

/-- C209: an H5Parm has the same number of times as there are solutions, and the time nearest to a time slot is that of
the solution that was made with its data. -/
theorem h5_times (c : Config F) (bs : List B) (hn : 0 < c.solInt) (hd : 0 < c.interval) (hb : bs.length = c.ntime) :
    (h5Times c).length = (intervals c.solInt bs).length ∧
    ∀ j k t t', j < c.ntime → (h5Times c)[j / c.solInt]? = some t → (h5Times c)[k]? = some t' → k ≠ j / c.solInt →
      |slotTime c j - t| < |slotTime c j - t'| := by
  refine ⟨by simp [h5Times, intervals, hb], ?_⟩
  intro j k t t' hj ht ht' hk
  have val : ∀ (i : Nat) x, (h5Times c)[i]? = some x → x = c.startTime + ((i : F) + 1 / 2) * c.interval * (c.solInt : F) := by
    intro i x hx
    obtain ⟨hi, hx⟩ := List.getElem?_eq_some_iff.mp hx
    simp [h5Times] at hx
    rw [← hx]
    ring
  rw [val _ _ ht, val _ _ ht']
  obtain ⟨b1, b2⟩ := (div_bounds c.solInt j (j / c.solInt) hn).mpr rfl
  set q := j / c.solInt
  have hn' : (0 : F) < (c.solInt : F) := by exact_mod_cast hn
  have f1 : (q : F) * (c.solInt : F) ≤ (j : F) := by exact_mod_cast b1
  have f2 : (j : F) + 1 ≤ ((q : F) + 1) * (c.solInt : F) := by exact_mod_cast b2
  have e : ∀ i : F, slotTime c j - (c.startTime + (i + 1 / 2) * c.interval * (c.solInt : F)) =
      c.interval * ((j : F) + 1 / 2 - (i + 1 / 2) * (c.solInt : F)) := by
    intro i; unfold slotTime; ring
  rw [e, e, abs_mul, abs_mul, mul_lt_mul_iff_right₀ (abs_pos.mpr hd.ne')]
  have own : |(j : F) + 1 / 2 - ((q : F) + 1 / 2) * (c.solInt : F)| < (c.solInt : F) / 2 := by
    rw [abs_lt]
    constructor <;> linarith
  refine lt_trans own ?_
  rcases Nat.lt_or_gt_of_ne hk with h | h
  · have g : (k : F) + 1 ≤ (q : F) := by exact_mod_cast h
    have g' := mul_le_mul_of_nonneg_right g hn'.le
    refine lt_of_lt_of_le ?_ (le_abs_self _)
    linarith
  · have g : (q : F) + 1 ≤ (k : F) := by exact_mod_cast h
    have g' := mul_le_mul_of_nonneg_right g hn'.le
    refine lt_of_lt_of_le ?_ (neg_le_abs _)
    linarith

example : h5Times (sampleConfig true true 2) = [110, 130, 150] ∧
    (List.range 3).map (solutionTime (sampleConfig true false 2)) = [(100, 120), (120, 140), (140, 150)] ∧
    slotTime (sampleConfig true true 2) 3 = 135 := by decide +kernel

/-! ## C210 -/

/-- C210: there are as many cells as needed for all channels; the solver of each has the number of channels that the
cell has, and a channel has a place in the solver of its cell. -/
theorem cells_cover (setting nchan : Nat) (hc : 0 < nchan) :
    let size := cellSize setting nchan
    let cells := cellChannels size nchan (nCells size nchan) 0 size
    0 < size ∧ cells.length = (nchan + size - 1) / size ∧ cells.sum = nchan ∧
    (∀ ch, ch < nchan → ∃ m, cells[ch / size]? = some m ∧ ch % size < m) ∧
    ∀ i m, cells[i]? = some m → 0 < m ∧ m = min size (nchan - i * size) := by
  have hs : 0 < cellSize setting nchan ∧ cellSize setting nchan ≤ nchan := by
    simp only [cellSize]
    split_ifs <;> omega
  generalize cellSize setting nchan = size at hs
  intro _ cells
  change 0 < size ∧ cells.length = (nchan + size - 1) / size ∧ cells.sum = nchan ∧
    (∀ ch, ch < nchan → ∃ m, cells[ch / size]? = some m ∧ ch % size < m) ∧
    ∀ i m, cells[i]? = some m → 0 < m ∧ m = min size (nchan - i * size)
  obtain ⟨hs0, hs1⟩ := hs
  have hdm := Nat.div_add_mod nchan size
  have hml := Nat.mod_lt nchan hs0
  have hq : nCells size nchan = (nchan + size - 1) / size := by
    unfold nCells
    by_cases hm : nchan % size = 0
    · rw [if_neg (by omega)]
      rw [show nchan + size - 1 = (size - 1) + size * (nchan / size) by omega, Nat.add_mul_div_left _ _ hs0,
        Nat.div_eq_of_lt (show size - 1 < size by omega), Nat.zero_add]
    · rw [if_pos (by omega)]
      rw [show nchan + size - 1 = (nchan % size - 1) + size * (nchan / size + 1) by rw [Nat.mul_succ]; omega,
        Nat.add_mul_div_left _ _ hs0, Nat.div_eq_of_lt (show nchan % size - 1 < size by omega), Nat.zero_add]
  -- the cells before the last one
  have key : ∀ n i, (i + n = nCells size nchan) → (∀ k, k < i → (k + 1) * size ≤ nchan) →
      cellChannels size nchan n i size = (List.range n).map fun k => min size (nchan - (i + k) * size) := by
    intro n
    induction n with
    | zero => intro i _ _; rfl
    | succ n ih =>
      intro i hi hk
      rw [cellChannels, List.range_succ_eq_map, List.map_cons, List.map_map]
      have hlt : i * size < nchan := by
        have : i + 1 ≤ (nchan + size - 1) / size := by rw [← hq]; omega
        have := (Nat.le_div_iff_mul_le hs0).mp this
        rw [Nat.succ_mul] at this
        omega
      by_cases hg : (i + 1) * size > nchan
      · have hn0 : n = 0 := by
          by_contra hne
          have : i + 2 ≤ (nchan + size - 1) / size := by rw [← hq]; omega
          have := (Nat.le_div_iff_mul_le hs0).mp this
          rw [show (i + 2) * size = (i + 1) * size + size by ring] at this
          omega
        subst hn0
        have he : (i + 1) * size = i * size + size := by ring
        have hmod : ((i + 1) * size) % nchan = (i + 1) * size - nchan := by
          rw [Nat.mod_eq_sub_mod (by omega), Nat.mod_eq_of_lt (by omega)]
        simp only [if_pos hg, cellChannels, List.range_zero, List.map_nil, hmod, Nat.add_zero]
        congr 1
        omega
      · simp only [if_neg hg, Nat.add_zero]
        have he : (i + 1) * size = i * size + size := by ring
        rw [ih (i + 1) (by omega) (fun k hk' => by
          rcases Nat.lt_or_ge k i with h | h
          · exact hk k h
          · rw [show k = i by omega]; omega)]
        rw [show min size (nchan - i * size) = size by omega]
        congr 1
        refine List.map_congr_left ?_
        intro k _
        simp only [Function.comp]
        congr 2
        rw [show i + 1 + k = i + k.succ by omega]
  have hcells : cells = (List.range (nCells size nchan)).map fun k => min size (nchan - k * size) := by
    have := key (nCells size nchan) 0 (by omega) (fun k hk => by omega)
    simpa using this
  have hel : ∀ (i : Nat), i < nCells size nchan → cells[i]? = some (min size (nchan - i * size)) := by
    intro i hi
    rw [hcells, List.getElem?_map, List.getElem?_range hi]
    rfl
  refine ⟨hs0, by rw [hcells, ← hq]; simp, ?_, ?_, ?_⟩
  · have hsum : ∀ q, (((List.range q).map fun k => min size (nchan - k * size))).sum = min (q * size) nchan := by
      intro q
      induction q with
      | zero => simp
      | succ q ih =>
        rw [List.range_succ, List.map_append, List.sum_append, ih]
        have he : (q + 1) * size = q * size + size := by ring
        simp only [List.map_cons, List.map_nil, List.sum_cons, List.sum_nil]
        omega
    rw [hcells, hsum, hq]
    have h1 := Nat.div_add_mod (nchan + size - 1) size
    have h2 := Nat.mod_lt (nchan + size - 1) hs0
    rw [mul_comm] at h1
    omega
  · intro ch hch
    have h1 := Nat.div_add_mod ch size
    have h2 := Nat.mod_lt ch hs0
    rw [mul_comm] at h1
    have hlt : ch / size < nCells size nchan := by
      rw [hq]
      refine (Nat.le_div_iff_mul_le hs0).mpr ?_
      rw [Nat.succ_mul]
      omega
    exact ⟨_, hel _ hlt, by omega⟩
  · intro i m hm
    have hi : i < nCells size nchan := by
      have := (List.getElem?_eq_some_iff.mp hm).1
      rw [hcells] at this
      simpa using this
    rw [hel i hi] at hm
    obtain rfl := Option.some.inj hm
    refine ⟨?_, rfl⟩
    have : i + 1 ≤ (nchan + size - 1) / size := by rw [← hq]; omega
    have := (Nat.le_div_iff_mul_le hs0).mp this
    rw [Nat.succ_mul] at this
    omega

example : cellChannels (cellSize 4 10) 10 (nCells (cellSize 4 10) 10) 0 (cellSize 4 10) = [4, 4, 2] := by decide

/-- The frequencies of channels at equal distances. -/
def regularFreqs (f0 w : F) (n : Nat) : List F := (List.range n).map fun (i : Nat) => f0 + (i : F) * w

/-- C210: the cell of a ParmDB that has the frequency of a channel is the one with that channel. -/
theorem channel_in_cell (f0 w : F) (hw : 0 < w) (size ch i : Nat) (hs : 0 < size) :
    ((parmCell f0 w size i).1 ≤ f0 + (ch : F) * w ∧ f0 + (ch : F) * w ≤ (parmCell f0 w size i).2) ↔ i = ch / size := by
  rw [← div_bounds _ _ _ hs, ← half_between (F := F) (i * size) ch ((i + 1) * size)]
  unfold parmCell
  push_cast
  have e1 : (f0 - w * (1 / 2) + (i : F) * (w * (size : F)) ≤ f0 + (ch : F) * w) ↔
      ((i : F) * (size : F)) * w ≤ ((ch : F) + 1 / 2) * w := by
    constructor <;> intro h <;> nlinarith [h]
  have e2 : (f0 + (ch : F) * w ≤ f0 - w * (1 / 2) + ((i : F) + 1) * (w * (size : F))) ↔
      ((ch : F) + 1 / 2) * w ≤ (((i : F) + 1) * (size : F)) * w := by
    constructor <;> intro h <;> nlinarith [h]
  rw [e1, e2, mul_le_mul_iff_left₀ hw, mul_le_mul_iff_left₀ hw]

private theorem sum_regular (f0 w : F) (a m : Nat) :
    (((List.range m).map fun j => f0 + ((a + j : Nat) : F) * w)).sum =
      (m : F) * (f0 + w * ((a : F) + ((m : F) - 1) / 2)) := by
  induction m with
  | zero => simp
  | succ m ih =>
    rw [List.range_succ, List.map_append, List.sum_append, ih]
    simp only [List.map_cons, List.map_nil, List.sum_cons, List.sum_nil]
    push_cast
    ring

/-- The frequency of a cell, for channels at equal distances. -/
theorem cellFreq_regular (f0 w : F) (n size i : Nat) (hs : 0 < size) (hi : size * i < n) :
    cellFreq (regularFreqs f0 w n) size i =
      f0 + w * (((size * i : Nat) : F) + (((min size (n - size * i) : Nat) : F) - 1) / 2) := by
  have hlen : (regularFreqs f0 w n).length = n := by simp [regularFreqs]
  unfold cellFreq
  simp only [hlen]
  have hm : min n (size * i + size) - size * i = min size (n - size * i) := by omega
  rw [hm]
  set m := min size (n - size * i) with hmdef
  have hm0 : 0 < m := by omega
  have hl : ((regularFreqs f0 w n).drop (size * i)).take m =
      (List.range m).map fun j => f0 + ((size * i + j : Nat) : F) * w := by
    refine List.ext_getElem? ?_
    intro j
    by_cases hj : j < m
    · rw [List.getElem?_take_of_lt hj, List.getElem?_drop, regularFreqs, List.getElem?_map, List.getElem?_map,
        List.getElem?_range hj, List.getElem?_range (by omega)]
      rfl
    · rw [List.getElem?_eq_none (by simp; omega), List.getElem?_eq_none (by simp; omega)]
  rw [hl, sum_regular]
  have : (m : F) ≠ 0 := by exact_mod_cast hm0.ne'
  field_simp

/-- C210 (for an H5Parm this needs cells with equal numbers of channels, see `last_cell_wins`): the frequency nearest to
that of a channel is the one of its cell. -/
theorem nearest_cell_partial (f0 w : F) (hw : 0 < w) (n size : Nat) (hs : 0 < size) (hdvd : size ∣ n) (ch i : Nat)
    (hch : ch < n) (hi : size * i < n) (hne : i ≠ ch / size) :
    |f0 + (ch : F) * w - cellFreq (regularFreqs f0 w n) size (ch / size)| <
      |f0 + (ch : F) * w - cellFreq (regularFreqs f0 w n) size i| := by
  obtain ⟨q, rfl⟩ := hdvd
  have full : ∀ k, size * k < size * q → min size (size * q - size * k) = size := by
    intro k hk
    have hk' : k + 1 ≤ q := Nat.lt_of_mul_lt_mul_left hk
    have := Nat.mul_le_mul_left size hk'
    rw [Nat.mul_succ] at this
    omega
  obtain ⟨b1, b2⟩ := (div_bounds size ch (ch / size) hs).mpr rfl
  have hown : size * (ch / size) < size * q := by rw [mul_comm]; omega
  rw [cellFreq_regular f0 w _ size _ hs hown, cellFreq_regular f0 w _ size i hs hi, full _ hown, full _ hi]
  set p := ch / size
  have f1 : (p : F) * (size : F) ≤ (ch : F) := by exact_mod_cast b1
  have f2 : (ch : F) + 1 ≤ ((p : F) + 1) * (size : F) := by exact_mod_cast b2
  have hs' : (0 : F) < (size : F) := by exact_mod_cast hs
  have e : ∀ k : Nat, f0 + (ch : F) * w - (f0 + w * (((size * k : Nat) : F) + ((size : F) - 1) / 2)) =
      w * ((ch : F) - ((size : F) * (k : F) + ((size : F) - 1) / 2)) := by
    intro k; push_cast; ring
  rw [e, e, abs_mul, abs_mul, mul_lt_mul_iff_right₀ (abs_pos.mpr hw.ne')]
  have own : |(ch : F) - ((size : F) * (p : F) + ((size : F) - 1) / 2)| < (size : F) / 2 := by
    rw [abs_lt]
    constructor <;> linarith
  refine lt_trans own ?_
  rcases Nat.lt_or_gt_of_ne hne with h | h
  · have g : (i : F) + 1 ≤ (p : F) := by exact_mod_cast h
    have g' := mul_le_mul_of_nonneg_right g hs'.le
    refine lt_of_lt_of_le ?_ (le_abs_self _)
    linarith
  · have g : (p : F) + 1 ≤ (i : F) := by exact_mod_cast h
    have g' := mul_le_mul_of_nonneg_right g hs'.le
    refine lt_of_lt_of_le ?_ (neg_le_abs _)
    linarith

example : cellFreq (regularFreqs (100 : ℚ) 1 8) 4 1 = 211 / 2 ∧ (4 : Nat) ∣ 8 ∧ (1 : Nat) ≠ 2 / 4 := by decide +kernel

/-- C210: if the last cell has fewer channels, its frequency can be nearer to channels of the cell before it: with 11
channels in cells of 10, the frequency in the H5Parm that is nearest to channel 9 is that of the cell with channel 10
only. -/
theorem last_cell_wins : let f := regularFreqs (100 : ℚ) 1 11
    9 / 10 = 0 ∧ cellFreq f 10 0 = 209 / 2 ∧ cellFreq f 10 1 = 110 ∧
    |109 - cellFreq f 10 1| < |109 - cellFreq f 10 0| := by decide +kernel

end DP3.GainCalStep
