import Verif.GainCal.Start

/-!
# C113: the visibilities and weights that GainCal solves for
-/

namespace DP3.GainCal

open Complex Finset

set_option linter.unusedSimpArgs false

/-! ## Addresses -/

/-- The span and the array of the solver have the same layout, with the axes in the reverse order. -/
theorem spanOffset_eq (c : Cfg) (i0 i1 i2 i3 i4 i5 : Nat) : spanOffset c i0 i1 i2 i3 i4 i5 = offset c i5 i4 i3 i2 i1 i0 := by
  unfold spanOffset offset
  ring

private theorem digit {n a b x y : Nat} (ha : a < n) (hb : b < n) (h : a + n * x = b + n * y) : a = b ∧ x = y := by
  have h1 : (a + n * x) % n = a := by rw [Nat.add_mul_mod_self_left, Nat.mod_eq_of_lt ha]
  have h2 : (b + n * y) % n = b := by rw [Nat.add_mul_mod_self_left, Nat.mod_eq_of_lt hb]
  have hab : a = b := by rw [← h1, ← h2, h]
  subst hab
  refine ⟨rfl, ?_⟩
  have hn : 0 < n := by omega
  exact Nat.eq_of_mul_eq_mul_left hn (by omega)

/-- Different elements have different addresses. -/
theorem offset_inj (c : Cfg) {a p t ch q b a' p' t' ch' q' b' : Nat} (ha : a < c.nSt) (ha' : a' < c.nSt) (hp : p < 2) (hp' : p' < 2)
    (ht : t < c.solInt) (ht' : t' < c.solInt) (hc : ch < c.nChan) (hc' : ch' < c.nChan) (hq : q < 2) (hq' : q' < 2)
    (h : offset c a p t ch q b = offset c a' p' t' ch' q' b') :
    a = a' ∧ p = p' ∧ t = t' ∧ ch = ch' ∧ q = q' ∧ b = b' := by
  unfold offset at h
  obtain ⟨h1, h⟩ := digit ha ha' h
  obtain ⟨h2, h⟩ := digit hp hp' h
  obtain ⟨h3, h⟩ := digit ht ht' h
  obtain ⟨h4, h⟩ := digit hc hc' h
  obtain ⟨h5, h⟩ := digit hq hq' h
  exact ⟨h1, h2, h3, h4, h5, h⟩

/-! ## Writes -/

/-- The writes of a row, in order. -/
noncomputable def rowWrites (c : Cfg) (nCorr : Nat) (value : Row → Nat → ℂ) (r : Row) : List (Nat × ℂ) :=
  if r.used = false ∨ r.ant1 = r.ant2 then []
  else (List.range nCorr).flatMap fun cr =>
    [(offset c r.ant1 (cr / crDiv nCorr) r.step r.ch (cr % 2) r.ant2, value r cr * (Real.sqrt (r.weight cr) : ℂ)),
     (offset c r.ant2 (cr % 2) r.step r.ch (cr / crDiv nCorr) r.ant1, (starRingEnd ℂ) (value r cr) * (Real.sqrt (r.weight cr) : ℂ))]

theorem fill_writes (c : Cfg) (nCorr : Nat) (value : Row → Nat → ℂ) (rows : List Row) :
    fill c nCorr value rows =
      (rows.flatMap (rowWrites c nCorr value)).foldl (fun (m : Nat → ℂ) (w : Nat × ℂ) => Function.update m w.1 w.2) fun _ => 0 := by
  have hrow : ∀ (m : Nat → ℂ) (r : Row), writeRow c nCorr value m r =
      (rowWrites c nCorr value r).foldl (fun (m : Nat → ℂ) (w : Nat × ℂ) => Function.update m w.1 w.2) m := by
    intro m r
    unfold writeRow rowWrites
    split
    · rfl
    · rw [List.foldl_flatMap]
      congr 1
      funext m cr
      unfold writeCorr
      rw [spanOffset_eq, spanOffset_eq]
      rfl
  unfold fill
  rw [List.foldl_flatMap]
  congr 1
  funext m r
  exact hrow m r

theorem foldl_update (l : List (Nat × ℂ)) (m : Nat → ℂ) (a : Nat) :
    (∀ v, (∀ w ∈ l, w.1 = a → w.2 = v) → (∃ w ∈ l, w.1 = a) →
      l.foldl (fun (m : Nat → ℂ) (w : Nat × ℂ) => Function.update m w.1 w.2) m a = v) ∧
    ((∀ w ∈ l, w.1 ≠ a) → l.foldl (fun (m : Nat → ℂ) (w : Nat × ℂ) => Function.update m w.1 w.2) m a = m a) := by
  induction l generalizing m with
  | nil => exact ⟨fun v _ h => by simp at h, fun _ => rfl⟩
  | cons x l ih =>
    constructor
    · intro v h1 h2
      rw [List.foldl_cons]
      by_cases hl : ∃ w ∈ l, w.1 = a
      · exact (ih _).1 v (fun w hw => h1 w (List.mem_cons_of_mem _ hw)) hl
      · have hl' : ∀ w ∈ l, w.1 ≠ a := fun w hw e => hl ⟨w, hw, e⟩
        rw [(ih _).2 hl']
        obtain ⟨w, hw, e⟩ := h2
        rcases List.mem_cons.mp hw with rfl | hw
        · rw [← e, Function.update_self]
          exact h1 _ List.mem_cons_self e
        · exact absurd e (hl' w hw)
    · intro h
      rw [List.foldl_cons, (ih _).2 fun w hw => h w (List.mem_cons_of_mem _ hw),
        Function.update_of_ne (Ne.symm (h x List.mem_cons_self))]

/-- The rows of a solution interval: the numbers of correlations, stations, time steps and channels are in range, and no pair of stations
has two rows for a time step and channel. -/
structure Rows (c : Cfg) (nCorr : Nat) (rows : List Row) : Prop where
  corr : nCorr = 1 ∨ nCorr = 2 ∨ nCorr = 4
  ant1 : ∀ r ∈ rows, r.ant1 < c.nSt
  ant2 : ∀ r ∈ rows, r.ant2 < c.nSt
  step : ∀ r ∈ rows, r.step < c.solInt
  chan : ∀ r ∈ rows, r.ch < c.nChan
  once : ∀ r ∈ rows, ∀ r' ∈ rows, r.step = r'.step → r.ch = r'.ch →
    ((r.ant1 = r'.ant1 ∧ r.ant2 = r'.ant2) ∨ (r.ant1 = r'.ant2 ∧ r.ant2 = r'.ant1)) → r = r'

/-- A row that is solved for. -/
def Used (r : Row) : Prop := r.used = true ∧ r.ant1 ≠ r.ant2

private theorem mem_rowWrites (c : Cfg) (nCorr : Nat) (value : Row → Nat → ℂ) (r : Row) (w : Nat × ℂ) :
    w ∈ rowWrites c nCorr value r ↔ Used r ∧ ∃ cr, cr < nCorr ∧
      (w = (offset c r.ant1 (cr / crDiv nCorr) r.step r.ch (cr % 2) r.ant2, value r cr * (Real.sqrt (r.weight cr) : ℂ)) ∨
       w = (offset c r.ant2 (cr % 2) r.step r.ch (cr / crDiv nCorr) r.ant1,
        (starRingEnd ℂ) (value r cr) * (Real.sqrt (r.weight cr) : ℂ))) := by
  unfold rowWrites Used
  split
  · next h =>
    constructor
    · intro h'; simp at h'
    · rintro ⟨⟨h1, h2⟩, -⟩
      rcases h with h | h
      · rw [h1] at h; exact absurd h (by simp)
      · exact absurd h h2
  · next h =>
    push Not at h
    rw [List.mem_flatMap]
    constructor
    · rintro ⟨cr, hcr, hw⟩
      refine ⟨⟨by simpa using h.1, h.2⟩, cr, List.mem_range.mp hcr, ?_⟩
      simpa using hw
    · rintro ⟨-, cr, hcr, hw⟩
      exact ⟨cr, List.mem_range.mpr hcr, by simpa using hw⟩

/-- The polarizations of a correlation determine it. -/
theorem corr_pol {nCorr cr cr' : Nat} (hn : nCorr = 1 ∨ nCorr = 2 ∨ nCorr = 4) (h : cr < nCorr) (h' : cr' < nCorr) :
    cr / crDiv nCorr < 2 ∧ cr % 2 < 2 ∧ (cr / crDiv nCorr = cr' / crDiv nCorr → cr % 2 = cr' % 2 → cr = cr') := by
  rcases hn with rfl | rfl | rfl <;> simp only [crDiv] <;> norm_num <;> omega

private theorem write_unique (c : Cfg) (nCorr : Nat) (value : Row → Nat → ℂ) (rows : List Row) (h : Rows c nCorr rows) (r : Row)
    (hr : r ∈ rows) (cr : Nat) (hcr : cr < nCorr) (r' : Row) (hr' : r' ∈ rows) (w : Nat × ℂ)
    (hw : w ∈ rowWrites c nCorr value r') (hu : Used r) :
    (w.1 = offset c r.ant1 (cr / crDiv nCorr) r.step r.ch (cr % 2) r.ant2 → w.2 = value r cr * (Real.sqrt (r.weight cr) : ℂ)) ∧
    (w.1 = offset c r.ant2 (cr % 2) r.step r.ch (cr / crDiv nCorr) r.ant1 →
      w.2 = (starRingEnd ℂ) (value r cr) * (Real.sqrt (r.weight cr) : ℂ)) := by
  obtain ⟨hu', cr', hcr', hw'⟩ := (mem_rowWrites c nCorr value r' w).mp hw
  obtain ⟨q1, q2, q3⟩ := corr_pol h.corr hcr hcr'
  obtain ⟨q1', q2', -⟩ := corr_pol h.corr hcr' hcr
  have a1 := h.ant1 r hr
  have a2 := h.ant2 r hr
  have a1' := h.ant1 r' hr'
  have a2' := h.ant2 r' hr'
  have s1 := h.step r hr
  have s1' := h.step r' hr'
  have c1 := h.chan r hr
  have c1' := h.chan r' hr'
  rcases hw' with rfl | rfl
  · constructor
    · intro e
      obtain ⟨e1, e2, e3, e4, e5, e6⟩ := offset_inj c a1' a1 q1' q1 s1' s1 c1' c1 q2' q2 e
      have := h.once r hr r' hr' e3.symm e4.symm (Or.inl ⟨e1.symm, e6.symm⟩)
      subst this
      rw [q3 e2.symm e5.symm]
    · intro e
      obtain ⟨e1, e2, e3, e4, e5, e6⟩ := offset_inj c a1' a2 q1' q2 s1' s1 c1' c1 q2' q1 e
      have := h.once r hr r' hr' e3.symm e4.symm (Or.inr ⟨e6.symm, e1.symm⟩)
      subst this
      exact absurd e1 hu.2
  · constructor
    · intro e
      obtain ⟨e1, e2, e3, e4, e5, e6⟩ := offset_inj c a2' a1 q2' q1 s1' s1 c1' c1 q1' q2 e
      have := h.once r hr r' hr' e3.symm e4.symm (Or.inr ⟨e1.symm, e6.symm⟩)
      subst this
      exact absurd e6 hu.2
    · intro e
      obtain ⟨e1, e2, e3, e4, e5, e6⟩ := offset_inj c a2' a2 q2' q2 s1' s1 c1' c1 q1' q1 e
      have := h.once r hr r' hr' e3.symm e4.symm (Or.inl ⟨e6.symm, e1.symm⟩)
      subst this
      rw [q3 e5.symm e2.symm]

/-- See `fill_used`. -/
theorem fill_written (c : Cfg) (nCorr : Nat) (value : Row → Nat → ℂ) (rows : List Row) (h : Rows c nCorr rows) (r : Row) (hr : r ∈ rows)
    (hu : Used r) (cr : Nat) (hcr : cr < nCorr) :
    fill c nCorr value rows (offset c r.ant1 (cr / crDiv nCorr) r.step r.ch (cr % 2) r.ant2) =
      value r cr * (Real.sqrt (r.weight cr) : ℂ) ∧
    fill c nCorr value rows (offset c r.ant2 (cr % 2) r.step r.ch (cr / crDiv nCorr) r.ant1) =
      (starRingEnd ℂ) (value r cr) * (Real.sqrt (r.weight cr) : ℂ) := by
  rw [fill_writes]
  constructor
  · refine (foldl_update _ _ _).1 _ ?_ ?_
    · intro w hw e
      obtain ⟨r', hr', hw'⟩ := List.mem_flatMap.mp hw
      exact (write_unique c nCorr value rows h r hr cr hcr r' hr' w hw' hu).1 e
    · exact ⟨_, List.mem_flatMap.mpr ⟨r, hr, (mem_rowWrites c nCorr value r _).mpr ⟨hu, cr, hcr, Or.inl rfl⟩⟩, rfl⟩
  · refine (foldl_update _ _ _).1 _ ?_ ?_
    · intro w hw e
      obtain ⟨r', hr', hw'⟩ := List.mem_flatMap.mp hw
      exact (write_unique c nCorr value rows h r hr cr hcr r' hr' w hw' hu).2 e
    · exact ⟨_, List.mem_flatMap.mpr ⟨r, hr, (mem_rowWrites c nCorr value r _).mpr ⟨hu, cr, hcr, Or.inr rfl⟩⟩, rfl⟩

/-- See `fill_unused`. -/
theorem fill_unwritten (c : Cfg) (nCorr : Nat) (value : Row → Nat → ℂ) (rows : List Row) (h : Rows c nCorr rows) (a p t ch q b : Nat)
    (ha : a < c.nSt) (hp : p < 2) (ht : t < c.solInt) (hc : ch < c.nChan) (hq : q < 2)
    (hno : ∀ r ∈ rows, Used r → r.step = t → r.ch = ch → ∀ cr, cr < nCorr →
      ¬ (r.ant1 = a ∧ r.ant2 = b ∧ cr / crDiv nCorr = p ∧ cr % 2 = q) ∧
      ¬ (r.ant1 = b ∧ r.ant2 = a ∧ cr / crDiv nCorr = q ∧ cr % 2 = p)) :
    fill c nCorr value rows (offset c a p t ch q b) = 0 := by
  rw [fill_writes, (foldl_update _ _ _).2]
  intro w hw e
  obtain ⟨r, hr, hw'⟩ := List.mem_flatMap.mp hw
  obtain ⟨hu, cr, hcr, hw'⟩ := (mem_rowWrites c nCorr value r w).mp hw'
  obtain ⟨q1, q2, -⟩ := corr_pol h.corr hcr hcr
  rcases hw' with rfl | rfl
  · obtain ⟨e1, e2, e3, e4, e5, e6⟩ := offset_inj c (h.ant1 r hr) ha q1 hp (h.step r hr) ht (h.chan r hr) hc q2 hq e
    exact (hno r hr hu e3 e4 cr hcr).1 ⟨e1, e6, e2, e5⟩
  · obtain ⟨e1, e2, e3, e4, e5, e6⟩ := offset_inj c (h.ant2 r hr) ha q2 hp (h.step r hr) ht (h.chan r hr) hc q1 hq e
    exact (hno r hr hu e3 e4 cr hcr).2 ⟨e6, e1, e5, e2⟩

/-- The polarization of the first station in a correlation: XX, XY, YX, YY, or XX, YY, or XX. -/
def first (nCorr cr : Nat) : Nat := if nCorr = 4 then cr / 2 else cr

/-- The polarization of the second station. -/
def second (nCorr cr : Nat) : Nat := if nCorr = 4 then cr % 2 else cr

theorem pols {nCorr cr : Nat} (hn : nCorr = 1 ∨ nCorr = 2 ∨ nCorr = 4) (h : cr < nCorr) :
    cr / crDiv nCorr = first nCorr cr ∧ cr % 2 = second nCorr cr := by
  unfold first second
  rcases hn with rfl | rfl | rfl <;> simp only [crDiv] <;> norm_num <;> omega

/-- C113: each correlation of a used row is in the array for the two stations, and its conjugate for the stations in the other order, both
with the root of its own weight. -/
theorem fill_used (c : Cfg) (nCorr : Nat) (value : Row → Nat → ℂ) (rows : List Row) (h : Rows c nCorr rows) (r : Row) (hr : r ∈ rows)
    (hu : Used r) (cr : Nat) (hcr : cr < nCorr) :
    fill c nCorr value rows (offset c r.ant1 (first nCorr cr) r.step r.ch (second nCorr cr) r.ant2) =
      value r cr * (Real.sqrt (r.weight cr) : ℂ) ∧
    fill c nCorr value rows (offset c r.ant2 (second nCorr cr) r.step r.ch (first nCorr cr) r.ant1) =
      (starRingEnd ℂ) (value r cr) * (Real.sqrt (r.weight cr) : ℂ) := by
  obtain ⟨h1, h2⟩ := pols h.corr hcr
  rw [← h1, ← h2]
  exact fill_written c nCorr value rows h r hr hu cr hcr

/-- C113: all other elements are zero: autocorrelations, stations, time steps and channels without a used row, and correlations that are
not in the data. -/
theorem fill_unused (c : Cfg) (nCorr : Nat) (value : Row → Nat → ℂ) (rows : List Row) (h : Rows c nCorr rows) (a p t ch q b : Nat)
    (ha : a < c.nSt) (hp : p < 2) (ht : t < c.solInt) (hc : ch < c.nChan) (hq : q < 2)
    (hno : ∀ r ∈ rows, Used r → r.step = t → r.ch = ch → ∀ cr, cr < nCorr →
      ¬ (r.ant1 = a ∧ r.ant2 = b ∧ first nCorr cr = p ∧ second nCorr cr = q) ∧
      ¬ (r.ant1 = b ∧ r.ant2 = a ∧ first nCorr cr = q ∧ second nCorr cr = p)) :
    fill c nCorr value rows (offset c a p t ch q b) = 0 := by
  refine fill_unwritten c nCorr value rows h a p t ch q b ha hp ht hc hq ?_
  intro r hr hu hs hch cr hcr
  obtain ⟨h1, h2⟩ := pols h.corr hcr
  rw [h1, h2]
  exact hno r hr hu hs hch cr hcr

/-- Each element is from a row, from a row with the stations in the other order, or zero. -/
theorem fill_cases (c : Cfg) (nCorr : Nat) (rows : List Row) (h : Rows c nCorr rows) (a p t ch q b : Nat)
    (ha : a < c.nSt) (hp : p < 2) (ht : t < c.solInt) (hc : ch < c.nChan) (hq : q < 2) :
    (∃ r ∈ rows, Used r ∧ ∃ cr, cr < nCorr ∧ r.ant1 = a ∧ r.ant2 = b ∧ cr / crDiv nCorr = p ∧ cr % 2 = q ∧
      ∀ value, fill c nCorr value rows (offset c a p t ch q b) = value r cr * (Real.sqrt (r.weight cr) : ℂ)) ∨
    (∃ r ∈ rows, Used r ∧ ∃ cr, cr < nCorr ∧ r.ant1 = b ∧ r.ant2 = a ∧ cr / crDiv nCorr = q ∧ cr % 2 = p ∧
      ∀ value, fill c nCorr value rows (offset c a p t ch q b) = (starRingEnd ℂ) (value r cr) * (Real.sqrt (r.weight cr) : ℂ)) ∨
    ∀ value, fill c nCorr value rows (offset c a p t ch q b) = 0 := by
  by_cases h1 : ∃ r ∈ rows, Used r ∧ r.step = t ∧ r.ch = ch ∧ ∃ cr, cr < nCorr ∧ r.ant1 = a ∧ r.ant2 = b ∧
      cr / crDiv nCorr = p ∧ cr % 2 = q
  · obtain ⟨r, hr, hu, rfl, rfl, cr, hcr, rfl, rfl, rfl, rfl⟩ := h1
    exact Or.inl ⟨r, hr, hu, cr, hcr, rfl, rfl, rfl, rfl, fun value => (fill_written c nCorr value rows h r hr hu cr hcr).1⟩
  · by_cases h2 : ∃ r ∈ rows, Used r ∧ r.step = t ∧ r.ch = ch ∧ ∃ cr, cr < nCorr ∧ r.ant1 = b ∧ r.ant2 = a ∧
      cr / crDiv nCorr = q ∧ cr % 2 = p
    · obtain ⟨r, hr, hu, rfl, rfl, cr, hcr, rfl, rfl, rfl, rfl⟩ := h2
      exact Or.inr (Or.inl ⟨r, hr, hu, cr, hcr, rfl, rfl, rfl, rfl, fun value => (fill_written c nCorr value rows h r hr hu cr hcr).2⟩)
    · refine Or.inr (Or.inr fun value => fill_unwritten c nCorr value rows h a p t ch q b ha hp ht hc hq ?_)
      intro r hr hu hs hch cr hcr
      exact ⟨fun ⟨e1, e2, e3, e4⟩ => h1 ⟨r, hr, hu, hs, hch, cr, hcr, e1, e2, e3, e4⟩,
        fun ⟨e1, e2, e3, e4⟩ => h2 ⟨r, hr, hu, hs, hch, cr, hcr, e1, e2, e3, e4⟩⟩

/-! ## The gains of the data -/

/-- The gains of the solver for the Jones values J by station and polarization. -/
noncomputable def gainsOf (c : Cfg) (J : Nat → Nat → ℂ) (u : Nat) : ℂ := (starRingEnd ℂ) (J (u % c.nSt) (u / c.nSt))

/-- C113: if each correlation of the data is the model times the Jones value of the one station and polarization and the conjugate of that
of the other, then these explain the visibilities the solver has, whatever the weights. With `step_fixed` and `doStep_fixed` they
are a solution. -/
theorem fill_explains (c : Cfg) (hm : c.mode ≠ .fullJones) (nCorr : Nat) (rows : List Row) (h : Rows c nCorr rows)
    (J : Nat → Nat → ℂ) (hJ : c.scalar = true → ∀ st, J st 1 = J st 0)
    (hdata : ∀ r ∈ rows, Used r → ∀ cr, cr < nCorr → r.data cr =
      J r.ant1 (first nCorr cr) * r.model cr * (starRingEnd ℂ) (J r.ant2 (second nCorr cr))) (u : Nat) (hu : u < nUn c) :
    Explains c (fill c nCorr (fun r => r.data) rows) (fill c nCorr (fun r => r.model) rows) (gainsOf c J) u := by
  rintro ⟨k, ch, t, p2, st2⟩ he
  obtain ⟨hn, hst, -, -⟩ := unknowns c u hu
  simp only [entries, Finset.mem_product, Finset.mem_range] at he
  obtain ⟨hk, hch, ht, hp, h2⟩ := he
  set p1 := if c.scalar then k else u / c.nSt with hp1
  have hq : p1 < 2 := by
    rw [hp1]
    split
    · next hs => rw [if_pos hs] at hk; exact hk
    · next hs =>
      have hmf : (c.mode == Mode.fullJones) = false := by simpa using hm
      have : nUn c = 2 * c.nSt := by unfold nUn; rw [hmf]; simp [hs]
      rw [this, Nat.mul_comm] at hu
      exact Nat.div_lt_of_lt_mul hu
  have haddr : addr c u (k, ch, t, p2, st2) = offset c st2 p2 t ch p1 (u % c.nSt) := rfl
  have hpol : c.scalar = true → ∀ st p, p < 2 → J st p = J st 0 := by
    intro hs st p hp
    have : p = 0 ∨ p = 1 := by omega
    rcases this with rfl | rfl
    · rfl
    · exact hJ hs st
  have hother : gainsOf c J (other c (k, ch, t, p2, st2)) = (starRingEnd ℂ) (J st2 p2) := by
    unfold gainsOf other
    simp only
    split
    · next hs =>
      rw [Nat.mod_eq_of_lt h2, Nat.div_eq_of_lt h2, hpol hs st2 p2 hp]
    · rw [Nat.add_mul_mod_self_left, Nat.mod_eq_of_lt h2, Nat.add_mul_div_left _ _ hn, Nat.div_eq_of_lt h2, Nat.zero_add]
  have hown : gainsOf c J u = (starRingEnd ℂ) (J (u % c.nSt) p1) := by
    unfold gainsOf
    rw [hp1]
    by_cases hs : c.scalar = true
    · rw [if_pos hs, hpol hs _ k (by rw [if_pos hs] at hk; exact hk), Nat.div_eq_of_lt (by
        have : nUn c = c.nSt := by unfold nUn; rw [hs]; rfl
        omega)]
    · rw [if_neg hs]
  rw [haddr, hother, hown]
  rcases fill_cases c nCorr rows h st2 p2 t ch p1 (u % c.nSt) h2 hp ht hch hq with
    ⟨r, hr, hur, cr, hcr, e1, e2, e3, e4, hv⟩ | ⟨r, hr, hur, cr, hcr, e1, e2, e3, e4, hv⟩ | hv
  · rw [hv, hv, hdata r hr hur cr hcr, ← (pols h.corr hcr).1, ← (pols h.corr hcr).2, e1, e2, e3, e4, Complex.conj_conj]
    ring
  · rw [hv, hv, hdata r hr hur cr hcr, ← (pols h.corr hcr).1, ← (pols h.corr hcr).2, e1, e2, e3, e4]
    simp only [map_mul, Complex.conj_conj]
    ring
  · rw [hv, hv]
    simp

/-- C113: the solutions that are applied are these Jones values: scalar and diagonal. -/
theorem jones_of (c : Cfg) (hm : c.mode ≠ .fullJones) (J : Nat → Nat → ℂ) (hJ : c.scalar = true → ∀ st, J st 1 = J st 0) (st : Nat)
    (hst : st < c.nSt) : jones c (fun u _ => gainsOf c J u) st = ⟨J st 0, 0, 0, J st 1⟩ := by
  have hn : 0 < c.nSt := by omega
  unfold jones gainsOf
  rw [if_neg hm]
  by_cases hs : c.scalar = true
  · simp only [hs, if_true, Nat.mod_eq_of_lt hst, Nat.div_eq_of_lt hst, Complex.conj_conj, hJ hs st]
  · have h1 : (st + c.nSt) % c.nSt = st := by rw [Nat.add_mod_right, Nat.mod_eq_of_lt hst]
    have h2 : (st + c.nSt) / c.nSt = 1 := by rw [Nat.add_div_right _ hn, Nat.div_eq_of_lt hst]
    simp only [if_neg hs, h1, h2, Nat.mod_eq_of_lt hst, Nat.div_eq_of_lt hst, Complex.conj_conj]

/-- C113: the residual of an element is that of the data with the weight of the correlation, so the steps minimise the sum of the weighted
squared residuals. -/
theorem fill_residual (c : Cfg) (nCorr : Nat) (rows : List Row) (h : Rows c nCorr rows) (r : Row) (hr : r ∈ rows) (hu : Used r)
    (cr : Nat) (hcr : cr < nCorr) (hw : 0 ≤ r.weight cr) (ga x : ℂ) :
    normSq (fill c nCorr (fun r => r.data) rows (offset c r.ant1 (first nCorr cr) r.step r.ch (second nCorr cr) r.ant2) -
      (starRingEnd ℂ) ga * fill c nCorr (fun r => r.model) rows (offset c r.ant1 (first nCorr cr) r.step r.ch (second nCorr cr) r.ant2) * x) =
      r.weight cr * normSq (r.data cr - (starRingEnd ℂ) ga * r.model cr * x) := by
  rw [(fill_used c nCorr _ rows h r hr hu cr hcr).1, (fill_used c nCorr _ rows h r hr hu cr hcr).1]
  have : r.data cr * (Real.sqrt (r.weight cr) : ℂ) - (starRingEnd ℂ) ga * (r.model cr * (Real.sqrt (r.weight cr) : ℂ)) * x =
      (Real.sqrt (r.weight cr) : ℂ) * (r.data cr - (starRingEnd ℂ) ga * r.model cr * x) := by ring
  rw [this, normSq_mul, normSq_ofReal, Real.mul_self_sqrt hw]

/-! ## Full Jones matrices -/

/-- C113: for Jones matrices: if the weights of a row are equal and its data are the product of the matrix of the one station, the model and
the conjugate transposed matrix of the other, then these explain the visibilities. The gains of the solver are the conjugate
transposed matrices. -/
theorem fill_explains_full (c : Cfg) (rows : List Row) (h : Rows c 4 rows) (g : Nat → Mat)
    (hw : ∀ r ∈ rows, Used r → ∀ cr, cr < 4 → r.weight cr = r.weight 0)
    (hdata : ∀ r ∈ rows, Used r → ∀ p2, p2 < 2 →
      let z := fun q => if p2 = 0 then (starRingEnd ℂ) (g r.ant1).a * r.model q + (starRingEnd ℂ) (g r.ant1).c * r.model (2 + q)
        else (starRingEnd ℂ) (g r.ant1).b * r.model q + (starRingEnd ℂ) (g r.ant1).d * r.model (2 + q)
      r.data (2 * p2) = z 0 * (g r.ant2).a + z 1 * (g r.ant2).c ∧
      r.data (2 * p2 + 1) = z 0 * (g r.ant2).b + z 1 * (g r.ant2).d) (st : Nat) (hst : st < c.nSt) :
    ExplainsFull c (fill c 4 (fun r => r.data) rows) (fill c 4 (fun r => r.model) rows) g st := by
  rintro ⟨⟨t, ch, st2⟩, p2⟩ hk
  simp only [eqSet, cellSet, Finset.mem_product, Finset.mem_range] at hk
  obtain ⟨⟨ht, hc, h2⟩, hp⟩ := hk
  by_cases h1 : ∃ r ∈ rows, Used r ∧ r.step = t ∧ r.ch = ch ∧ r.ant1 = st2 ∧ r.ant2 = st
  · obtain ⟨r, hr, hu, rfl, rfl, rfl, rfl⟩ := h1
    have hval : ∀ (value : Row → Nat → ℂ) (p q : Nat), p < 2 → q < 2 →
        block c (fill c 4 value rows) r.ant2 (r.step, r.ch, r.ant1) p q = value r (2 * p + q) * (Real.sqrt (r.weight 0) : ℂ) := by
      intro value p q hp hq
      have e1 : (2 * p + q) / crDiv 4 = p := by simp only [crDiv, if_true]; omega
      have e2 : (2 * p + q) % 2 = q := by omega
      have := (fill_written c 4 value rows h r hr hu (2 * p + q) (by omega)).1
      rw [e1, e2, hw r hr hu _ (by omega)] at this
      exact this
    have hd := hdata r hr hu p2 hp
    simp only at hd
    simp only [predicted]
    have hp' : p2 = 0 ∨ p2 = 1 := by omega
    rcases hp' with rfl | rfl
    · rw [hval _ 0 0 (by omega) (by omega), hval _ 0 1 (by omega) (by omega)]
      simp only [hval _ 0 0 (by omega) (by omega), hval _ 0 1 (by omega) (by omega), hval _ 1 0 (by omega) (by omega),
        hval _ 1 1 (by omega) (by omega), if_true]
      norm_num at hd ⊢
      rw [hd.1, hd.2]
      constructor <;> ring
    · rw [hval _ 1 0 (by omega) (by omega), hval _ 1 1 (by omega) (by omega)]
      simp only [hval _ 0 0 (by omega) (by omega), hval _ 0 1 (by omega) (by omega), hval _ 1 0 (by omega) (by omega),
        hval _ 1 1 (by omega) (by omega)]
      norm_num at hd ⊢
      rw [hd.1, hd.2]
      constructor <;> ring
  · by_cases h3 : ∃ r ∈ rows, Used r ∧ r.step = t ∧ r.ch = ch ∧ r.ant1 = st ∧ r.ant2 = st2
    · obtain ⟨r, hr, hu, rfl, rfl, rfl, rfl⟩ := h3
      have hval : ∀ (value : Row → Nat → ℂ) (p q : Nat), p < 2 → q < 2 →
          block c (fill c 4 value rows) r.ant1 (r.step, r.ch, r.ant2) p q =
            (starRingEnd ℂ) (value r (2 * q + p)) * (Real.sqrt (r.weight 0) : ℂ) := by
        intro value p q hp hq
        have e1 : (2 * q + p) / crDiv 4 = q := by simp only [crDiv, if_true]; omega
        have e2 : (2 * q + p) % 2 = p := by omega
        have := (fill_written c 4 value rows h r hr hu (2 * q + p) (by omega)).2
        rw [e1, e2, hw r hr hu _ (by omega)] at this
        exact this
      have hd0 := hdata r hr hu 0 (by omega)
      have hd1 := hdata r hr hu 1 (by omega)
      norm_num at hd0 hd1
      simp only [predicted]
      have hp' : p2 = 0 ∨ p2 = 1 := by omega
      rcases hp' with rfl | rfl
      · rw [hval _ 0 0 (by omega) (by omega), hval _ 0 1 (by omega) (by omega)]
        simp only [hval _ 0 0 (by omega) (by omega), hval _ 0 1 (by omega) (by omega), hval _ 1 0 (by omega) (by omega),
          hval _ 1 1 (by omega) (by omega), if_true]
        norm_num
        rw [hd0.1, hd1.1]
        simp only [map_add, map_mul, Complex.conj_conj]
        constructor <;> ring
      · rw [hval _ 1 0 (by omega) (by omega), hval _ 1 1 (by omega) (by omega)]
        simp only [hval _ 0 0 (by omega) (by omega), hval _ 0 1 (by omega) (by omega), hval _ 1 0 (by omega) (by omega),
          hval _ 1 1 (by omega) (by omega)]
        norm_num
        rw [hd0.2, hd1.2]
        simp only [map_add, map_mul, Complex.conj_conj]
        constructor <;> ring
    · have hval : ∀ (value : Row → Nat → ℂ) (p q : Nat), p < 2 → q < 2 →
          block c (fill c 4 value rows) st (t, ch, st2) p q = 0 := by
        intro value p q hp hq
        refine fill_unwritten c 4 value rows h st2 p t ch q st h2 hp ht hc hq ?_
        intro r hr hu hs hch cr _
        exact ⟨fun ⟨e1, e2, _⟩ => h1 ⟨r, hr, hu, hs, hch, e1, e2⟩, fun ⟨e1, e2, _⟩ => h3 ⟨r, hr, hu, hs, hch, e1, e2⟩⟩
      simp only [predicted, hval _ p2 0 hp (by omega), hval _ p2 1 hp (by omega), hval _ 0 0 (by omega) (by omega),
        hval _ 0 1 (by omega) (by omega), hval _ 1 0 (by omega) (by omega), hval _ 1 1 (by omega) (by omega)]
      simp

/-- C113: the same with the Jones matrices that are applied: if the data of each row are the product of the Jones matrix of the first
station, the model and the conjugate transposed Jones matrix of the second, and its weights are equal, then they are a solution. -/
theorem fill_explains_jones (c : Cfg) (hm : c.mode = .fullJones) (rows : List Row) (h : Rows c 4 rows) (g : Nat → Nat → ℂ)
    (hw : ∀ r ∈ rows, Used r → ∀ cr, cr < 4 → r.weight cr = r.weight 0)
    (hdata : ∀ r ∈ rows, Used r →
      let J := jones c g r.ant1
      let K := jones c g r.ant2
      let cj := starRingEnd ℂ
      r.data 0 = (J.a * r.model 0 + J.b * r.model 2) * cj K.a + (J.a * r.model 1 + J.b * r.model 3) * cj K.b ∧
      r.data 1 = (J.a * r.model 0 + J.b * r.model 2) * cj K.c + (J.a * r.model 1 + J.b * r.model 3) * cj K.d ∧
      r.data 2 = (J.c * r.model 0 + J.d * r.model 2) * cj K.a + (J.c * r.model 1 + J.d * r.model 3) * cj K.b ∧
      r.data 3 = (J.c * r.model 0 + J.d * r.model 2) * cj K.c + (J.c * r.model 1 + J.d * r.model 3) * cj K.d)
    (st : Nat) (hst : st < c.nSt) :
    ExplainsFull c (fill c 4 (fun r => r.data) rows) (fill c 4 (fun r => r.model) rows)
      (fun st => ⟨g st 0, g st 1, g st 2, g st 3⟩) st := by
  refine fill_explains_full c rows h _ hw ?_ st hst
  intro r hr hu p2 hp
  have hd := hdata r hr hu
  simp only [jones, if_pos hm, Complex.conj_conj] at hd
  have hp' : p2 = 0 ∨ p2 = 1 := by omega
  rcases hp' with rfl | rfl
  · norm_num
    exact ⟨hd.1, hd.2.1⟩
  · norm_num
    exact ⟨hd.2.2.1, hd.2.2.2⟩

/-- Example for `fill_explains_jones`: the row of the violation with equal weights. -/
example (st : Nat) (hst : st < 2) :
    ExplainsFull (exCfg .fullJones) (fill (exCfg .fullJones) 4 (fun r => r.data)
      [⟨0, 1, 0, 0, fun cr => if cr = 2 then 0 else 1, fun cr => if cr = 0 ∨ cr = 3 then 1 else 0, fun _ => 4, true⟩])
      (fill (exCfg .fullJones) 4 (fun r => r.model)
      [⟨0, 1, 0, 0, fun cr => if cr = 2 then 0 else 1, fun cr => if cr = 0 ∨ cr = 3 then 1 else 0, fun _ => 4, true⟩])
      (fun st => ⟨1, if st = 1 then 1 else 0, 0, 1⟩) st := by
  refine fill_explains_jones (exCfg .fullJones) rfl _ ?_
    (fun st cr => if cr = 0 then 1 else if cr = 1 then (if st = 1 then 1 else 0) else if cr = 2 then 0 else 1) ?_ ?_ st hst
  · refine ⟨Or.inr (Or.inr rfl), ?_, ?_, ?_, ?_, ?_⟩ <;> simp [exCfg]
  · intro r hr _ cr _
    rw [List.mem_singleton.mp hr]
  · intro r hr _
    rw [List.mem_singleton.mp hr]
    simp [jones, exCfg]

/-! ## Violation with weights by correlation -/

/-- One baseline with a unit matrix as model, a shear as data, and a larger weight for the second correlation. -/
def weightRow : Row :=
  ⟨0, 1, 0, 0, fun cr => if cr = 2 then 0 else 1, fun cr => if cr = 0 ∨ cr = 3 then 1 else 0, fun cr => if cr = 1 then 4 else 1, true⟩

/-- C113 is violated for Jones matrices with weights by correlation: the data are exactly the product of the Jones matrices and the model,
but a step from these matrices leaves them: the off-diagonal element of the second station goes from 1 to 2. -/
theorem fill_full_violated :
    (weightRow.data 0 = 1 ∧ weightRow.data 1 = 1 ∧ weightRow.data 2 = 0 ∧ weightRow.data 3 = 1) ∧
    (exGainFull 0 = ⟨1, 0, 0, 1⟩ ∧ exGainFull 1 = ⟨1, 1, 0, 1⟩) ∧
    (stepPolarized (exCfg .fullJones) (fill (exCfg .fullJones) 4 (fun r => r.data) [weightRow])
      (fill (exCfg .fullJones) 4 (fun r => r.model) [weightRow]) exGainFull fun _ => false).1 1 = ⟨1, 2, 0, 1⟩ := by
  refine ⟨by simp [weightRow], by simp [exGainFull], ?_⟩
  have hrows : Rows (exCfg .fullJones) 4 [weightRow] := by
    refine ⟨Or.inr (Or.inr rfl), ?_, ?_, ?_, ?_, ?_⟩ <;> simp [weightRow, exCfg]
  have hu : Used weightRow := by simp [Used, weightRow]
  have hmem : weightRow ∈ [weightRow] := List.mem_cons_self
  have h4 : Real.sqrt 4 = 2 := by rw [show (4 : ℝ) = 2 ^ 2 by norm_num, Real.sqrt_sq (by norm_num)]
  have hval : ∀ (value : Row → Nat → ℂ) (p q : Nat), p < 2 → q < 2 →
      block (exCfg .fullJones) (fill (exCfg .fullJones) 4 value [weightRow]) 1 (0, 0, 0) p q =
        value weightRow (2 * p + q) * (Real.sqrt (weightRow.weight (2 * p + q)) : ℂ) := by
    intro value p q hp hq
    have e1 : (2 * p + q) / crDiv 4 = p := by simp only [crDiv, if_true]; omega
    have e2 : (2 * p + q) % 2 = q := by omega
    have := (fill_written _ 4 value _ hrows weightRow hmem hu (2 * p + q) (by omega)).1
    rw [e1, e2] at this
    exact this
  have hzero : ∀ (value : Row → Nat → ℂ) (p q : Nat), p < 2 → q < 2 →
      block (exCfg .fullJones) (fill (exCfg .fullJones) 4 value [weightRow]) 1 (0, 0, 1) p q = 0 := by
    intro value p q hp hq
    refine fill_unwritten _ 4 value _ hrows 1 p 0 0 q 1 (by decide) hp (by decide) (by decide) hq ?_
    intro r hr _ _ _ cr _
    rw [List.mem_singleton.mp hr]
    simp [weightRow]
  have hdet : detFull (exCfg .fullJones) (fill (exCfg .fullJones) 4 (fun r => r.model) [weightRow]) exGainFull 1 ≠ 0 := by
    unfold detFull dot
    simp only [sum_eqSet, cellSet, Finset.sum_product, exCfg, Finset.sum_range_succ, Finset.sum_range_zero, zero_add]
    simp only [predicted]
    rw [← show exCfg .fullJones = ⟨2, 1, 1, .fullJones, true, 1.0e-5, true⟩ from rfl]
    simp only [hval _ 0 0 (by omega) (by omega), hval _ 0 1 (by omega) (by omega), hval _ 1 0 (by omega) (by omega),
      hval _ 1 1 (by omega) (by omega), hzero _ 0 0 (by omega) (by omega), hzero _ 0 1 (by omega) (by omega),
      hzero _ 1 0 (by omega) (by omega), hzero _ 1 1 (by omega) (by omega)]
    simp [exGainFull, weightRow]
  refine ((full_best (exCfg .fullJones) _ _ exGainFull (fun _ => false) 1 (by decide) rfl hdet ⟨1, 2, 0, 1⟩).2 ?_).symm
  have h0 : costFull (exCfg .fullJones) (fill (exCfg .fullJones) 4 (fun r => r.data) [weightRow])
      (fill (exCfg .fullJones) 4 (fun r => r.model) [weightRow]) exGainFull 1 ⟨1, 2, 0, 1⟩ = 0 := by
    unfold costFull
    refine Finset.sum_eq_zero ?_
    rintro ⟨⟨t, ch, st2⟩, p2⟩ hk
    simp only [eqSet, cellSet, exCfg, Finset.mem_product, Finset.mem_range] at hk
    obtain ⟨⟨ht, hc, h2⟩, hp⟩ := hk
    have ht' : t = 0 := by omega
    have hc' : ch = 0 := by omega
    subst ht' hc'
    have h2' : st2 = 0 ∨ st2 = 1 := by omega
    have hp' : p2 = 0 ∨ p2 = 1 := by omega
    simp only [predicted]
    rcases h2' with rfl | rfl <;> rcases hp' with rfl | rfl <;>
      simp only [hval _ 0 0 (by omega) (by omega), hval _ 0 1 (by omega) (by omega), hval _ 1 0 (by omega) (by omega),
        hval _ 1 1 (by omega) (by omega), hzero _ 0 0 (by omega) (by omega), hzero _ 0 1 (by omega) (by omega),
        hzero _ 1 0 (by omega) (by omega), hzero _ 1 1 (by omega) (by omega)] <;>
      simp [exGainFull, weightRow, h4]
  rw [h0]
  exact Finset.sum_nonneg fun k _ => add_nonneg (normSq_nonneg _) (normSq_nonneg _)

/-! ## Examples -/

/-- Two rows of three stations, one of which is not used. -/
def exRows : List Row :=
  [⟨0, 1, 0, 0, fun _ => 2 * I, fun _ => 2, fun cr => if cr = 1 then 4 else 1, true⟩,
   ⟨0, 2, 0, 0, fun _ => 7, fun _ => 1, fun _ => 1, false⟩]

/-- Three stations. -/
def exCfg3 : Cfg := ⟨3, 1, 1, .default, false, 1.0e-5, true⟩

theorem ex_rows : Rows exCfg3 4 exRows := by
  refine ⟨Or.inr (Or.inr rfl), ?_, ?_, ?_, ?_, ?_⟩ <;> simp [exRows, exCfg3]

/-- Example for `fill_used` and `fill_residual`: the second correlation of the first row has weight 4. -/
example : fill exCfg3 4 (fun r => r.data) exRows (offset exCfg3 0 0 0 0 1 1) = 2 * I * (Real.sqrt 4 : ℂ) := by
  have := (fill_used exCfg3 4 (fun r => r.data) exRows ex_rows _ List.mem_cons_self (by simp [Used]) 1 (by omega)).1
  simpa [first, second] using this

/-- Example for `fill_unused`: the row that is not used. -/
example : fill exCfg3 4 (fun r => r.data) exRows (offset exCfg3 0 0 0 0 1 2) = 0 := by
  refine fill_unused exCfg3 4 _ exRows ex_rows 0 0 0 0 1 2 (by decide) (by decide) (by decide) (by decide) (by decide) ?_
  intro r hr hu
  simp only [exRows, List.mem_cons, List.not_mem_nil, or_false] at hr
  rcases hr with rfl | rfl
  · simp
  · simp [Used] at hu

/-- Example for `fill_explains`: Jones values i for the first station and 1 for the second. -/
example (u : Nat) (hu : u < nUn exCfg3) :
    Explains exCfg3 (fill exCfg3 4 (fun r => r.data) exRows) (fill exCfg3 4 (fun r => r.model) exRows)
      (gainsOf exCfg3 fun st _ => if st = 0 then I else 1) u := by
  refine fill_explains exCfg3 (by decide) 4 exRows ex_rows _ (by simp) ?_ u hu
  intro r hr hur cr _
  simp only [exRows, List.mem_cons, List.not_mem_nil, or_false] at hr
  rcases hr with rfl | rfl
  · simp; ring
  · simp [Used] at hur

end DP3.GainCal
