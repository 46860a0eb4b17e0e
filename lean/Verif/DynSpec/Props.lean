import Verif.DynSpec.Lemmas
import Mathlib.Tactic.FieldSimp

/-!
# Properties of DynSpec
-/

namespace DP3.DynSpec

set_option linter.unusedSimpArgs false
set_option linter.unusedSectionVars false

variable {K : Type} [Field K] [LinearOrder K] [IsStrictOrderedRing K]

/-! ## C152: every time slot has its own place in the files -/

theorem image_get (c : Cfg K) (s : State K) (d : Nat) {t j p : Nat} (ht : t < c.nTime)
    (hj : j < c.nCh) (hp : p < 4) :
    (image c s d)[t + c.nTime * (j + c.nCh * p)]? = some (s.mem (loc c t j p d)) := by
  have h1 : t + c.nTime * (j + c.nCh * p) < c.nTime * c.nCh * 4 := by
    have := mul_add_lt ht (mul_add_lt hj hp)
    rwa [← Nat.mul_assoc] at this
  simp only [image, List.getElem?_map, List.getElem?_range h1, Option.map_some]
  congr 2
  simp only [loc, Nat.mul_add, Nat.zero_add]
  omega

/-- C152. For every stream of at most `ntime` buffers nothing is written outside the tensor, every
buffer is forwarded, and in the file of every source the pixel of a time slot, channel and Stokes
parameter (with time as the fastest axis) is the value computed from the buffer of that time slot.
Pixels of time slots that did not come are not initialized. -/
theorem spectra_complete (c : Cfg K) (bs : List (Buf K)) (hlen : bs.length ≤ c.nTime) :
    ∃ s out, run c init bs = some (s, out) ∧ out.length = bs.length ∧
      ∀ t < c.nTime, ∀ j < c.nCh, ∀ p < 4, ∀ d < c.nDir,
        (image c s d)[t + c.nTime * (j + c.nCh * p)]? =
          some (bs[t]?.map fun b => pixel c (subtracted c b) d j p) := by
  obtain ⟨s, h1, _, h3, h4⟩ := run_spec c bs init (by simpa [init] using hlen)
  refine ⟨s, _, h1, by simp, fun t ht j hj p hp d hd => ?_⟩
  rw [image_get c s d ht hj hp]
  rcases Nat.lt_or_ge t bs.length with h | h
  · have := h3 t bs[t] (List.getElem?_eq_getElem h) d hd j hj p hp
    simp only [init, Nat.zero_add] at this
    rw [this, List.getElem?_eq_getElem h, Option.map_some]
  · have := h4 t ht (Or.inr (by simpa [init] using h)) d j hj p hp
    rw [this, List.getElem?_eq_none h]
    rfl

theorem put_fold_none {A : Type} (c : Cfg K) (f : A → Nat) (v : A → Option K) (l : List A) (a : A)
    (ha : a ∈ l) (h : size c ≤ f a) :
    ∀ m : Mem K, l.foldlM (fun m a => put c m (f a) (v a)) m = none := by
  induction l with
  | nil => simp at ha
  | cons b l ih =>
    intro m
    rw [List.foldlM_cons]
    cases hb : put c m (f b) (v b) with
    | none => rfl
    | some m' =>
      rcases List.mem_cons.1 ha with rfl | ha'
      · exfalso
        rw [put, if_neg (Nat.not_lt.2 h)] at hb
        exact absurd hb (by simp)
      · exact ih ha' m'

/-- C152. The limit is sharp: the slot after the last slot is written outside the tensor, as the
index stays at `ntime` instead of being refused. -/
theorem extra_slot (c : Cfg K) (hch : 0 < c.nCh) (hdir : 0 < c.nDir) (bs : List (Buf K))
    (hlen : bs.length = c.nTime) (b : Buf K) : run c init (bs ++ [b]) = none := by
  have key : ∀ (bs : List (Buf K)) (s : State K), s.time + bs.length = c.nTime →
      run c s (bs ++ [b]) = none := by
    intro bs
    induction bs with
    | nil =>
      intro s hs
      simp only [List.length_nil, Nat.add_zero] at hs
      have hlast : ∀ m : Mem K, putSlot c (subtracted c b) s.time (c.nDir - 1) m = none := by
        intro m
        refine put_fold_none c (fun x : Nat × Nat => loc c s.time x.1 x.2 (c.nDir - 1)) _ _
          (c.nCh - 1, 3) ((mem_cells c _).2 ⟨by simp only; omega, by simp⟩) ?_ m
        simp only [loc, size, hs]
        have e1 : 3 + 4 * (c.nDir - 1) + 1 = 4 * c.nDir := by omega
        have e2 : c.nCh - 1 + c.nCh * (3 + 4 * (c.nDir - 1)) + 1 = c.nCh * (4 * c.nDir) := by
          rw [← e1, Nat.mul_succ c.nCh]; omega
        rw [Nat.mul_assoc, Nat.mul_assoc, ← e2, Nat.mul_succ]
        omega
      have hfold : ∀ m : Mem K, (List.range c.nDir).foldlM
          (fun m d => putSlot c (subtracted c b) s.time d m) m = none := by
        intro m
        obtain ⟨n, hn⟩ : ∃ n, c.nDir = n + 1 := ⟨c.nDir - 1, by omega⟩
        rw [hn, List.range_succ, List.foldlM_append]
        have hl : ∀ m : Mem K, putSlot c (subtracted c b) s.time n m = none := by
          have := hlast
          rwa [show c.nDir - 1 = n by omega] at this
        cases h : (List.range n).foldlM (fun m d => putSlot c (subtracted c b) s.time d m) m with
        | none => rfl
        | some m' => simp [hl]
      simp [run, process, hfold]
    | cons b' bs ih =>
      intro s hs
      simp only [List.length_cons] at hs
      obtain ⟨m', h1, _⟩ := process_spec c s b' (by omega)
      have := ih ⟨s.time + 1, m'⟩ (by simp only; omega)
      simp [run, h1, this]
  exact key bs init (by simpa [init] using hlen)

/-! ## C153: the flux of a source -/

theorem two_ne : (2 : K) ≠ 0 := by
  have : (0 : K) < 2 := by norm_num
  exact ne_of_gt this

/-- C153. The Stokes parameters are those of which the correlations were made. -/
theorem stokes_right (s : Nat → Cx K) (p : Nat) (hp : p < 4) :
    stokes (corr s 0) (corr s 1) (corr s 2) (corr s 3) p = s p := by
  have h2 := two_ne (K := K)
  have : p = 0 ∨ p = 1 ∨ p = 2 ∨ p = 3 := by omega
  rcases this with rfl | rfl | rfl | rfl
  all_goals
    simp only [stokes, corr]
    ext <;> simp <;> field_simp <;> ring_nf

theorem weighted_seen (c : Cfg K) (b : Buf K) (d j p : Nat) (s : Nat → Cx K)
    (hs : SeesSource c b d j s) (hp : p < 4) {i : Nat} (hi : i < c.nBl) :
    weighted c b d i j p =
      Cx.ofReal (if b.flags i j p then 0 else weightsOf c b d i j p) * corr s p := by
  simp only [weighted, hs i hi p hp]
  split
  · ext <;> simp
  · rfl

theorem averaged_eq (c : Cfg K) (b : Buf K) (d j p : Nat) : averaged c b d j p =
    if ((List.range c.nBl).map fun i => weightsOf c b d i j p).sum = 0 then none else
    some ((((List.range c.nBl).map fun i => weighted c b d i j p).sum.divReal (c.nBl : K)).divReal
      ((List.range c.nBl).map fun i => weightsOf c b d i j p).sum) := rfl

/-- C153. What is computed for a source in the direction: its visibility times the weight of the
samples that are not flagged, divided by the weight of all samples and by the number of baselines. -/
theorem averaged_seen (c : Cfg K) (b : Buf K) (d j p : Nat) (s : Nat → Cx K)
    (hs : SeesSource c b d j s) (hp : p < 4) :
    averaged c b d j p =
      if ((List.range c.nBl).map fun i => weightsOf c b d i j p).sum = 0 then none else
      some (Cx.ofReal (((List.range c.nBl).map fun i =>
          if b.flags i j p then 0 else weightsOf c b d i j p).sum /
        (c.nBl * ((List.range c.nBl).map fun i => weightsOf c b d i j p).sum)) * corr s p) := by
  rw [averaged_eq]
  split_ifs
  · rfl
  · rw [sum_congr c.nBl _ _ (fun i hi => weighted_seen c b d j p s hs hp hi), sum_const_mul,
      Option.some.injEq]
    apply Cx.ext <;> simp [Cx.divReal] <;> ring

/-- The weights are positive, and nothing is flagged (used in the statements only). -/
def Clean (c : Cfg K) (b : Buf K) (d j : Nat) : Prop :=
  ∀ i < c.nBl, ∀ p < 4, b.flags i j p = false ∧ 0 < weightsOf c b d i j p

theorem sum_pos (n : Nat) (w : Nat → K) (hw : ∀ i < n, 0 < w i) (hn : 0 < n) :
    0 < ((List.range n).map w).sum := by
  induction n with
  | zero => omega
  | succ n ih =>
    simp only [List.range_succ, List.map_append, List.sum_append, List.map_cons, List.map_nil,
      List.sum_cons, List.sum_nil, add_zero]
    rcases Nat.eq_zero_or_pos n with rfl | h
    · simpa using hw 0 (by omega)
    · exact add_pos (ih (fun i hi => hw i (by omega)) h) (hw n (by omega))

/-- C153. Every pixel of a source that is alone in the field is its Stokes parameter divided by the
number of baselines. -/
theorem flux_divided (c : Cfg K) (b : Buf K) (d j : Nat) (s : Nat → Cx K) (hn : 0 < c.nBl)
    (hs : SeesSource c b d j s) (hc : Clean c b d j) (p : Nat) (hp : p < 4) :
    pixel c b d j p = some (c.abs ((s p).divReal c.nBl)) := by
  have hN : (c.nBl : K) ≠ 0 := Nat.cast_ne_zero.2 (by omega)
  have hav : ∀ q < 4, averaged c b d j q = some ((corr s q).divReal c.nBl) := by
    intro q hq
    have hW := sum_pos c.nBl (fun i => weightsOf c b d i j q) (fun i hi => (hc i hi q hq).2) hn
    rw [averaged_seen c b d j q s hs hq, if_neg (ne_of_gt hW),
      sum_congr c.nBl (fun i => if b.flags i j q then 0 else weightsOf c b d i j q)
        (fun i => weightsOf c b d i j q) (fun i hi => by simp [(hc i hi q hq).1])]
    have hW' := ne_of_gt hW
    generalize ((List.range c.nBl).map fun i => weightsOf c b d i j q).sum = W at hW'
    rw [Option.some.injEq]
    apply Cx.ext <;> simp [Cx.divReal] <;> field_simp
  have hst := stokes_right s p hp
  have hlin : ∀ x : K, ∀ a b e f : Cx K, stokes (a.divReal x) (b.divReal x) (e.divReal x)
      (f.divReal x) p = (stokes a b e f p).divReal x := by
    intro x a b e f
    simp only [stokes]
    split_ifs <;> ext <;> simp [Cx.divReal] <;> ring
  have h := hlin c.nBl (corr s 0) (corr s 1) (corr s 2) (corr s 3)
  rw [hst] at h
  simp only [pixel, hav 0 (by omega), hav 1 (by omega), hav 2 (by omega), hav 3 (by omega)]
  rw [← h]
  split
  · next h01 =>
    simp only [Option.bind_eq_bind, Option.bind_some, Option.pure_def, Option.some.injEq]
    rcases h01 with rfl | rfl <;> simp [stokes]
  · next h01 =>
    have : ¬ p = 0 ∧ ¬ p = 1 := by omega
    simp only [Option.bind_eq_bind, Option.bind_some, Option.pure_def, Option.some.injEq]
    simp [stokes, this.1, this.2]

/-- C153, partial. With a single baseline the pixels are the Stokes parameters of the source. The full
statement, for all numbers of baselines, is false (`flux_divided`). -/
theorem flux_partial (c : Cfg K) (b : Buf K) (d j : Nat) (s : Nat → Cx K) (hn : c.nBl = 1)
    (hs : SeesSource c b d j s) (hc : Clean c b d j) (p : Nat) (hp : p < 4) :
    pixel c b d j p = some (c.abs (s p)) := by
  rw [flux_divided c b d j s (by omega) hs hc p hp, hn]
  congr 2
  ext <;> simp [Cx.divReal]

/-- C153. The value of a correlation is not the weighted average over the samples that count, but the
average divided by the number of baselines, and more if samples are flagged: `v` times the number of
baselines times the weight of all samples is the weighted sum of the samples that count. -/
theorem averaged_sum (c : Cfg K) (b : Buf K) (d j p : Nat) (v : Cx K)
    (hv : averaged c b d j p = some v) :
    ((List.range c.nBl).map fun i => weighted c b d i j p).sum =
      Cx.ofReal (c.nBl * ((List.range c.nBl).map fun i => weightsOf c b d i j p).sum) * v := by
  rw [averaged_eq] at hv
  split_ifs at hv with h0
  have hN : (c.nBl : K) ≠ 0 := by
    intro h
    have : c.nBl = 0 := by exact_mod_cast h
    rw [this] at h0
    simp at h0
  simp only [Option.some.injEq] at hv
  subst hv
  generalize ((List.range c.nBl).map fun i => weightsOf c b d i j p).sum = W at h0 ⊢
  ext <;> simp [Cx.divReal] <;> field_simp

/-- C153. With two or more baselines that all see the same source, the value of a correlation is never
the weighted average. -/
theorem not_average (c : Cfg K) (b : Buf K) (d j p : Nat) (s : Nat → Cx K) (hn : 2 ≤ c.nBl)
    (hs : SeesSource c b d j s) (hc : Clean c b d j) (hp : p < 4) (h0 : corr s p ≠ 0) :
    ∃ v, averaged c b d j p = some v ∧ IsAverage c b d j p (corr s p) ∧ ¬ IsAverage c b d j p v := by
  have hW := sum_pos c.nBl (fun i => weightsOf c b d i j p) (fun i hi => (hc i hi p hp).2) (by omega)
  have hIs : ∀ v, IsAverage c b d j p v ↔
      Cx.ofReal ((List.range c.nBl).map fun i => weightsOf c b d i j p).sum * (corr s p - v) = 0 := by
    intro v
    simp only [IsAverage]
    rw [sum_congr c.nBl _ (fun i => Cx.ofReal (weightsOf c b d i j p) * (corr s p - v))
      (fun i hi => by simp [(hc i hi p hp).1, hs i hi p hp]), sum_const_mul]
  have hav := averaged_seen c b d j p s hs hp
  rw [if_neg (ne_of_gt hW),
      sum_congr c.nBl (fun i => if b.flags i j p then 0 else weightsOf c b d i j p)
        (fun i => weightsOf c b d i j p) (fun i hi => by simp [(hc i hi p hp).1])] at hav
  refine ⟨_, hav, (hIs _).2 (by simp), fun hb => ?_⟩
  rw [hIs] at hb
  have hN : (2 : K) ≤ c.nBl := by exact_mod_cast hn
  have hW' := ne_of_gt hW
  generalize ((List.range c.nBl).map fun i => weightsOf c b d i j p).sum = W at hb hW hW'
  have hfac : W / (c.nBl * W) = 1 / (c.nBl : K) := by field_simp
  rw [hfac] at hb
  have hlt : (1 : K) / c.nBl < 1 := by
    rw [div_lt_one (by linarith)]; linarith
  have hne : W * (1 - 1 / (c.nBl : K)) ≠ 0 := mul_ne_zero hW' (by linarith)
  apply h0
  have hre := congrArg Cx.re hb
  have him := congrArg Cx.im hb
  simp at hre him
  ext
  · have : W * (1 - 1 / (c.nBl : K)) * (corr s p).re = 0 := by
      rcases hre with h | h
      · rw [h]; ring
      · rw [mul_assoc, show (1 - 1 / (c.nBl : K)) * (corr s p).re = (corr s p).re -
          (c.nBl : K)⁻¹ * (corr s p).re by rw [one_div]; ring, h, mul_zero]
    exact (mul_eq_zero.1 this).resolve_left hne
  · have : W * (1 - 1 / (c.nBl : K)) * (corr s p).im = 0 := by
      rcases him with h | h
      · rw [h]; ring
      · rw [mul_assoc, show (1 - 1 / (c.nBl : K)) * (corr s p).im = (corr s p).im -
          (c.nBl : K)⁻¹ * (corr s p).im by rw [one_div]; ring, h, mul_zero]
    exact (mul_eq_zero.1 this).resolve_left hne

/-! ## C154: the data that are forwarded -/

/-- C154, partial. Without subtraction every buffer is forwarded as it came. The full statement, with
subtraction, is false (`forwarded_subtracted`). -/
theorem forwarded_partial (c : Cfg K) (h : c.subtract = false) (bs : List (Buf K))
    (hlen : bs.length ≤ c.nTime) : ∃ s, run c init bs = some (s, bs) := by
  obtain ⟨s, h1, _⟩ := run_spec c bs init (by simpa [init] using hlen)
  refine ⟨s, ?_⟩
  rw [h1]
  congr 2
  conv_rhs => rw [← List.map_id bs]
  exact List.map_congr_left fun b _ => by simp [subtracted, h]

/-- C154. With subtraction the next step gets data without the model, although the step says that it
provides no fields. -/
theorem forwarded_subtracted (c : Cfg K) (h : c.subtract = true) (bs : List (Buf K))
    (hlen : bs.length ≤ c.nTime) :
    ∃ s out, run c init bs = some (s, out) ∧ out.length = bs.length ∧
      ∀ (t : Nat) (b : Buf K), bs[t]? = some b → ∃ o, out[t]? = some o ∧
        o.flags = b.flags ∧ o.weights = b.weights ∧
        ∀ i j p d m, b.data i j p = some d → c.model b i j p = some m →
          o.data i j p = some (d - m) := by
  obtain ⟨s, h1, _⟩ := run_spec c bs init (by simpa [init] using hlen)
  refine ⟨s, _, h1, by simp, fun t b hb => ⟨subtracted c b, by simp [hb], ?_, ?_, ?_⟩⟩
  · simp [subtracted, h]
  · simp [subtracted, h]
  · intro i j p d m hd hm
    simp [subtracted, h, hd, hm]

/-! ## C155: the observation ID -/

/-- C155. For every name `L<id>_<rest>` the observation ID in the file is the ID followed by the
underscore. -/
theorem obsId_underscore (id rest : List Char) (h : '_' ∉ id) :
    obsId ('L' :: (id ++ '_' :: rest)) = some (id ++ ['_']) := by
  have hidx : (('L' :: (id ++ '_' :: rest)) : List Char).idxOf '_' = id.length + 1 := by
    rw [List.idxOf_cons_ne _ (by decide), List.idxOf_append_of_notMem h, List.idxOf_cons_self]
  simp only [obsId, hidx]
  rw [if_pos (by simp)]
  congr 1
  rw [List.take_append]
  simp

/-- C155, partial. Names without an underscore give all that follows the L. The full statement (the ID
of every name of that format) is false (`obsId_underscore`). -/
theorem obsId_partial (id : List Char) (h : '_' ∉ id) : obsId ('L' :: id) = some id := by
  simp only [obsId]
  rw [if_neg (by simp [h])]

/-! ## Examples -/

/-- Two baselines, two channels, two time slots, two sources; the sub-steps keep the data. -/
def exCfg (sub : Bool) : Cfg ℚ where
  nBl := 2
  nCh := 2
  nTime := 2
  nDir := 2
  subtract := sub
  reweighted := false
  model _ i _ _ := some ⟨i, 0⟩
  shift dir b := (fun i j p => (b.data i j p).map fun d => d * ⟨dir + 1, 0⟩, b.weights)
  abs z := z.normSq

/-- A source with I = 4 and V = 2. -/
def exStokes : Nat → Cx ℚ := fun p => if p = 0 then ⟨4, 0⟩ else if p = 3 then ⟨2, 0⟩ else 0

def exBuf : Buf ℚ where
  data _ _ p := some (corr exStokes p)
  flags _ _ _ := false
  weights i _ _ := i + 1

example := spectra_complete (exCfg true) [exBuf] (by decide)

example : run (exCfg true) init ([exBuf, exBuf] ++ [exBuf]) = none :=
  extra_slot (exCfg true) (by decide) (by decide) [exBuf, exBuf] rfl exBuf

theorem exSees (j : Nat) : SeesSource (exCfg false) exBuf 0 j exStokes := by
  intro i _ p _
  simp only [exCfg, exBuf, Option.map_some, Option.some.injEq]
  ext <;> simp

theorem exClean (j : Nat) : Clean (exCfg false) exBuf 0 j := by
  intro i _ p _
  refine ⟨rfl, ?_⟩
  have : (0 : ℚ) ≤ (i : ℚ) := Nat.cast_nonneg i
  simp only [weightsOf, exCfg, exBuf]
  simp
  linarith

example : pixel (exCfg false) exBuf 0 1 0 = some ((exStokes 0).divReal 2).normSq :=
  flux_divided (exCfg false) exBuf 0 1 exStokes (by decide) (exSees 1) (exClean 1) 0 (by decide)

example : ((exStokes 0).divReal 2).normSq = 4 ∧ (exStokes 0).normSq = 16 := by decide +kernel

example := not_average (exCfg false) exBuf 0 1 0 exStokes (by decide) (exSees 1) (exClean 1)
  (by decide) (by decide +kernel)

example : pixel { exCfg false with nBl := 1 } exBuf 0 1 3 = some (exStokes 3).normSq :=
  flux_partial { exCfg false with nBl := 1 } exBuf 0 1 exStokes rfl
    (fun i hi => exSees 1 i (by simp only at hi; show i < 2; omega))
    (fun i hi => exClean 1 i (by simp only at hi; show i < 2; omega)) 3 (by decide)

example : ∃ s, run (exCfg false) init [exBuf, exBuf] = some (s, [exBuf, exBuf]) :=
  forwarded_partial (exCfg false) rfl _ (by decide)

example := forwarded_subtracted (exCfg true) rfl [exBuf] (by decide)

example : (subtracted (exCfg true) exBuf).data 1 0 0 = some ⟨3, 0⟩ ∧
    exBuf.data 1 0 0 = some ⟨4, 0⟩ := by decide +kernel

example : obsId "L12345_SB001_uv.MS".toList = some "12345_".toList :=
  obsId_underscore "12345".toList "SB001_uv.MS".toList (by decide)

end DP3.DynSpec
