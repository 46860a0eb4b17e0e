import Verif.Estimate.Lemmas
import Mathlib.Algebra.Order.Field.Basic
import Mathlib.Data.Rat.Defs
import Mathlib.Tactic.FieldSimp
import Mathlib.Tactic.Positivity
import Mathlib.Algebra.Order.BigOperators.Group.List

/-!
# Property C127: the gains of the demixer solve the least squares problem of the mixed sources
-/

namespace DP3.Estimate

set_option linter.unusedSimpArgs false
set_option linter.unusedSectionVars false

variable {K : Type}

section Ring
variable [CommRing K]

/-! ## The numbers of the unknowns -/

private theorem indexDirs_eq (nSt n : ℕ) : ∀ a b : ℕ, indexDirs nSt n a b =
    (List.range n).flatMap fun dr => indexGroup (a + dr * nSt * 8) (b + dr * nSt * 8) := by
  induction n with
  | zero => intro a b; rfl
  | succ n ih =>
    intro a b
    rw [indexDirs, ih, List.range_succ_eq_map, List.flatMap_cons, List.flatMap_map]
    simp only [Nat.zero_mul, Nat.add_zero]
    congr 2
    funext dr
    have : ∀ z : ℕ, z + nSt * 8 + dr * nSt * 8 = z + (dr + 1) * nSt * 8 := by intro z; ring
    rw [this, this]

private theorem indexDirs_length (nSt n a b : ℕ) : (indexDirs nSt n a b).length = n * 8 := by
  rw [indexDirs_eq]
  simp [List.length_flatMap, indexGroup]

private theorem slice_eq (nDir nSt p q cr : ℕ) (h : cr < 4) :
    ((makeIndex nDir nSt (p, q)).drop (cr * (nDir * 8))).take (nDir * 8) = indexDirs nSt nDir (p * 8 + (cr / 2) * 4) (q * 8 + (cr % 2) * 4) := by
  have e : makeIndex nDir nSt (p, q) = indexDirs nSt nDir (p * 8 + (0 / 2) * 4) (q * 8 + (0 % 2) * 4) ++ (indexDirs nSt nDir (p * 8 + (1 / 2) * 4) (q * 8 + (1 % 2) * 4)
      ++ (indexDirs nSt nDir (p * 8 + (2 / 2) * 4) (q * 8 + (2 % 2) * 4) ++ indexDirs nSt nDir (p * 8 + (3 / 2) * 4) (q * 8 + (3 % 2) * 4))) := by
    simp [makeIndex, List.range_succ]
  rw [e]
  have l : ∀ a b, (indexDirs nSt nDir a b).length = nDir * 8 := fun a b => indexDirs_length _ _ _ _
  have dr : ∀ (x y : List ℕ) (k : ℕ), x.length = nDir * 8 → (x ++ y).drop ((k + 1) * (nDir * 8)) = y.drop (k * (nDir * 8)) := by
    intro x y k hx
    rw [List.drop_append]
    have : (k + 1) * (nDir * 8) - x.length = k * (nDir * 8) := by rw [hx, Nat.succ_mul]; omega
    rw [this, List.drop_eq_nil_of_le (by rw [hx, Nat.succ_mul]; omega), List.nil_append]
  have tk : ∀ x y : List ℕ, x.length = nDir * 8 → (x ++ y).take (nDir * 8) = x := by
    intro x y hx
    rw [← hx, List.take_left]
  match cr, h with
  | 0, _ => rw [Nat.zero_mul, List.drop_zero, tk _ _ (l _ _)]
  | 1, _ => rw [dr _ _ 0 (l _ _), Nat.zero_mul, List.drop_zero, tk _ _ (l _ _)]
  | 2, _ => rw [dr _ _ 1 (l _ _), dr _ _ 0 (l _ _), Nat.zero_mul, List.drop_zero, tk _ _ (l _ _)]
  | 3, _ =>
    rw [dr _ _ 2 (l _ _), dr _ _ 1 (l _ _), dr _ _ 0 (l _ _), Nat.zero_mul, List.drop_zero]
    have := tk (indexDirs nSt nDir (p * 8 + (3 / 2) * 4) (q * 8 + (3 % 2) * 4)) [] (l _ _)
    rwa [List.append_nil] at this

private theorem group_mem (a b i : ℕ) : i ∈ indexGroup a b ↔ (a ≤ i ∧ i < a + 4) ∨ (b ≤ i ∧ i < b + 4) := by
  simp only [indexGroup, List.mem_cons, List.not_mem_nil, or_false]
  omega

/-- **C127**: the numbers of the unknowns of a visibility: as many as there are coefficients, all of them unknowns of
the two stations, and none twice. -/
theorem makeIndex_slice (nDir nSt p q cr : ℕ) (hp : p < nSt) (hq : q < nSt) (h : cr < 4) :
    (((makeIndex nDir nSt (p, q)).drop (cr * (nDir * 8))).take (nDir * 8)).length = nDir * 8 ∧
    (∀ i ∈ ((makeIndex nDir nSt (p, q)).drop (cr * (nDir * 8))).take (nDir * 8),
      i < nUnknowns nDir nSt ∧ (i / 8 % nSt = p ∨ i / 8 % nSt = q)) ∧
    (p ≠ q → (((makeIndex nDir nSt (p, q)).drop (cr * (nDir * 8))).take (nDir * 8)).Nodup) := by
  rw [slice_eq _ _ _ _ _ h]
  have h2 : cr / 2 < 2 := by omega
  have h3 : cr % 2 < 2 := by omega
  have hsplit : ∀ (dr s z : ℕ), s < nSt → z < 8 → s * 8 + z + dr * nSt * 8 = (dr * nSt + s) * 8 + z := by
    intro dr s z _ _; ring
  have bounds : ∀ dr i : ℕ, i ∈ indexGroup (p * 8 + (cr / 2) * 4 + dr * nSt * 8) (q * 8 + (cr % 2) * 4 + dr * nSt * 8) →
      (i / 8 = dr * nSt + p ∨ i / 8 = dr * nSt + q) := by
    intro dr i hi
    rw [group_mem] at hi
    have e1 : dr * nSt * 8 = 8 * (dr * nSt) := by ring
    rw [e1] at hi
    omega
  refine ⟨indexDirs_length _ _ _ _, ?_, ?_⟩
  · intro i hi
    rw [indexDirs_eq, List.mem_flatMap] at hi
    obtain ⟨dr, hdr, hi⟩ := hi
    rw [List.mem_range] at hdr
    have hb := bounds dr i hi
    have hle : (dr + 1) * nSt ≤ nDir * nSt := Nat.mul_le_mul_right _ hdr
    rw [Nat.succ_mul] at hle
    refine ⟨?_, ?_⟩
    · unfold nUnknowns
      rcases hb with hb | hb <;> omega
    · rcases hb with hb | hb
      · left; rw [hb, Nat.mul_comm, Nat.mul_add_mod, Nat.mod_eq_of_lt hp]
      · right; rw [hb, Nat.mul_comm, Nat.mul_add_mod, Nat.mod_eq_of_lt hq]
  · intro hpq
    rw [indexDirs_eq, List.nodup_flatMap]
    refine ⟨?_, ?_⟩
    · intro dr _
      simp only [indexGroup, List.nodup_cons, List.mem_cons, List.not_mem_nil, or_false, not_false_eq_true, List.nodup_nil, and_true, not_or]
      omega
    · refine List.Pairwise.imp_of_mem ?_ List.nodup_range
      intro d1 d2 _ _ hne
      simp only [Function.onFun]
      intro i hi1 hi2
      have b1 := bounds d1 i hi1
      have b2 := bounds d2 i hi2
      apply hne
      have q1 : i / 8 / nSt = d1 := by
        rcases b1 with b | b
        · rw [b, Nat.mul_comm, Nat.mul_add_div (by omega), Nat.div_eq_of_lt hp, Nat.add_zero]
        · rw [b, Nat.mul_comm, Nat.mul_add_div (by omega), Nat.div_eq_of_lt hq, Nat.add_zero]
      have q2 : i / 8 / nSt = d2 := by
        rcases b2 with b | b
        · rw [b, Nat.mul_comm, Nat.mul_add_div (by omega), Nat.div_eq_of_lt hp, Nat.add_zero]
        · rw [b, Nat.mul_comm, Nat.mul_add_div (by omega), Nat.div_eq_of_lt hq, Nat.add_zero]
      rw [← q1, q2]

/-- The unknowns of correlation XY of baseline 0-1 with two directions and three stations. -/
example : ((makeIndex 2 3 (0, 1)).drop (1 * (2 * 8))).take (2 * 8) =
    [0, 1, 2, 3, 12, 13, 14, 15, 24, 25, 26, 27, 36, 37, 38, 39] := by decide

/-- With the same station twice an unknown occurs twice. -/
example : ¬ (((makeIndex 1 3 (1, 1)).drop (0 * (1 * 8))).take (1 * 8)).Nodup := by decide

/-! ## The prediction and its derivative -/

private theorem applied_entry (u : ℕ → K) (nSt dr p q cr : ℕ) (x : M2 K) (h : cr < 4) :
    (applied (jones u (dr * nSt * 8 + p * 8)) (jonesConj u (dr * nSt * 8 + q * 8)) x).getD cr 0 =
      entry (corrupted u nSt dr p q x) cr := by
  have e : ∀ s, dr * nSt * 8 + s * 8 = (dr * nSt + s) * 8 := by intro s; ring
  rw [e, e]
  match cr, h with
  | 0, _ => simp [applied, entry, corrupted, jones, jonesConj, M2.herm, Cx.ext_iff]; constructor <;> ring
  | 1, _ => simp [applied, entry, corrupted, jones, jonesConj, M2.herm, Cx.ext_iff]; constructor <;> ring
  | 2, _ => simp [applied, entry, corrupted, jones, jonesConj, M2.herm, Cx.ext_iff]; constructor <;> ring
  | 3, _ => simp [applied, entry, corrupted, jones, jonesConj, M2.herm, Cx.ext_iff]; constructor <;> ring

/-- The first order term of the visibility. -/
def lin (u δ : ℕ → K) (nSt dr p q : ℕ) (x : M2 K) : M2 K :=
  jones δ ((dr * nSt + p) * 8) * x * M2.herm (jones u ((dr * nSt + q) * 8)) +
    jones u ((dr * nSt + p) * 8) * x * M2.herm (jones δ ((dr * nSt + q) * 8))

private theorem corrupted_moved (u δ : ℕ → K) (t : K) (nSt dr p q cr : ℕ) (x : M2 K) (h : cr < 4) :
    entry (corrupted (moved u δ t) nSt dr p q x) cr = entry (corrupted u nSt dr p q x) cr +
      Cx.ofReal t * entry (lin u δ nSt dr p q x) cr + Cx.ofReal (t * t) * entry (corrupted δ nSt dr p q x) cr := by
  match cr, h with
  | 0, _ => simp [lin, entry, corrupted, jones, moved, M2.herm, Cx.ext_iff]; constructor <;> ring
  | 1, _ => simp [lin, entry, corrupted, jones, moved, M2.herm, Cx.ext_iff]; constructor <;> ring
  | 2, _ => simp [lin, entry, corrupted, jones, moved, M2.herm, Cx.ext_iff]; constructor <;> ring
  | 3, _ => simp [lin, entry, corrupted, jones, moved, M2.herm, Cx.ext_iff]; constructor <;> ring

private theorem group_R (u δ : ℕ → K) (nSt dr p q cr : ℕ) (x : M2 K) (w : Cx K) (h : cr < 4) :
    (((indexGroup (p * 8 + (cr / 2) * 4 + dr * nSt * 8) (q * 8 + (cr % 2) * 4 + dr * nSt * 8)).zip
      (coefR w (derivatives (jones u (dr * nSt * 8 + p * 8)) (jonesConj u (dr * nSt * 8 + q * 8)) x) cr)).map
        fun a => a.2 * δ a.1).sum = (w * entry (lin u δ nSt dr p q x) cr).re := by
  have e : ∀ s, dr * nSt * 8 + s * 8 = (dr * nSt + s) * 8 := by intro s; ring
  have e2 : ∀ s z, s * 8 + z + dr * nSt * 8 = (dr * nSt + s) * 8 + z := by intro s z; ring
  rw [e, e, e2, e2]
  match cr, h with
  | 0, _ => simp [indexGroup, coefR, derivatives, lin, entry, jones, jonesConj, M2.herm, add_assoc]; ring
  | 1, _ => simp [indexGroup, coefR, derivatives, lin, entry, jones, jonesConj, M2.herm, add_assoc]; ring
  | 2, _ => simp [indexGroup, coefR, derivatives, lin, entry, jones, jonesConj, M2.herm, add_assoc]; ring
  | 3, _ => simp [indexGroup, coefR, derivatives, lin, entry, jones, jonesConj, M2.herm, add_assoc]; ring

private theorem group_I (u δ : ℕ → K) (nSt dr p q cr : ℕ) (x : M2 K) (w : Cx K) (h : cr < 4) :
    (((indexGroup (p * 8 + (cr / 2) * 4 + dr * nSt * 8) (q * 8 + (cr % 2) * 4 + dr * nSt * 8)).zip
      (coefI w (derivatives (jones u (dr * nSt * 8 + p * 8)) (jonesConj u (dr * nSt * 8 + q * 8)) x) cr)).map
        fun a => a.2 * δ a.1).sum = (w * entry (lin u δ nSt dr p q x) cr).im := by
  have e : ∀ s, dr * nSt * 8 + s * 8 = (dr * nSt + s) * 8 := by intro s; ring
  have e2 : ∀ s z, s * 8 + z + dr * nSt * 8 = (dr * nSt + s) * 8 + z := by intro s z; ring
  rw [e, e, e2, e2]
  match cr, h with
  | 0, _ => simp [indexGroup, coefI, derivatives, lin, entry, jones, jonesConj, M2.herm, add_assoc]; ring
  | 1, _ => simp [indexGroup, coefI, derivatives, lin, entry, jones, jonesConj, M2.herm, add_assoc]; ring
  | 2, _ => simp [indexGroup, coefI, derivatives, lin, entry, jones, jonesConj, M2.herm, add_assoc]; ring
  | 3, _ => simp [indexGroup, coefI, derivatives, lin, entry, jones, jonesConj, M2.herm, add_assoc]; ring

private theorem zip_flatMap {A B C : Type} (f : C → List A) (g : C → List B) (l : List C) (h : ∀ c, (f c).length = (g c).length) :
    (l.flatMap f).zip (l.flatMap g) = l.flatMap fun c => (f c).zip (g c) := by
  induction l with
  | nil => rfl
  | cons c l ih => rw [List.flatMap_cons, List.flatMap_cons, List.flatMap_cons, List.zip_append (h c), ih]

private theorem sum_re (l : List (Cx K)) : l.sum.re = (l.map Cx.re).sum := by
  induction l with
  | nil => rfl
  | cons a l ih => simp [ih]

private theorem sum_im (l : List (Cx K)) : l.sum.im = (l.map Cx.im).sum := by
  induction l with
  | nil => rfl
  | cons a l ih => simp [ih]

private theorem sum_flatMap' {A : Type} (f : A → List K) (l : List A) : (l.flatMap f).sum = (l.map fun a => (f a).sum).sum := by
  induction l with
  | nil => rfl
  | cons a l ih => simp [ih]

/-- The first order term of the prediction of a datum. -/
def linOf (mem : Mem K) (c : Curs) (nDir nSt : ℕ) (u δ : ℕ → K) (d : Datum) : Cx K :=
  ((List.range nDir).map fun dr => mem.mix (mixPlace c.mix d.bl d.ch d.cr dr d.tg) *
    entry (lin u δ nSt dr (pair mem c d.bl).1 (pair mem c d.bl).2 (modelVis mem c d.bl d.ch dr)) d.cr).sum

theorem predicted_moved (mem : Mem K) (c : Curs) (nDir nSt : ℕ) (u δ : ℕ → K) (t : K) (d : Datum) (h : d.cr < 4) :
    predicted mem c nDir nSt (moved u δ t) d = predicted mem c nDir nSt u d + Cx.ofReal t * linOf mem c nDir nSt u δ d +
      Cx.ofReal (t * t) * predicted mem c nDir nSt δ d := by
  unfold predicted linOf
  generalize List.range nDir = l
  induction l with
  | nil => simp
  | cons a l ih =>
    rw [List.map_cons, List.map_cons, List.map_cons, List.map_cons, List.sum_cons, List.sum_cons, List.sum_cons, List.sum_cons, ih,
      corrupted_moved _ _ _ _ _ _ _ _ _ h]
    ring

/-- The data of the problem have a correlation, a baseline, a channel and a direction in range. -/
theorem used_mem (mem : Mem K) (c : Curs) (nDir nBl nCh : ℕ) (d : Datum) :
    d ∈ used mem c nDir nBl nCh ↔ d.bl < nBl ∧ d.ch < nCh ∧ d.cr < 4 ∧ d.tg < nDir ∧
      (pair mem c d.bl).1 ≠ (pair mem c d.bl).2 ∧ mem.flag (place c.flag d.bl d.ch d.cr) = false := by
  unfold used
  simp only [List.mem_flatMap, List.mem_range]
  constructor
  · rintro ⟨bl, h1, ch, h2, cr, h3, h⟩
    split at h
    · rename_i hc
      rw [List.mem_map] at h
      obtain ⟨tg, h4, rfl⟩ := h
      exact ⟨h1, h2, h3, List.mem_range.mp h4, hc.1, hc.2⟩
    · simp at h
  · rintro ⟨h1, h2, h3, h4, h5, h6⟩
    refine ⟨_, h1, _, h2, _, h3, ?_⟩
    rw [if_pos ⟨h5, h6⟩, List.mem_map]
    exact ⟨d.tg, List.mem_range.mpr h4, rfl⟩

private theorem visOf_eq (mem : Mem K) (c : Curs) (nDir nSt : ℕ) (u : ℕ → K) (d : Datum) (h : d.cr < 4) :
    visOf mem c nSt u d.bl d.ch d.cr d.tg (pair mem c d.bl).1 (pair mem c d.bl).2 nDir = predicted mem c nDir nSt u d := by
  unfold visOf predicted
  congr 2
  funext dr
  rw [applied_entry _ _ _ _ _ _ _ h]

theorem datumRows_eq (mem : Mem K) (c : Curs) (nDir nSt : ℕ) (u : ℕ → K) (d : Datum) (h : d.cr < 4) :
    ∃ r i : Row K, datumRows mem c nDir nSt u d.bl d.ch d.cr d.tg = [r, i] ∧
      r.weight = weightOf mem c d ∧ i.weight = weightOf mem c d ∧
      r.obs = (observed mem c d - predicted mem c nDir nSt u d).re ∧
      i.obs = (observed mem c d - predicted mem c nDir nSt u d).im ∧
      (∀ δ, dot r δ = (linOf mem c nDir nSt u δ d).re) ∧ (∀ δ, dot i δ = (linOf mem c nDir nSt u δ d).im) ∧
      (r.index = ((makeIndex nDir nSt (pair mem c d.bl)).drop (d.cr * (nDir * 8))).take (nDir * 8)) ∧ i.index = r.index := by
  refine ⟨_, _, rfl, rfl, rfl, ?_, ?_, ?_, ?_, rfl, rfl⟩
  · rw [← visOf_eq _ _ _ _ _ _ h]; rfl
  · rw [← visOf_eq _ _ _ _ _ _ h]; rfl
  · intro δ
    simp only [dot]
    rw [slice_eq _ _ _ _ _ h, indexDirs_eq]
    unfold coefs
    rw [zip_flatMap _ _ _ (by intro dr; rfl), List.map_flatMap, sum_flatMap']
    unfold linOf
    rw [sum_re, List.map_map]
    congr 2
    funext dr
    exact group_R _ _ _ _ _ _ _ _ _ h
  · intro δ
    simp only [dot]
    rw [slice_eq _ _ _ _ _ h, indexDirs_eq]
    unfold coefs
    rw [zip_flatMap _ _ _ (by intro dr; rfl), List.map_flatMap, sum_flatMap']
    unfold linOf
    rw [sum_im, List.map_map]
    congr 2
    funext dr
    exact group_I _ _ _ _ _ _ _ _ _ h

theorem equations_eq (mem : Mem K) (c : Curs) (nDir nSt nBl nCh : ℕ) (u : ℕ → K) :
    equations mem c nDir nSt nBl nCh u = (used mem c nDir nBl nCh).flatMap fun d => datumRows mem c nDir nSt u d.bl d.ch d.cr d.tg := by
  rw [equations, iteration_eq]

/-- A sum over the equations is a sum over the data. -/
theorem rows_sum (mem : Mem K) (c : Curs) (nDir nSt : ℕ) (u : ℕ → K) (f : Row K → K) (g : Datum → K) (l : List Datum)
    (h : ∀ d ∈ l, ((datumRows mem c nDir nSt u d.bl d.ch d.cr d.tg).map f).sum = g d) :
    ((l.flatMap fun d => datumRows mem c nDir nSt u d.bl d.ch d.cr d.tg).map f).sum = (l.map g).sum := by
  induction l with
  | nil => rfl
  | cons d l ih =>
    rw [List.flatMap_cons, List.map_append, List.sum_append, List.map_cons, List.sum_cons, h d List.mem_cons_self,
      ih (fun d' hd' => h d' (List.mem_cons_of_mem _ hd'))]

theorem rows_range (mem : Mem K) (c : Curs) (nDir nSt nBl nCh : ℕ) (u : ℕ → K)
    (hst : ∀ bl < nBl, (pair mem c bl).1 < nSt ∧ (pair mem c bl).2 < nSt) :
    ∀ r ∈ equations mem c nDir nSt nBl nCh u, ∀ i ∈ r.index, i < nUnknowns nDir nSt := by
  intro r hr i hi
  rw [equations_eq, List.mem_flatMap] at hr
  obtain ⟨d, hd, hr⟩ := hr
  rw [used_mem] at hd
  obtain ⟨a, b, e, _, _, _, _, _, _, hi1, hi2⟩ := datumRows_eq mem c nDir nSt u d hd.2.2.1
  have hx : r.index = ((makeIndex nDir nSt ((pair mem c d.bl).1, (pair mem c d.bl).2)).drop (d.cr * (nDir * 8))).take (nDir * 8) := by
    rw [e] at hr
    simp only [List.mem_cons, List.not_mem_nil, or_false] at hr
    rcases hr with rfl | rfl
    · exact hi1
    · rw [hi2]; exact hi1
  rw [hx] at hi
  exact ((makeIndex_slice nDir nSt _ _ d.cr (hst _ hd.1).1 (hst _ hd.1).2 hd.2.2.1).2.1 i hi).1

private theorem known_sum (mem : Mem K) (c : Curs) (nDir nSt nBl nCh : ℕ) (u δ : ℕ → K)
    (hst : ∀ bl < nBl, (pair mem c bl).1 < nSt ∧ (pair mem c bl).2 < nSt) :
    (∑ i ∈ Finset.range (nUnknowns nDir nSt), known (equations mem c nDir nSt nBl nCh u) i * δ i) =
      ((used mem c nDir nBl nCh).map fun d => weightOf mem c d * ((observed mem c d - predicted mem c nDir nSt u d).re * (linOf mem c nDir nSt u δ d).re +
        (observed mem c d - predicted mem c nDir nSt u d).im * (linOf mem c nDir nSt u δ d).im)).sum := by
  rw [known_dot _ _ (rows_range mem c nDir nSt nBl nCh u hst), equations_eq]
  apply rows_sum
  intro d hd
  rw [used_mem] at hd
  obtain ⟨a, b, e, h1, h2, h3, h4, h5, h6, _, _⟩ := datumRows_eq mem c nDir nSt u d hd.2.2.1
  rw [e]
  simp only [List.map_cons, List.map_nil, List.sum_cons, List.sum_nil, h1, h2, h3, h4, h5, h6]
  ring

private theorem normal_sum (mem : Mem K) (c : Curs) (nDir nSt nBl nCh : ℕ) (u δ ε : ℕ → K)
    (hst : ∀ bl < nBl, (pair mem c bl).1 < nSt ∧ (pair mem c bl).2 < nSt) :
    (∑ i ∈ Finset.range (nUnknowns nDir nSt), (∑ j ∈ Finset.range (nUnknowns nDir nSt), normal (equations mem c nDir nSt nBl nCh u) i j * δ j) * ε i) =
      ((used mem c nDir nBl nCh).map fun d => weightOf mem c d * ((linOf mem c nDir nSt u δ d).re * (linOf mem c nDir nSt u ε d).re +
        (linOf mem c nDir nSt u δ d).im * (linOf mem c nDir nSt u ε d).im)).sum := by
  have hr := rows_range mem c nDir nSt nBl nCh u hst
  have e : ∀ i, (∑ j ∈ Finset.range (nUnknowns nDir nSt), normal (equations mem c nDir nSt nBl nCh u) i j * δ j) =
      known ((equations mem c nDir nSt nBl nCh u).map fun r => { r with obs := dot r δ }) i := fun i => normal_row _ _ hr δ i
  simp only [e]
  rw [known_dot _ _ (by
    intro r hr' i hi
    rw [List.mem_map] at hr'
    obtain ⟨r', h', rfl⟩ := hr'
    exact hr r' h' i hi), List.map_map, equations_eq]
  apply rows_sum
  intro d hd
  rw [used_mem] at hd
  obtain ⟨a, b, e, h1, h2, h3, h4, h5, h6, _, _⟩ := datumRows_eq mem c nDir nSt u d hd.2.2.1
  rw [e]
  have g1 : ∀ z, dot { a with obs := z } ε = dot a ε := fun _ => rfl
  have g2 : ∀ z, dot { b with obs := z } ε = dot b ε := fun _ => rfl
  simp only [List.map_cons, List.map_nil, List.sum_cons, List.sum_nil, Function.comp_def, g1, g2]
  rw [h1, h2, h5, h5, h6, h6]
  ring

private theorem list_sum_lin {A : Type} (l : List A) (f0 f1 f2 f3 f4 f5 : A → K) (t : K) :
    (l.map fun a => f0 a - 2 * t * f1 a + t ^ 2 * (f2 a - 2 * f3 a) + t ^ 3 * f4 a + t ^ 4 * f5 a).sum =
      (l.map f0).sum - 2 * t * (l.map f1).sum + t ^ 2 * ((l.map f2).sum - 2 * (l.map f3).sum) + t ^ 3 * (l.map f4).sum + t ^ 4 * (l.map f5).sum := by
  induction l with
  | nil => simp
  | cons a l ih => simp only [List.map_cons, List.sum_cons, ih]; ring

/-- **C127**: the known side of the normal equations is minus half the gradient of the weighted sum of squared
residuals over the cross-correlations that are not flagged, and the normal matrix is half its second derivative as
far as the prediction is linear in the gains, exactly so where the residuals are zero. -/
theorem equations_gradient (mem : Mem K) (c : Curs) (nDir nSt nBl nCh : ℕ) (u δ : ℕ → K)
    (hst : ∀ bl < nBl, (pair mem c bl).1 < nSt ∧ (pair mem c bl).2 < nSt) :
    ∃ b e f : K, (∀ t, chi2 mem c nDir nSt nBl nCh (moved u δ t) = chi2 mem c nDir nSt nBl nCh u -
        2 * t * (∑ i ∈ Finset.range (nUnknowns nDir nSt), known (equations mem c nDir nSt nBl nCh u) i * δ i) +
        t ^ 2 * ((∑ i ∈ Finset.range (nUnknowns nDir nSt), (∑ j ∈ Finset.range (nUnknowns nDir nSt),
          normal (equations mem c nDir nSt nBl nCh u) i j * δ j) * δ i) - 2 * b) + t ^ 3 * e + t ^ 4 * f) ∧
      ((∀ d ∈ used mem c nDir nBl nCh, observed mem c d = predicted mem c nDir nSt u d) → b = 0) := by
  rw [known_sum mem c nDir nSt nBl nCh u δ hst, normal_sum mem c nDir nSt nBl nCh u δ δ hst]
  refine ⟨((used mem c nDir nBl nCh).map fun d => weightOf mem c d * ((observed mem c d - predicted mem c nDir nSt u d).re * (predicted mem c nDir nSt δ d).re +
        (observed mem c d - predicted mem c nDir nSt u d).im * (predicted mem c nDir nSt δ d).im)).sum,
    ((used mem c nDir nBl nCh).map fun d => weightOf mem c d * (2 * ((linOf mem c nDir nSt u δ d).re * (predicted mem c nDir nSt δ d).re +
        (linOf mem c nDir nSt u δ d).im * (predicted mem c nDir nSt δ d).im))).sum,
    ((used mem c nDir nBl nCh).map fun d => weightOf mem c d * (predicted mem c nDir nSt δ d).normSq).sum, ?_, ?_⟩
  · intro t
    unfold chi2
    rw [← list_sum_lin]
    congr 1
    apply List.map_congr_left
    intro d hd
    rw [used_mem] at hd
    rw [predicted_moved _ _ _ _ _ _ _ _ hd.2.2.1]
    simp only [Cx.normSq, Cx.sub_re, Cx.sub_im, Cx.add_re, Cx.add_im, Cx.mul_re, Cx.mul_im, Cx.ofReal_re, Cx.ofReal_im]
    ring
  · intro h
    have : ((used mem c nDir nBl nCh).map fun d => weightOf mem c d * ((observed mem c d - predicted mem c nDir nSt u d).re * (predicted mem c nDir nSt δ d).re +
        (observed mem c d - predicted mem c nDir nSt u d).im * (predicted mem c nDir nSt δ d).im)) = (used mem c nDir nBl nCh).map fun _ => (0 : K) := by
      apply List.map_congr_left
      intro d hd
      rw [h d hd]
      simp
    rw [this]
    simp

/-- **C127**: where the gains explain the data, the known side is zero: they are a stationary point. -/
theorem equations_stationary (mem : Mem K) (c : Curs) (nDir nSt nBl nCh : ℕ) (u : ℕ → K)
    (h : ∀ d ∈ used mem c nDir nBl nCh, observed mem c d = predicted mem c nDir nSt u d) (i : ℕ) :
    known (equations mem c nDir nSt nBl nCh u) i = 0 := by
  have hz : ∀ r ∈ equations mem c nDir nSt nBl nCh u, r.obs = 0 := by
    intro r hr
    rw [equations_eq, List.mem_flatMap] at hr
    obtain ⟨d, hd, hr⟩ := hr
    have hd' := (used_mem mem c nDir nBl nCh d).mp hd
    obtain ⟨a, b, e, _, _, h3, h4, _, _, _, _⟩ := datumRows_eq mem c nDir nSt u d hd'.2.2.1
    rw [e] at hr
    simp only [List.mem_cons, List.not_mem_nil, or_false] at hr
    rw [h d hd, sub_self] at h3 h4
    rcases hr with rfl | rfl
    · exact h3
    · exact h4
  unfold known
  have : ∀ l : List (Row K), (∀ r ∈ l, r.obs = 0) →
      (l.map fun r => ((r.index.zip r.coef).map fun a => if a.1 = i then r.weight * (a.2 * r.obs) else 0).sum).sum = 0 := by
    intro l hl
    induction l with
    | nil => rfl
    | cons r l ih =>
      rw [List.map_cons, List.sum_cons, ih (fun r' hr' => hl r' (List.mem_cons_of_mem _ hr')), hl r List.mem_cons_self]
      simp
  exact this _ hz

theorem lin_turn (u : ℕ → K) (nSt dir dr p q cr : ℕ) (x : M2 K) (hp : p < nSt) (hq : q < nSt) (h : cr < 4) :
    entry (lin u (turn u nSt dir) nSt dr p q x) cr = 0 := by
  have ht : ∀ s z, s < nSt → z < 8 → turn u nSt dir ((dr * nSt + s) * 8 + z) =
      if dr = dir then (if z % 2 = 0 then -u ((dr * nSt + s) * 8 + z + 1) else u ((dr * nSt + s) * 8 + z - 1)) else 0 := by
    intro s z hs hz
    unfold turn
    have e1 : ((dr * nSt + s) * 8 + z) / 8 / nSt = dr := by
      rw [show ((dr * nSt + s) * 8 + z) / 8 = dr * nSt + s by omega, Nat.mul_comm, Nat.mul_add_div (by omega), Nat.div_eq_of_lt hs, Nat.add_zero]
    have e2 : ((dr * nSt + s) * 8 + z) % 2 = z % 2 := by omega
    rw [e1, e2]
  have j : ∀ s, s < nSt → jones (turn u nSt dir) ((dr * nSt + s) * 8) = if dr = dir then
      M2.smul (jones u ((dr * nSt + s) * 8)) ⟨0, 1⟩ else 0 := by
    intro s hs
    have h0 := ht s 0 hs (by omega)
    rw [Nat.add_zero] at h0
    unfold jones
    rw [h0, ht s 1 hs (by omega), ht s 2 hs (by omega), ht s 3 hs (by omega), ht s 4 hs (by omega), ht s 5 hs (by omega),
      ht s 6 hs (by omega), ht s 7 hs (by omega)]
    by_cases hd : dr = dir
    · simp [hd, M2.smul, Cx.ext_iff]
    · simp [hd, M2.ext_iff, Cx.ext_iff]
  unfold lin
  rw [j p hp, j q hq]
  by_cases hd : dr = dir
  · rw [if_pos hd, if_pos hd]
    match cr, h with
    | 0, _ => simp [entry, M2.smul, M2.herm, Cx.ext_iff]; constructor <;> ring
    | 1, _ => simp [entry, M2.smul, M2.herm, Cx.ext_iff]; constructor <;> ring
    | 2, _ => simp [entry, M2.smul, M2.herm, Cx.ext_iff]; constructor <;> ring
    | 3, _ => simp [entry, M2.smul, M2.herm, Cx.ext_iff]; constructor <;> ring
  · rw [if_neg hd, if_neg hd]
    have e : (0 : M2 K) * x * M2.herm (jones u ((dr * nSt + q) * 8)) + jones u ((dr * nSt + p) * 8) * x * M2.herm 0 = 0 := by
      have : M2.herm (0 : M2 K) = 0 := by simp [M2.herm, M2.ext_iff]
      rw [this, zero_mul, zero_mul, mul_zero, add_zero]
    rw [e]
    match cr, h with
    | 0, _ => rfl
    | 1, _ => rfl
    | 2, _ => rfl
    | 3, _ => rfl

/-- Every equation is blind to the common phase of a direction. -/
theorem dot_turn (mem : Mem K) (c : Curs) (nDir nSt nBl nCh : ℕ) (u : ℕ → K) (dir : ℕ)
    (hst : ∀ bl < nBl, (pair mem c bl).1 < nSt ∧ (pair mem c bl).2 < nSt) :
    ∀ r ∈ equations mem c nDir nSt nBl nCh u, dot r (turn u nSt dir) = 0 := by
  intro r hr
  rw [equations_eq, List.mem_flatMap] at hr
  obtain ⟨d, hd, hr⟩ := hr
  have hd' := (used_mem mem c nDir nBl nCh d).mp hd
  obtain ⟨a, b, e, _, _, _, _, h5, h6, _, _⟩ := datumRows_eq mem c nDir nSt u d hd'.2.2.1
  have hl : linOf mem c nDir nSt u (turn u nSt dir) d = 0 := by
    unfold linOf
    apply List.sum_eq_zero
    intro z hz
    rw [List.mem_map] at hz
    obtain ⟨dr, _, rfl⟩ := hz
    rw [lin_turn _ _ _ _ _ _ _ _ (hst _ hd'.1).1 (hst _ hd'.1).2 hd'.2.2.1, mul_zero]
  rw [e] at hr
  simp only [List.mem_cons, List.not_mem_nil, or_false] at hr
  rcases hr with rfl | rfl
  · rw [h5, hl]; rfl
  · rw [h6, hl]; rfl

/-- **C127**: the normal matrix is always singular: the phase common to all gains of a direction is not determined,
whatever the data. The solution is therefore the one that the singular value decomposition picks. -/
theorem equations_singular (mem : Mem K) (c : Curs) (nDir nSt nBl nCh : ℕ) (u : ℕ → K) (dir i : ℕ)
    (hst : ∀ bl < nBl, (pair mem c bl).1 < nSt ∧ (pair mem c bl).2 < nSt) :
    (∑ j ∈ Finset.range (nUnknowns nDir nSt), normal (equations mem c nDir nSt nBl nCh u) i j * turn u nSt dir j) = 0 := by
  rw [normal_row _ _ (rows_range mem c nDir nSt nBl nCh u hst)]
  have hz := dot_turn mem c nDir nSt nBl nCh u dir hst
  unfold known
  rw [List.map_map]
  apply List.sum_eq_zero
  intro z hz'
  rw [List.mem_map] at hz'
  obtain ⟨r, hr, rfl⟩ := hz'
  simp [hz r hr]

/-- **C127**: the equations depend on nothing but the cross-correlations that are not flagged: flagged
visibilities and autocorrelations may hold anything. -/
theorem equations_same (a b : Mem K) (c : Curs) (nDir nSt nBl nCh : ℕ) (u : ℕ → K) (h : SameUsed a b c nDir nBl nCh) :
    equations a c nDir nSt nBl nCh u = equations b c nDir nSt nBl nCh u := by
  obtain ⟨hp, h⟩ := h
  have hu : used a c nDir nBl nCh = used b c nDir nBl nCh := by
    unfold used
    apply List.flatMap_congr
    intro bl hbl
    rw [List.mem_range] at hbl
    apply List.flatMap_congr
    intro ch hch
    rw [List.mem_range] at hch
    apply List.flatMap_congr
    intro cr hcr
    rw [List.mem_range] at hcr
    rw [← hp bl hbl]
    by_cases hne : (pair a c bl).1 ≠ (pair a c bl).2
    · rw [(h bl hbl hne ch hch cr hcr).1]
    · rw [if_neg (fun x => hne x.1), if_neg (fun x => hne x.1)]
  rw [equations_eq, equations_eq, ← hu]
  apply List.flatMap_congr
  intro d hd
  rw [used_mem] at hd
  obtain ⟨h1, h2, h3, h4, h5, h6⟩ := hd
  obtain ⟨hw, hall⟩ := (h d.bl h1 h5 d.ch h2 d.cr h3).2 h6
  have hm : ∀ dr < nDir, modelVis a c d.bl d.ch dr = modelVis b c d.bl d.ch dr := fun dr hdr => (hall dr hdr).1
  have hx : ∀ dr < nDir, a.mix (mixPlace c.mix d.bl d.ch d.cr dr d.tg) = b.mix (mixPlace c.mix d.bl d.ch d.cr dr d.tg) := (hall d.tg h4).2.2
  have hv : ∀ p q, visOf a c nSt u d.bl d.ch d.cr d.tg p q nDir = visOf b c nSt u d.bl d.ch d.cr d.tg p q nDir := by
    intro p q
    unfold visOf
    congr 1
    apply List.map_congr_left
    intro dr hdr
    rw [List.mem_range] at hdr
    rw [hx dr hdr, hm dr hdr]
  have hc : ∀ f p q, coefs f a c nSt u d.bl d.ch d.cr d.tg p q nDir = coefs f b c nSt u d.bl d.ch d.cr d.tg p q nDir := by
    intro f p q
    unfold coefs
    apply List.flatMap_congr
    intro dr hdr
    rw [List.mem_range] at hdr
    rw [hx dr hdr, hm dr hdr]
  simp only [datumRows, ← hp d.bl h1, ← hv, ← hc, (hall d.tg h4).2.1, hw]

/-- **C127**: after an iteration all cursors are back where they started. -/
theorem iteration_cursors (mem : Mem K) (c : Curs) (nDir nSt nBl nCh : ℕ) (u : ℕ → K) :
    (iteration mem nDir nSt nBl nCh u c).1 = c := by rw [iteration_eq]

/-- **C127**: `estimate` repeats the step of the solver on the equations at the gains of that moment, always from the
same data. It stops at the first step after which the solver is ready, and no later than after `maxiter` steps. -/
theorem estimate_iterates (mem : Mem K) (c : Curs) (nDir nSt nBl nCh : ℕ) (solve : List (Row K) → (ℕ → K) → (ℕ → K) × Bool)
    (maxiter : ℕ) (u : ℕ → K) :
    ∃ k ≤ maxiter,
      (estimate mem nDir nSt nBl nCh solve maxiter c u).1 = (fun v => (solve (equations mem c nDir nSt nBl nCh v) v).1)^[k] u ∧
      (∀ j, j + 1 < k → (solve (equations mem c nDir nSt nBl nCh ((fun v => (solve (equations mem c nDir nSt nBl nCh v) v).1)^[j] u))
        ((fun v => (solve (equations mem c nDir nSt nBl nCh v) v).1)^[j] u)).2 = false) ∧
      ((estimate mem nDir nSt nBl nCh solve maxiter c u).2 = true ↔ 0 < k ∧
        (solve (equations mem c nDir nSt nBl nCh ((fun v => (solve (equations mem c nDir nSt nBl nCh v) v).1)^[k - 1] u))
          ((fun v => (solve (equations mem c nDir nSt nBl nCh v) v).1)^[k - 1] u)).2 = true) ∧
      ((estimate mem nDir nSt nBl nCh solve maxiter c u).2 = false → k = maxiter) := by
  set g := fun v : ℕ → K => (solve (equations mem c nDir nSt nBl nCh v) v).1 with hg
  induction maxiter generalizing u with
  | zero => exact ⟨0, le_refl _, rfl, by intro j hj; omega, by simp [estimate], fun _ => rfl⟩
  | succ n ih =>
    have hs : estimate mem nDir nSt nBl nCh solve (n + 1) c u =
        if (solve (equations mem c nDir nSt nBl nCh u) u).2 then solve (equations mem c nDir nSt nBl nCh u) u
        else estimate mem nDir nSt nBl nCh solve n c (g u) := by
      rw [estimate]
      simp only [iteration_cursors]
      rfl
    rw [hs]
    by_cases hr : (solve (equations mem c nDir nSt nBl nCh u) u).2 = true
    · rw [if_pos hr]
      refine ⟨1, by omega, rfl, by intro j hj; omega, ?_, ?_⟩
      · simp [hr]
      · intro hf; rw [hr] at hf; simp at hf
    · rw [if_neg hr]
      obtain ⟨k, hk, h1, h2, h3, h4⟩ := ih (g u)
      refine ⟨k + 1, by omega, ?_, ?_, ?_, ?_⟩
      · rw [h1, Function.iterate_succ_apply]
      · intro j hj
        cases j with
        | zero => simpa using hr
        | succ j =>
          rw [Function.iterate_succ_apply]
          exact h2 j (by omega)
      · rw [h3]
        cases k with
        | zero => simp [hr]
        | succ k =>
          simp only [Nat.add_sub_cancel, Function.iterate_succ_apply]
          simp
      · intro hf
        rw [h4 hf]

end Ring

section Order
variable [Field K] [LinearOrder K] [IsStrictOrderedRing K]

/-- **C127**: a step that solves the normal equations goes downhill: unless the known side is zero, every small enough
part of the step lowers the weighted sum of squared residuals. -/
theorem step_descends (mem : Mem K) (c : Curs) (nDir nSt nBl nCh : ℕ) (u δ : ℕ → K)
    (hst : ∀ bl < nBl, (pair mem c bl).1 < nSt ∧ (pair mem c bl).2 < nSt)
    (hw : ∀ d ∈ used mem c nDir nBl nCh, 0 ≤ weightOf mem c d)
    (hδ : ∀ i < nUnknowns nDir nSt, (∑ j ∈ Finset.range (nUnknowns nDir nSt), normal (equations mem c nDir nSt nBl nCh u) i j * δ j) =
      known (equations mem c nDir nSt nBl nCh u) i)
    (hk : ∃ i < nUnknowns nDir nSt, known (equations mem c nDir nSt nBl nCh u) i ≠ 0) :
    ∃ ε > 0, ∀ t, 0 < t → t ≤ ε → chi2 mem c nDir nSt nBl nCh (moved u δ t) < chi2 mem c nDir nSt nBl nCh u := by
  obtain ⟨b, e, f, hx, _⟩ := equations_gradient mem c nDir nSt nBl nCh u δ hst
  set N := nUnknowns nDir nSt with hN
  set g := ∑ i ∈ Finset.range N, known (equations mem c nDir nSt nBl nCh u) i * δ i with hg
  have hgn : g = ∑ i ∈ Finset.range N, (∑ j ∈ Finset.range N, normal (equations mem c nDir nSt nBl nCh u) i j * δ j) * δ i := by
    rw [hg]
    apply Finset.sum_congr rfl
    intro i hi
    rw [hδ i (Finset.mem_range.mp hi)]
  have hpos : 0 < g := by
    have hsum := normal_sum mem c nDir nSt nBl nCh u δ δ hst
    rw [← hN, ← hgn] at hsum
    have hterm : ∀ z ∈ ((used mem c nDir nBl nCh).map fun d => weightOf mem c d * ((linOf mem c nDir nSt u δ d).re * (linOf mem c nDir nSt u δ d).re +
        (linOf mem c nDir nSt u δ d).im * (linOf mem c nDir nSt u δ d).im)), 0 ≤ z := by
      intro z hz
      rw [List.mem_map] at hz
      obtain ⟨d, hd, rfl⟩ := hz
      exact mul_nonneg (hw d hd) (Cx.normSq_nonneg _)
    have hge : 0 ≤ g := by rw [hsum]; exact List.sum_nonneg hterm
    rcases hge.lt_or_eq with h | h
    · exact h
    · exfalso
      obtain ⟨i, hi, hne⟩ := hk
      apply hne
      rw [← hδ i hi]
      -- every weighted first order term is zero
      have hzero : ∀ d ∈ used mem c nDir nBl nCh, weightOf mem c d = 0 ∨ linOf mem c nDir nSt u δ d = 0 := by
        intro d hd
        have hall : ∀ (l : List K), (∀ z ∈ l, 0 ≤ z) → l.sum = 0 → ∀ z ∈ l, z = 0 := by
          intro l
          induction l with
          | nil => intro _ _ z hz; simp at hz
          | cons a l ih =>
            intro h0 hs z hz
            rw [List.sum_cons] at hs
            have ha := h0 a List.mem_cons_self
            have hl := List.sum_nonneg (fun z hz => h0 z (List.mem_cons_of_mem _ hz))
            rcases List.mem_cons.mp hz with rfl | hz
            · linarith
            · exact ih (fun z hz => h0 z (List.mem_cons_of_mem _ hz)) (by linarith) z hz
        have := hall _ hterm (by rw [← hsum, ← h]) _ (List.mem_map_of_mem hd)
        rcases mul_eq_zero.mp this with h' | h'
        · exact Or.inl h'
        · exact Or.inr (Cx.normSq_eq_zero.mp h')
      rw [hN, normal_row _ _ (rows_range mem c nDir nSt nBl nCh u hst)]
      unfold known
      rw [List.map_map]
      apply List.sum_eq_zero
      intro z hz'
      rw [List.mem_map] at hz'
      obtain ⟨r, hr, rfl⟩ := hz'
      rw [equations_eq, List.mem_flatMap] at hr
      obtain ⟨d, hd, hr⟩ := hr
      have hd' := (used_mem mem c nDir nBl nCh d).mp hd
      obtain ⟨a, b, e, h1, h2, _, _, h5, h6, _, _⟩ := datumRows_eq mem c nDir nSt u d hd'.2.2.1
      rw [e] at hr
      simp only [List.mem_cons, List.not_mem_nil, or_false] at hr
      have hr0 : r.weight = 0 ∨ dot r δ = 0 := by
        rcases hzero d hd with h0 | h0
        · left
          rcases hr with rfl | rfl
          · rw [h1, h0]
          · rw [h2, h0]
        · right
          rcases hr with rfl | rfl
          · rw [h5, h0]; rfl
          · rw [h6, h0]; rfl
      rcases hr0 with h0 | h0
      · simp [h0]
      · simp [h0]
  have hS : 0 < |g - 2 * b| + |e| + |f| + 1 := by positivity
  refine ⟨min 1 (g / (|g - 2 * b| + |e| + |f| + 1)), lt_min one_pos (div_pos hpos hS), ?_⟩
  intro t ht hle
  have ht1 : t ≤ 1 := le_trans hle (min_le_left _ _)
  have ht2 : t * (|g - 2 * b| + |e| + |f| + 1) ≤ g := by
    have := le_trans hle (min_le_right _ _)
    rwa [le_div_iff₀ hS] at this
  rw [hx t, ← hgn]
  have b1 : t ^ 2 * (g - 2 * b) ≤ t ^ 2 * |g - 2 * b| := mul_le_mul_of_nonneg_left (le_abs_self _) (by positivity)
  have p3 : t ^ 3 ≤ t ^ 2 := by
    have : t ^ 3 = t ^ 2 * t := by ring
    rw [this]
    exact mul_le_of_le_one_right (by positivity) ht1
  have p4 : t ^ 4 ≤ t ^ 2 := by
    have : t ^ 4 = t ^ 2 * (t * t) := by ring
    rw [this]
    exact mul_le_of_le_one_right (by positivity) (by nlinarith)
  have b2 : t ^ 3 * e ≤ t ^ 2 * |e| := le_trans (mul_le_mul_of_nonneg_left (le_abs_self _) (by positivity)) (mul_le_mul_of_nonneg_right p3 (abs_nonneg _))
  have b3 : t ^ 4 * f ≤ t ^ 2 * |f| := le_trans (mul_le_mul_of_nonneg_left (le_abs_self _) (by positivity)) (mul_le_mul_of_nonneg_right p4 (abs_nonneg _))
  have b4 : t * (t * (|g - 2 * b| + |e| + |f| + 1)) ≤ t * g := mul_le_mul_of_nonneg_left ht2 ht.le
  have b5 : 0 < t ^ 2 := by positivity
  have b6 : 0 < t * g := mul_pos ht hpos
  nlinarith

end Order

section Subtract
variable [CommRing K]

/-! ## The subtraction -/

/-- The stations of a baseline in the list of `apply` and `subtract`. -/
private def stations (bl : ℤ → ℕ × ℕ) (c : Cur) (b : ℕ) : ℕ × ℕ := bl (c.pos + b * c.stride 0)

/-- The four correlations in an array. -/
private def visAt (m : ℤ → Cx K) (c : Cur) (b ch : ℕ) : M2 K := ⟨m (place c b ch 0), m (place c b ch 1), m (place c b ch 2), m (place c b ch 3)⟩

private theorem applied_getD (u : ℕ → K) (p q cr : ℕ) (x : M2 K) (h : cr < 4) :
    (applied (jones u (p * 8)) (jonesConj u (q * 8)) x).getD cr 0 = entry (jones u (p * 8) * x * M2.herm (jones u (q * 8))) cr := by
  match cr, h with
  | 0, _ => simp [applied, entry, jones, jonesConj, M2.herm, Cx.ext_iff]; constructor <;> ring
  | 1, _ => simp [applied, entry, jones, jonesConj, M2.herm, Cx.ext_iff]; constructor <;> ring
  | 2, _ => simp [applied, entry, jones, jonesConj, M2.herm, Cx.ext_iff]; constructor <;> ring
  | 3, _ => simp [applied, entry, jones, jonesConj, M2.herm, Cx.ext_iff]; constructor <;> ring

private theorem put_ne (m : ℤ → Cx K) (a b : ℤ) (v : Cx K) (h : b ≠ a) : put m a v b = m b := by simp [put, h]
private theorem put_eq (m : ℤ → Cx K) (a : ℤ) (v : Cx K) : put m a v a = v := by simp [put]

/-- The arrays are the same but for one baseline and the channels below a number, where they have a given value. -/
private def Changed (c : Cur) (b n : ℕ) (m m' : ℤ → Cx K) (new : ℕ → ℕ → Cx K) : Prop :=
  (∀ ch < n, ∀ cr < 4, m' (place c b ch cr) = new ch cr) ∧ ∀ a, (∀ ch < n, ∀ cr < 4, a ≠ place c b ch cr) → m' a = m a

private theorem apply_channels (u : ℕ → K) (c : Cur) (nBl nCh b p q : ℕ) (hb : b < nBl) (hA : Apart c nBl nCh) (m : ℤ → Cx K) (n : ℕ) (hn : n ≤ nCh) :
    ((List.range n).foldl (applyCh (jones u (p * 8)) (jonesConj u (q * 8))) (c.shift (b * c.stride 2), m)).1 = c.shift (b * c.stride 2 + n * c.stride 1) ∧
    Changed c b n m ((List.range n).foldl (applyCh (jones u (p * 8)) (jonesConj u (q * 8))) (c.shift (b * c.stride 2), m)).2
      (fun ch cr => entry (jones u (p * 8) * visAt m c b ch * M2.herm (jones u (q * 8))) cr) := by
  induction n with
  | zero => simp [Changed]
  | succ n ih =>
    obtain ⟨ih1, ih2, ih3⟩ := ih (by omega)
    rw [List.range_succ, List.foldl_append, List.foldl_cons, List.foldl_nil]
    set r := (List.range n).foldl (applyCh (jones u (p * 8)) (jonesConj u (q * 8))) (c.shift (b * c.stride 2), m) with hr
    have hidx : ∀ cr, r.1.index cr = place c b n cr := by
      intro cr
      rw [ih1]
      simp only [Cur.index, place, shift_pos, shift_stride]; ring
    have hold : ∀ cr < 4, r.2 (place c b n cr) = m (place c b n cr) := by
      intro cr hcr
      apply ih3
      intro ch hch cr' hcr' he
      have := hA b hb n (by omega) cr hcr b hb ch (by omega) cr' hcr' he
      omega
    have hne : ∀ i < 4, ∀ j < 4, i ≠ j → place c b n i ≠ place c b n j := by
      intro i hi j hj hij he
      exact hij (hA b hb n (by omega) i hi b hb n (by omega) j hj he).2.2
    have hx : (⟨r.2 (place c b n 0), r.2 (place c b n 1), r.2 (place c b n 2), r.2 (place c b n 3)⟩ : M2 K) = visAt m c b n := by
      rw [hold 0 (by omega), hold 1 (by omega), hold 2 (by omega), hold 3 (by omega)]; rfl
    unfold applyCh
    simp only [hidx, hx]
    refine ⟨?_, ?_, ?_⟩
    · rw [ih1, shift_forward]
      congr 1; push_cast; ring
    · intro ch hch cr hcr
      by_cases hlt : ch < n
      · have hd : ∀ j < 4, place c b ch cr ≠ place c b n j := by
          intro j hj he
          have := hA b hb ch (by omega) cr hcr b hb n (by omega) j hj he
          omega
        rw [put_ne _ _ _ _ (hd 3 (by omega)), put_ne _ _ _ _ (hd 2 (by omega)), put_ne _ _ _ _ (hd 1 (by omega)), put_ne _ _ _ _ (hd 0 (by omega))]
        exact ih2 ch hlt cr hcr
      · have : ch = n := by omega
        subst this
        have h4 : cr = 0 ∨ cr = 1 ∨ cr = 2 ∨ cr = 3 := by omega
        rcases h4 with rfl | rfl | rfl | rfl
        · rw [put_ne _ _ _ _ (hne 0 (by omega) 3 (by omega) (by omega)), put_ne _ _ _ _ (hne 0 (by omega) 2 (by omega) (by omega)),
            put_ne _ _ _ _ (hne 0 (by omega) 1 (by omega) (by omega)), put_eq, applied_getD _ _ _ _ _ (by omega)]
        · rw [put_ne _ _ _ _ (hne 1 (by omega) 3 (by omega) (by omega)), put_ne _ _ _ _ (hne 1 (by omega) 2 (by omega) (by omega)),
            put_eq, applied_getD _ _ _ _ _ (by omega)]
        · rw [put_ne _ _ _ _ (hne 2 (by omega) 3 (by omega) (by omega)), put_eq, applied_getD _ _ _ _ _ (by omega)]
        · rw [put_eq, applied_getD _ _ _ _ _ (by omega)]
    · intro a ha
      rw [put_ne _ _ _ _ (ha n (by omega) 3 (by omega)), put_ne _ _ _ _ (ha n (by omega) 2 (by omega)),
        put_ne _ _ _ _ (ha n (by omega) 1 (by omega)), put_ne _ _ _ _ (ha n (by omega) 0 (by omega))]
      exact ih3 a (fun ch hch cr hcr => ha ch (by omega) cr hcr)

/-- **C127**: `apply` multiplies the visibilities of every cross-correlation by the gains of its stations, and
changes nothing else. -/
theorem apply_gains (bl : ℤ → ℕ × ℕ) (u : ℕ → K) (nBl nCh : ℕ) (baselines c : Cur) (m : ℤ → Cx K) (hA : Apart c nBl nCh) :
    (∀ b < nBl, ∀ ch < nCh, ∀ cr < 4, apply bl u nBl nCh baselines c m (place c b ch cr) =
      if (bl (baselines.pos + b * baselines.stride 0)).1 ≠ (bl (baselines.pos + b * baselines.stride 0)).2 then
        entry (jones u ((bl (baselines.pos + b * baselines.stride 0)).1 * 8) *
          ⟨m (place c b ch 0), m (place c b ch 1), m (place c b ch 2), m (place c b ch 3)⟩ *
          M2.herm (jones u ((bl (baselines.pos + b * baselines.stride 0)).2 * 8))) cr
      else m (place c b ch cr)) ∧
    ∀ a, (∀ b < nBl, ∀ ch < nCh, ∀ cr < 4, a ≠ place c b ch cr) → apply bl u nBl nCh baselines c m a = m a := by
  have key : ∀ n ≤ nBl,
      ((List.range n).foldl (applyBl bl u nCh) (baselines, c, m)).1 = baselines.shift (n * baselines.stride 0) ∧
      ((List.range n).foldl (applyBl bl u nCh) (baselines, c, m)).2.1 = c.shift (n * c.stride 2) ∧
      (∀ b < n, ∀ ch < nCh, ∀ cr < 4, ((List.range n).foldl (applyBl bl u nCh) (baselines, c, m)).2.2 (place c b ch cr) =
        if (stations bl baselines b).1 ≠ (stations bl baselines b).2 then
          entry (jones u ((stations bl baselines b).1 * 8) * visAt m c b ch * M2.herm (jones u ((stations bl baselines b).2 * 8))) cr
        else m (place c b ch cr)) ∧
      ∀ a, (∀ b < n, ∀ ch < nCh, ∀ cr < 4, a ≠ place c b ch cr) → ((List.range n).foldl (applyBl bl u nCh) (baselines, c, m)).2.2 a = m a := by
    intro n
    induction n with
    | zero => intro _; simp [shift_zero]
    | succ n ih =>
      intro hn
      obtain ⟨ih1, ih2, ih3, ih4⟩ := ih (by omega)
      rw [List.range_succ, List.foldl_append, List.foldl_cons, List.foldl_nil]
      obtain ⟨r1, r2, r3, hr⟩ : ∃ r1 r2 r3, (List.range n).foldl (applyBl bl u nCh) (baselines, c, m) = (r1, r2, r3) := ⟨_, _, _, rfl⟩
      rw [hr] at ih1 ih2 ih3 ih4 ⊢
      simp only at ih1 ih2 ih3 ih4
      subst ih1 ih2
      have hst : bl (baselines.shift (n * baselines.stride 0)).pos = stations bl baselines n := rfl
      have hold : ∀ ch < nCh, ∀ cr < 4, r3 (place c n ch cr) = m (place c n ch cr) := by
        intro ch hch cr hcr
        apply ih4
        intro b hb ch' hch' cr' hcr' he
        have := hA n (by omega) ch hch cr hcr b (by omega) ch' hch' cr' hcr' he
        omega
      have hv : ∀ ch < nCh, visAt r3 c n ch = visAt m c n ch := by
        intro ch hch
        unfold visAt
        rw [hold ch hch 0 (by omega), hold ch hch 1 (by omega), hold ch hch 2 (by omega), hold ch hch 3 (by omega)]
      have hc1 : (baselines.shift (n * baselines.stride 0)).forward 0 = baselines.shift ((n + 1 : ℕ) * baselines.stride 0) := by
        rw [shift_forward]; congr 1; push_cast; ring
      unfold applyBl
      simp only [hst, hc1]
      by_cases hne : (stations bl baselines n).1 ≠ (stations bl baselines n).2
      · rw [if_pos hne]
        obtain ⟨a1, a2, a3⟩ := apply_channels u c nBl nCh n (stations bl baselines n).1 (stations bl baselines n).2 (by omega) hA r3 nCh (le_refl _)
        refine ⟨trivial, ?_, ?_, ?_⟩
        · simp only [a1, shift_backward, shift_forward]
          congr 1; push_cast; ring
        · intro b hb ch hch cr hcr
          simp only
          by_cases hbn : b = n
          · subst hbn
            rw [if_pos hne, a2 ch hch cr hcr]
            simp only [hv ch hch]
          · rw [a3 _ (fun ch' hch' cr' hcr' he => by
              have := hA b (by omega) ch hch cr hcr n (by omega) ch' hch' cr' hcr' he
              omega)]
            exact ih3 b (by omega) ch hch cr hcr
        · intro a ha
          simp only
          rw [a3 _ (fun ch' hch' cr' hcr' => ha n (by omega) ch' hch' cr' hcr')]
          exact ih4 a (fun b hb => ha b (by omega))
      · rw [if_neg hne]
        refine ⟨trivial, ?_, ?_, ?_⟩
        · simp only [shift_forward]
          congr 1; push_cast; ring
        · intro b hb ch hch cr hcr
          by_cases hbn : b = n
          · subst hbn
            rw [if_neg hne]; exact hold ch hch cr hcr
          · exact ih3 b (by omega) ch hch cr hcr
        · intro a ha
          exact ih4 a (fun b hb => ha b (by omega))
  obtain ⟨_, _, h3, h4⟩ := key nBl (le_refl _)
  exact ⟨h3, h4⟩

/-- The cursors of `subtract` moved. -/
private def Sub.at_ (s : Sub K) (b ch cr : ℕ) (m : ℤ → Cx K) : Sub K :=
  ⟨s.data.shift (b * s.data.stride 2 + ch * s.data.stride 1 + cr * s.data.stride 0),
    s.model.shift (b * s.model.stride 2 + ch * s.model.stride 1 + cr * s.model.stride 0),
    s.weight.shift (b * s.weight.stride 2 + ch * s.weight.stride 1 + cr * s.weight.stride 0), m⟩

/-- What `subtract` leaves. -/
private def left_ (model weight : ℤ → Cx K) (s : Sub K) (m : ℤ → Cx K) (b ch cr : ℕ) : Cx K :=
  m (place s.data b ch cr) - weight (place s.weight b ch cr) * model (place s.model b ch cr)

private theorem sub_correlations (model weight : ℤ → Cx K) (s : Sub K) (nBl nCh b ch : ℕ) (hb : b < nBl) (hch : ch < nCh) (hA : Apart s.data nBl nCh)
    (m : ℤ → Cx K) (n : ℕ) (hn : n ≤ 4) :
    ∃ m', (List.range n).foldl (subCr model weight) (s.at_ b ch 0 m) = s.at_ b ch n m' ∧
      (∀ cr < n, m' (place s.data b ch cr) = left_ model weight s m b ch cr) ∧ ∀ a, (∀ cr < n, a ≠ place s.data b ch cr) → m' a = m a := by
  induction n with
  | zero => exact ⟨m, rfl, by intro cr h; omega, fun _ _ => rfl⟩
  | succ n ih =>
    obtain ⟨m', h1, h2, h3⟩ := ih (by omega)
    rw [List.range_succ, List.foldl_append, h1, List.foldl_cons, List.foldl_nil]
    have hd : (s.at_ b ch n m').data.pos = place s.data b ch n := by simp only [Sub.at_, shift_pos, place]; ring
    have hm : (s.at_ b ch n m').model.pos = place s.model b ch n := by simp only [Sub.at_, shift_pos, place]; ring
    have hw : (s.at_ b ch n m').weight.pos = place s.weight b ch n := by simp only [Sub.at_, shift_pos, place]; ring
    refine ⟨put m' (place s.data b ch n) (left_ model weight s m b ch n), ?_, ?_, ?_⟩
    · unfold subCr
      rw [hd, hm, hw]
      have hv : (s.at_ b ch n m').mem (place s.data b ch n) = m (place s.data b ch n) := by
        apply h3
        intro cr hcr he
        have := hA b hb ch hch n (by omega) b hb ch hch cr (by omega) he
        omega
      rw [hv]
      simp only [Sub.at_, shift_forward, left_, Sub.mk.injEq, and_true]
      refine ⟨?_, ?_, ?_⟩
      · congr 1; push_cast; ring
      · congr 1; push_cast; ring
      · congr 1; push_cast; ring
    · intro cr hcr
      by_cases h : cr = n
      · subst h; rw [put_eq]
      · rw [put_ne _ _ _ _ (by
          intro he
          have := hA b hb ch hch cr (by omega) b hb ch hch n (by omega) he
          omega)]
        exact h2 cr (by omega)
    · intro a ha
      rw [put_ne _ _ _ _ (ha n (by omega))]
      exact h3 a (fun cr hcr => ha cr (by omega))

private theorem sub_channels (model weight : ℤ → Cx K) (s : Sub K) (nBl nCh b : ℕ) (hb : b < nBl) (hA : Apart s.data nBl nCh)
    (m : ℤ → Cx K) (n : ℕ) (hn : n ≤ nCh) :
    ∃ m', (List.range n).foldl (subCh model weight) (s.at_ b 0 0 m) = s.at_ b n 0 m' ∧
      Changed s.data b n m m' (fun ch cr => left_ model weight s m b ch cr) := by
  induction n with
  | zero => exact ⟨m, rfl, by intro ch h; omega, fun _ _ => rfl⟩
  | succ n ih =>
    obtain ⟨m', h1, h2, h3⟩ := ih (by omega)
    rw [List.range_succ, List.foldl_append, h1, List.foldl_cons, List.foldl_nil]
    obtain ⟨m'', g1, g2, g3⟩ := sub_correlations model weight s nBl nCh b n hb (by omega) hA m' 4 (le_refl _)
    refine ⟨m'', ?_, ?_, ?_⟩
    · unfold subCh
      simp only [g1]
      simp only [Sub.at_, shift_forward, shift_backward, shift_stride, Sub.mk.injEq, and_true]
      refine ⟨?_, ?_, ?_⟩
      · congr 1; push_cast; ring
      · congr 1; push_cast; ring
      · congr 1; push_cast; ring
    · intro ch hch cr hcr
      by_cases h : ch = n
      · subst h
        rw [g2 cr hcr]
        simp only [left_]
        rw [h3 _ (fun ch' hch' cr' hcr' he => by
          have := hA b hb ch (by omega) cr hcr b hb ch' (by omega) cr' hcr' he
          omega)]
      · rw [g3 _ (fun cr' hcr' he => by
          have := hA b hb ch (by omega) cr hcr b hb n (by omega) cr' hcr' he
          omega)]
        exact h2 ch (by omega) cr hcr
    · intro a ha
      rw [g3 _ (ha n (by omega))]
      exact h3 a (fun ch hch => ha ch (by omega))

/-- **C127**: `subtract` takes the model times its mixing factor from every cross-correlation, and changes nothing
else. -/
theorem subtract_model (bl : ℤ → ℕ × ℕ) (model weight : ℤ → Cx K) (nBl nCh : ℕ) (baselines : Cur) (s : Sub K) (hA : Apart s.data nBl nCh) :
    (∀ b < nBl, ∀ ch < nCh, ∀ cr < 4, subtract bl model weight nBl nCh baselines s (place s.data b ch cr) =
      if (bl (baselines.pos + b * baselines.stride 0)).1 ≠ (bl (baselines.pos + b * baselines.stride 0)).2 then
        s.mem (place s.data b ch cr) - weight (place s.weight b ch cr) * model (place s.model b ch cr)
      else s.mem (place s.data b ch cr)) ∧
    ∀ a, (∀ b < nBl, ∀ ch < nCh, ∀ cr < 4, a ≠ place s.data b ch cr) → subtract bl model weight nBl nCh baselines s a = s.mem a := by
  have h0 : s = s.at_ 0 0 0 s.mem := by
    cases s; simp [Sub.at_, shift_zero]
  have key : ∀ n ≤ nBl, ∃ m',
      (List.range n).foldl (subBl bl model weight nCh) (baselines, s) = (baselines.shift (n * baselines.stride 0), s.at_ n 0 0 m') ∧
      (∀ b < n, ∀ ch < nCh, ∀ cr < 4, m' (place s.data b ch cr) =
        if (stations bl baselines b).1 ≠ (stations bl baselines b).2 then left_ model weight s s.mem b ch cr else s.mem (place s.data b ch cr)) ∧
      ∀ a, (∀ b < n, ∀ ch < nCh, ∀ cr < 4, a ≠ place s.data b ch cr) → m' a = s.mem a := by
    intro n
    induction n with
    | zero =>
      intro _
      refine ⟨s.mem, ?_, by intro b h; omega, fun _ _ => rfl⟩
      rw [← h0]; simp [shift_zero]
    | succ n ih =>
      intro hn
      obtain ⟨m', h1, h2, h3⟩ := ih (by omega)
      rw [List.range_succ, List.foldl_append, h1, List.foldl_cons, List.foldl_nil]
      have hst : bl (baselines.shift (n * baselines.stride 0)).pos = stations bl baselines n := rfl
      have hc1 : (baselines.shift (n * baselines.stride 0)).forward 0 = baselines.shift ((n + 1 : ℕ) * baselines.stride 0) := by
        rw [shift_forward]; congr 1; push_cast; ring
      unfold subBl
      simp only [hst, hc1]
      by_cases hne : (stations bl baselines n).1 ≠ (stations bl baselines n).2
      · rw [if_pos hne]
        obtain ⟨m'', g1, g2, g3⟩ := sub_channels model weight s nBl nCh n (by omega) hA m' nCh (le_refl _)
        refine ⟨m'', ?_, ?_, ?_⟩
        · simp only [g1]
          simp only [Sub.at_, shift_forward, shift_backward, shift_stride, Sub.mk.injEq, and_true, Prod.mk.injEq, true_and]
          refine ⟨?_, ?_, ?_⟩
          · congr 1; push_cast; ring
          · congr 1; push_cast; ring
          · congr 1; push_cast; ring
        · intro b hb ch hch cr hcr
          by_cases hbn : b = n
          · subst hbn
            rw [if_pos hne, g2 ch hch cr hcr]
            simp only [left_]
            rw [h3 _ (fun b' hb' ch' hch' cr' hcr' he => by
              have := hA b (by omega) ch hch cr hcr b' (by omega) ch' hch' cr' hcr' he
              omega)]
          · rw [g3 _ (fun ch' hch' cr' hcr' he => by
              have := hA b (by omega) ch hch cr hcr n (by omega) ch' hch' cr' hcr' he
              omega)]
            exact h2 b (by omega) ch hch cr hcr
        · intro a ha
          rw [g3 _ (ha n (by omega))]
          exact h3 a (fun b hb => ha b (by omega))
      · rw [if_neg hne]
        refine ⟨m', ?_, ?_, ?_⟩
        · simp only [Sub.at_, shift_forward, shift_backward, shift_stride, Sub.mk.injEq, and_true, Prod.mk.injEq, true_and]
          refine ⟨?_, ?_, ?_⟩
          · congr 1; push_cast; ring
          · congr 1; push_cast; ring
          · congr 1; push_cast; ring
        · intro b hb ch hch cr hcr
          by_cases hbn : b = n
          · subst hbn
            rw [if_neg hne]
            exact h3 _ (fun b' hb' ch' hch' cr' hcr' he => by
              have := hA b (by omega) ch hch cr hcr b' (by omega) ch' hch' cr' hcr' he
              omega)
          · exact h2 b (by omega) ch hch cr hcr
        · intro a ha
          exact h3 a (fun b hb => ha b (by omega))
  obtain ⟨m', h1, h2, h3⟩ := key nBl (le_refl _)
  unfold subtract
  rw [h1]
  exact ⟨h2, h3⟩

/-- The places of an array without gaps are different. -/
theorem dense_apart (pos : ℤ) (nBl nCh : ℕ) : Apart (dense pos nCh) nBl nCh := by
  intro b _ ch hch cr hcr b' _ ch' hch' cr' hcr' he
  have e1 : pos + (b : ℤ) * (4 * nCh) + ch * 4 + cr * 1 = pos + (b' : ℤ) * (4 * nCh) + ch' * 4 + cr' * 1 := he
  have e2 : (b * nCh + ch) * 4 + cr = (b' * nCh + ch') * 4 + cr' := by
    have : (((b * nCh + ch) * 4 + cr : ℕ) : ℤ) = (((b' * nCh + ch') * 4 + cr' : ℕ) : ℤ) := by push_cast; linarith
    exact_mod_cast this
  have e3 : b * nCh + ch = b' * nCh + ch' := by omega
  have e4 : cr = cr' := by omega
  have hb : b = b' := by
    have d1 : (b * nCh + ch) / nCh = b := by rw [Nat.mul_comm, Nat.mul_add_div (by omega), Nat.div_eq_of_lt hch, Nat.add_zero]
    have d2 : (b' * nCh + ch') / nCh = b' := by rw [Nat.mul_comm, Nat.mul_add_div (by omega), Nat.div_eq_of_lt hch', Nat.add_zero]
    rw [← d1, e3, d2]
  subst hb
  exact ⟨rfl, by omega, e4⟩

/-- **C127**: at one time the demixer subtracts from every cross-correlation the sum over the sources of the mixing
factor from the source to the target times the visibility of the source with the estimated gains: the terms of these
sources in the prediction that was fitted. Autocorrelations stay. -/
theorem subtractSources_sum (bl : ℤ → ℕ × ℕ) (u : ℕ → K) (nDir nSt nBl nCh nSubtr : ℕ) (model : ℕ → ℤ → Cx K) (mix res : ℤ → Cx K)
    (hd : 0 < nDir) (b ch cr : ℕ) (hb : b < nBl) (hch : ch < nCh) (hcr : cr < 4) :
    subtractSources bl u nDir nSt nBl nCh nSubtr model mix res (place (dense 0 nCh) b ch cr) =
      if (bl b).1 ≠ (bl b).2 then res (place (dense 0 nCh) b ch cr) -
        ((List.range nSubtr).map fun dr => mix (mixPlace (mixDense nDir nCh) b ch cr dr (nDir - 1)) *
          entry (corrupted u nSt dr (bl b).1 (bl b).2 ⟨model dr (place (dense 0 nCh) b ch 0), model dr (place (dense 0 nCh) b ch 1),
            model dr (place (dense 0 nCh) b ch 2), model dr (place (dense 0 nCh) b ch 3)⟩) cr).sum
      else res (place (dense 0 nCh) b ch cr) := by
  have hbl : bl (blCursor.pos + b * blCursor.stride 0) = bl b := by simp [blCursor]
  unfold subtractSources
  induction nSubtr with
  | zero => simp
  | succ n ih =>
    rw [List.range_succ, List.foldl_append, List.foldl_cons, List.foldl_nil]
    set r := (List.range n).foldl (fun r dr => subtract bl (apply bl (fun i => u (dr * nSt * 8 + i)) nBl nCh blCursor (dense 0 nCh) (model dr)) mix nBl nCh blCursor
      ⟨dense 0 nCh, dense 0 nCh, mixSlice nDir nCh dr, r⟩) res with hr
    have hs := (subtract_model bl (apply bl (fun i => u (n * nSt * 8 + i)) nBl nCh blCursor (dense 0 nCh) (model n)) mix nBl nCh blCursor
      ⟨dense 0 nCh, dense 0 nCh, mixSlice nDir nCh n, r⟩ (dense_apart _ _ _)).1 b hb ch hch cr hcr
    have ha := (apply_gains bl (fun i => u (n * nSt * 8 + i)) nBl nCh blCursor (dense 0 nCh) (model n) (dense_apart _ _ _)).1 b hb ch hch cr hcr
    rw [hbl] at hs ha
    simp only at hs
    rw [hs, ha, ih]
    have hj : ∀ s, jones (fun i => u (n * nSt * 8 + i)) (s * 8) = jones u ((n * nSt + s) * 8) := by
      intro s
      simp only [jones]
      have e : ∀ z, n * nSt * 8 + (s * 8 + z) = (n * nSt + s) * 8 + z := by intro z; ring
      have e0 : n * nSt * 8 + s * 8 = (n * nSt + s) * 8 := by ring
      rw [e0, e, e, e, e, e, e, e]
    have hmix : place (mixSlice nDir nCh n) b ch cr = mixPlace (mixDense nDir nCh) b ch cr n (nDir - 1) := by
      simp only [place, mixPlace, mixSlice, mixDense]
      norm_num
      push_cast [hd]
      ring
    by_cases hne : (bl b).1 ≠ (bl b).2
    · simp only [if_pos hne, List.map_append, List.sum_append, List.map_cons, List.map_nil, List.sum_cons, List.sum_nil, add_zero, hmix, hj, corrupted]
      ring
    · simp only [if_neg hne]

end Subtract

/-! ## An example -/

/-- Two stations, their cross-correlation and an autocorrelation, one channel and one direction: an unpolarized source
of strength 1 that is observed with strength 3. The second correlation is flagged. -/
def exMem : Mem ℚ where
  baselines a := if a = 0 then (0, 1) else (0, 0)
  data _ a := if a = 0 ∨ a = 3 then ⟨3, 0⟩ else if a = 1 then ⟨100, 0⟩ else 0
  model _ a := if a = 0 ∨ a = 3 then 1 else 0
  flag a := a = 1
  weight a := if a < 2 then 1 else 2
  mix _ := 1

/-- The cursors of the example. -/
def exCurs : Curs := ⟨blCursor, fun _ => dense 0 1, fun _ => dense 0 1, dense 0 1, dense 0 1, mixDense 1 1⟩

/-- Unit gains. -/
def exGains : ℕ → ℚ := fun i => if i % 8 = 0 ∨ i % 8 = 6 then 1 else 0

/-- Three times the gain of the first station. -/
def exStep : ℕ → ℚ := fun i => if i = 0 ∨ i = 6 then 2 else 0

example : used exMem exCurs 1 2 1 = [⟨0, 0, 0, 0⟩, ⟨0, 0, 2, 0⟩, ⟨0, 0, 3, 0⟩] := by decide +kernel

example : (equations exMem exCurs 1 2 2 1 exGains).length = 6 := by decide +kernel

/-- The hypotheses of `equations_gradient` and `step_descends`: the step solves the normal equations, the known side is
not zero. -/
example : (∀ b < 2, (pair exMem exCurs b).1 < 2 ∧ (pair exMem exCurs b).2 < 2) ∧
    (∀ d ∈ used exMem exCurs 1 2 1, 0 ≤ weightOf exMem exCurs d) ∧
    (∃ i < nUnknowns 1 2, known (equations exMem exCurs 1 2 2 1 exGains) i ≠ 0) ∧
    known (equations exMem exCurs 1 2 2 1 exGains) 0 = 2 := by
  refine ⟨by decide +kernel, by decide +kernel, ⟨0, by decide +kernel⟩, by decide +kernel⟩

example : ∀ i < nUnknowns 1 2, (∑ j ∈ Finset.range (nUnknowns 1 2), normal (equations exMem exCurs 1 2 2 1 exGains) i j * exStep j) =
    known (equations exMem exCurs 1 2 2 1 exGains) i := by
  intro i _
  have e : ((equations exMem exCurs 1 2 2 1 exGains).map fun r => { r with obs := dot r exStep }) = equations exMem exCurs 1 2 2 1 exGains := by
    decide +kernel
  rw [normal_row _ _ (rows_range _ _ _ _ _ _ _ (by decide +kernel)), e]

example : chi2 exMem exCurs 1 2 2 1 exGains = 12 ∧ chi2 exMem exCurs 1 2 2 1 (moved exGains exStep (1 / 2)) = 3 ∧
    chi2 exMem exCurs 1 2 2 1 (moved exGains exStep 1) = 0 := by
  refine ⟨by decide +kernel, by decide +kernel, by decide +kernel⟩

/-- The hypothesis of `equations_stationary`, met by the gains after the step. -/
example : ∀ d ∈ used exMem exCurs 1 2 1, observed exMem exCurs d = predicted exMem exCurs 1 2 (moved exGains exStep 1) d := by
  decide +kernel

/-- The common phase of the example. -/
example : (List.range 16).map (turn exGains 2 0) = [0, 1, 0, 0, 0, 0, 0, 1, 0, 1, 0, 0, 0, 0, 0, 1] := by decide +kernel

/-- The hypothesis of `equations_same`: other values at the flagged correlation and in the autocorrelation. -/
example : SameUsed exMem { exMem with data := fun d a => if a = 1 ∨ a > 3 then ⟨7, 8⟩ else exMem.data d a } exCurs 1 2 1 := by
  refine ⟨fun _ _ => rfl, fun bl hbl hne ch hch cr hcr => ⟨rfl, fun hf => ⟨rfl, fun tg _ => ⟨rfl, ?_, fun _ _ => rfl⟩⟩⟩⟩
  have hb : bl = 0 := by
    by_contra hb
    have : bl = 1 := by omega
    subst this
    exact hne (by decide)
  have hc : ch = 0 := by omega
  subst hb hc
  have h4 : cr = 0 ∨ cr = 1 ∨ cr = 2 ∨ cr = 3 := by omega
  rcases h4 with rfl | rfl | rfl | rfl
  · rfl
  · exact absurd hf (by decide)
  · rfl
  · rfl

/-- A solver that takes the step of the example and is ready when the known side is zero. -/
def exSolve (rows : List (Row ℚ)) (u : ℕ → ℚ) : (ℕ → ℚ) × Bool :=
  if (List.range 16).all (fun i => known rows i == 0) then (u, true) else (moved u exStep 1, false)

example : (estimate exMem 1 2 2 1 exSolve 10 exCurs exGains).2 = true ∧ (estimate exMem 1 2 2 1 exSolve 1 exCurs exGains).2 = false ∧
    (List.range 16).map (estimate exMem 1 2 2 1 exSolve 10 exCurs exGains).1 = [3, 0, 0, 0, 0, 0, 3, 0, 1, 0, 0, 0, 0, 0, 1, 0] := by
  refine ⟨by decide +kernel, by decide +kernel, by decide +kernel⟩

/-- The subtraction of one of two directions with mixing factor 1/2 to the target. -/
example : (List.range 8).map (fun a => subtractSources exMem.baselines (moved exGains exStep 1) 2 2 2 1 1 exMem.model (fun a => if a % 4 = 1 then ⟨1 / 2, 0⟩ else 0)
    (fun _ => ⟨5, 0⟩) a) = ([⟨7 / 2, 0⟩, ⟨5, 0⟩, ⟨5, 0⟩, ⟨7 / 2, 0⟩, ⟨5, 0⟩, ⟨5, 0⟩, ⟨5, 0⟩, ⟨5, 0⟩] : List (Cx ℚ)) := by decide +kernel

end DP3.Estimate
