import Verif.ApplyCal.Model
import Verif.IterSolver.Laws
import Mathlib.Algebra.Field.Rat
import Mathlib.Algebra.Order.Ring.Rat
import Mathlib.Data.List.Nodup
import Mathlib.Data.List.Count
import Mathlib.Tactic.Positivity
import Mathlib.Tactic.FieldSimp

/-!
# Properties of applying gains (C90, C91, C92)
-/

namespace DP3.ApplyCal

open DP3.StringTools

set_option linter.unusedSectionVars false
set_option linter.unusedSimpArgs false

section Specification
variable {K : Type} [Field K] [DecidableEq K]

/-- The matrix with a single one. -/
def unit (k l : Bool) : M2 K :=
  ⟨if !k && !l then 1 else 0, if !k && l then 1 else 0, if k && !l then 1 else 0, if k && l then 1 else 0⟩

/-- An element of a matrix. -/
def elem (m : M2 K) (k l : Bool) : Cx K :=
  match k, l with
  | false, false => m.a
  | false, true => m.b
  | true, false => m.c
  | true, true => m.d

/-- An element of four values. -/
def Four.get {X : Type} (f : Four X) (k l : Bool) : X :=
  match k, l with
  | false, false => f.xx
  | false, true => f.xy
  | true, false => f.yx
  | true, true => f.yy

/-- The variance of an element of `A V Bᴴ`, when the elements of `V` are independent with variances `cov`: each
element of `V` contributes its variance times the squared size of its coefficient. -/
def variance (a b : M2 K) (cov : Four K) (i j : Bool) : K :=
  cov.xx * (elem (a * unit false false * b.herm) i j).normSq +
  cov.xy * (elem (a * unit false true * b.herm) i j).normSq +
  cov.yx * (elem (a * unit true false * b.herm) i j).normSq +
  cov.yy * (elem (a * unit true true * b.herm) i j).normSq

/-- Finite gains. -/
def some4 (m : M2 K) : Four (Option (Cx K)) := ⟨some m.a, some m.b, some m.c, some m.d⟩

/-- Weights that are the inverses of variances. -/
def weightsOf (cov : Four K) : Four (Flt K) :=
  ⟨.fin cov.xx⁻¹, .fin cov.xy⁻¹, .fin cov.yx⁻¹, .fin cov.yy⁻¹⟩

end Specification

section Visibility
variable {K : Type} [Field K] [LinearOrder K] [IsStrictOrderedRing K]

/-- C90. Finite full Jones gains: the data become `A V Bᴴ` and the flags stay. -/
theorem full_data (a b : M2 K) (u : Bool) (s : Sample K) :
    (applyFull (some4 a) (some4 b) u s).1.data = a * s.data * b.herm ∧
    (applyFull (some4 a) (some4 b) u s).1.flags = s.flags ∧ (applyFull (some4 a) (some4 b) u s).2 = false := by
  refine ⟨?_, rfl, rfl⟩
  simp [applyFull, finite4, some4, mul_assoc]

/-- C90. Diagonal gains do to the data what the full matrices with these diagonals do. -/
theorem diag_data (a b : D2 K) (u : Bool) (s : Sample K) :
    (applyDiag (some a.x, some a.y) (some b.x, some b.y) u s).1.data =
      (applyFull (some4 a.toM2) (some4 b.toM2) u s).1.data := by
  rw [(full_data _ _ _ _).1]
  refine M2.ext ?_ ?_ ?_ ?_ <;> simp [applyDiag, D2.toM2, D2.herm, M2.herm]

/-- C90. A scalar gain does what the diagonal with twice this gain does, for data, flags and weights. -/
theorem scalar_eq_diag (a b : Option (Cx K)) (u : Bool) (s : Sample K) :
    applyScalar a b u s = applyDiag (a, a) (b, b) u s := by
  cases a <;> cases b <;> try rfl
  rename_i a b
  simp only [applyScalar, applyDiag]
  congr 2
  refine M2.ext ?_ ?_ ?_ ?_ <;> simp [M2.smul, D2.toM2, D2.herm] <;> ring

/-- C90. Without updateweights the weights stay, for any gains. -/
theorem weights_kept (ga gb : Four (Option (Cx K))) (da db : Option (Cx K) × Option (Cx K)) (s : Sample K) :
    (applyFull ga gb false s).1.weights = s.weights ∧ (applyDiag da db false s).1.weights = s.weights := by
  constructor
  · unfold applyFull; split <;> rfl
  · unfold applyDiag; split <;> rfl

/-- Of `weights_kept`. -/
example : (applyFull (some4 (⟨⟨1, 1⟩, 0, 0, ⟨2, 0⟩⟩ : M2 ℚ)) (some4 1) false
    ⟨1, ⟨false, false, false, false⟩, weightsOf ⟨1, 2, 3, 4⟩⟩).1.weights = weightsOf ⟨1, 2, 3, 4⟩ := by
  decide +kernel

theorem mulFin_inv (x y : K) (hx : x ≠ 0) : (Flt.fin x⁻¹).inv.mulFin y = Flt.fin (x * y) := by
  simp [Flt.inv, Flt.mulFin, hx]

/-- C90. With positive weights, the new weights of full Jones gains are the inverses of the variances of
`A V Bᴴ` (infinity where the variance is zero). -/
theorem full_weights (a b : M2 K) (s : Sample K) (cov : Four K)
    (hpos : 0 < cov.xx ∧ 0 < cov.xy ∧ 0 < cov.yx ∧ 0 < cov.yy) (hw : s.weights = weightsOf cov) (i j : Bool) :
    (applyFull (some4 a) (some4 b) true s).1.weights.get i j = (Flt.fin (variance a b cov i j)).inv := by
  obtain ⟨h1, h2, h3, h4⟩ := hpos
  have e : (applyFull (some4 a) (some4 b) true s).1.weights = applyWeights a b s.weights := by
    simp [applyFull, finite4, some4]
  rw [e, hw]
  simp only [applyWeights, weightsOf, mulFin_inv _ _ h1.ne', mulFin_inv _ _ h2.ne', mulFin_inv _ _ h3.ne',
    mulFin_inv _ _ h4.ne', Flt.add]
  cases i <;> cases j <;> simp only [Four.get] <;> congr 2 <;>
    simp [variance, elem, unit, M2.herm, Cx.normSq] <;> ring

/-- C90. Also for diagonal gains that are not zero. -/
theorem diag_weights (a b : D2 K) (s : Sample K) (cov : Four K)
    (ha : a.x ≠ 0 ∧ a.y ≠ 0) (hb : b.x ≠ 0 ∧ b.y ≠ 0)
    (hpos : 0 < cov.xx ∧ 0 < cov.xy ∧ 0 < cov.yx ∧ 0 < cov.yy) (hw : s.weights = weightsOf cov) (i j : Bool) :
    (applyDiag (some a.x, some a.y) (some b.x, some b.y) true s).1.weights.get i j =
      (Flt.fin (variance a.toM2 b.toM2 cov i j)).inv := by
  obtain ⟨h1, h2, h3, h4⟩ := hpos
  have na := fun (x : Cx K) (h : x ≠ 0) => fun c => h (Cx.normSq_eq_zero.mp c)
  have hax := na _ ha.1
  have hay := na _ ha.2
  have hbx := na _ hb.1
  have hby := na _ hb.2
  simp only [applyDiag, hw, weightsOf, Flt.divFin, if_true]
  have key : ∀ c p q v : K, 0 < c → p ≠ 0 → q ≠ 0 → v = c * (p * q) →
      (if p * q = 0 then (if c⁻¹ = 0 then Flt.nan else Flt.inf) else Flt.fin (c⁻¹ / (p * q))) = (Flt.fin v).inv := by
    intro c p q v hc hp hq hv
    have hpq : p * q ≠ 0 := mul_ne_zero hp hq
    rw [if_neg hpq, hv]
    simp only [Flt.inv]
    rw [if_neg (mul_ne_zero hc.ne' hpq), mul_inv, div_eq_mul_inv]
  cases i <;> cases j <;> simp only [Four.get]
  · exact key _ _ _ _ h1 hax hbx (by simp [variance, elem, unit, M2.herm, D2.toM2, Cx.normSq]; left; ring)
  · exact key _ _ _ _ h2 hax hby (by simp [variance, elem, unit, M2.herm, D2.toM2, Cx.normSq]; left; ring)
  · exact key _ _ _ _ h3 hay hbx (by simp [variance, elem, unit, M2.herm, D2.toM2, Cx.normSq]; left; ring)
  · exact key _ _ _ _ h4 hay hby (by simp [variance, elem, unit, M2.herm, D2.toM2, Cx.normSq]; left; ring)

/-- `invert` gives the inverse matrix. -/
theorem invert_spec (v w : M2 K) (h : invert v = some w) : w * v = 1 ∧ v * w = 1 := by
  refine IterSolver.inv_mul_self ?_
  unfold invert at h
  unfold M2.inv M2.det
  split at h
  · cases h
  · rename_i hd
    rw [if_neg hd]
    rw [← h]
    congr 1
    refine M2.ext ?_ ?_ ?_ ?_ <;> refine Cx.ext ?_ ?_ <;> simp [Cx.div, Cx.divReal] <;> ring

/-- C90. `invert` fails only for a matrix without inverse. -/
theorem invert_none_iff (v : M2 K) : invert v = none ↔ ¬ ∃ w, w * v = 1 := by
  constructor
  · rintro h ⟨w, hw⟩
    unfold invert at h
    split at h
    · rename_i hd
      have h1 : (w * v).det = w.det * v.det := by simp only [M2.det, M2.mul_a, M2.mul_b, M2.mul_c, M2.mul_d]; ring
      rw [hw, show v.det = 0 from hd, mul_zero] at h1
      have : (1 : M2 K).det = 1 := by simp [M2.det]
      rw [this] at h1
      exact one_ne_zero (congrArg Cx.re h1)
    · cases h
  · intro h
    cases hi : invert v with
    | none => rfl
    | some w => exact absurd ⟨w, (invert_spec v w hi).1⟩ h

/-- C90. Applying gains and then their inverses restores the data and leaves the flags. -/
theorem full_round_trip (a b a' b' : M2 K) (ha : invert a = some a') (hb : invert b = some b') (u u' : Bool)
    (s : Sample K) :
    (applyFull (some4 a') (some4 b') u' (applyFull (some4 a) (some4 b) u s).1).1.data = s.data ∧
    (applyFull (some4 a') (some4 b') u' (applyFull (some4 a) (some4 b) u s).1).1.flags = s.flags := by
  refine ⟨?_, rfl⟩
  rw [(full_data _ _ _ _).1, (full_data _ _ _ _).1]
  have h1 := (invert_spec a a' ha).1
  have h2 : b.herm * b'.herm = 1 := by
    rw [← M2.herm_mul, (invert_spec b b' hb).1]
    simp [M2.herm, M2.ext_iff]
  calc a' * (a * s.data * b.herm) * b'.herm = (a' * a) * s.data * (b.herm * b'.herm) := by
        simp only [mul_assoc]
    _ = s.data := by rw [h1, h2, one_mul, mul_one]

/-- C90. With diagonal gains also finite weights are restored. -/
theorem diag_round_trip (a b a' b' : D2 K) (ha : a'.x * a.x = 1 ∧ a'.y * a.y = 1)
    (hb : b'.x * b.x = 1 ∧ b'.y * b.y = 1) (s : Sample K) (w : Four K)
    (hw : s.weights = ⟨.fin w.xx, .fin w.xy, .fin w.yx, .fin w.yy⟩) :
    (applyDiag (some a'.x, some a'.y) (some b'.x, some b'.y) true
      (applyDiag (some a.x, some a.y) (some b.x, some b.y) true s).1).1 = s := by
  have n1 : ∀ x y : Cx K, y * x = 1 → x.normSq ≠ 0 ∧ y.normSq = x.normSq⁻¹ := by
    intro x y h
    have h1 : y.normSq * x.normSq = 1 := by rw [← Cx.normSq_mul, h]; simp [Cx.normSq]
    have h2 : x.normSq ≠ 0 := by intro c; rw [c, mul_zero] at h1; exact zero_ne_one h1
    exact ⟨h2, eq_inv_of_mul_eq_one_left h1⟩
  obtain ⟨hax, hax'⟩ := n1 _ _ ha.1
  obtain ⟨hay, hay'⟩ := n1 _ _ ha.2
  obtain ⟨hbx, hbx'⟩ := n1 _ _ hb.1
  obtain ⟨hby, hby'⟩ := n1 _ _ hb.2
  have key : ∀ x p q : K, p ≠ 0 → q ≠ 0 →
      ((Flt.fin x).divFin (p * q)).divFin (p⁻¹ * q⁻¹) = Flt.fin x := by
    intro x p q hp hq
    simp only [Flt.divFin]
    rw [if_neg (mul_ne_zero hp hq)]
    simp only [Flt.divFin]
    rw [if_neg (mul_ne_zero (inv_ne_zero hp) (inv_ne_zero hq))]
    congr 1
    field_simp
  obtain ⟨d, f, wt⟩ := s
  simp only at hw
  subst hw
  simp only [applyDiag, if_true, hax', hay', hbx', hby', key _ _ _ hax hbx, key _ _ _ hax hby, key _ _ _ hay hbx,
    key _ _ _ hay hby]
  have c : ∀ x y z w v : Cx K, x * y = 1 → z * w = 1 → x * (y * v * w.conj) * z.conj = v := by
    intro x y z w v h1 h2
    have h3 : z.conj * w.conj = 1 := by rw [← Cx.conj_mul, h2, Cx.conj_one]
    calc x * (y * v * w.conj) * z.conj = (x * y) * v * (z.conj * w.conj) := by ring
      _ = v := by rw [h1, h3, one_mul, mul_one]
  congr 1
  refine M2.ext ?_ ?_ ?_ ?_ <;> simp [D2.toM2, D2.herm]
  · exact c _ _ _ _ _ ha.1 hb.1
  · exact c _ _ _ _ _ ha.1 hb.2
  · exact c _ _ _ _ _ ha.2 hb.1
  · exact c _ _ _ _ _ ha.2 hb.2

/-- C92. A full Jones gain that is not finite: data and weights stay, all correlations are flagged, and the sample
is counted if its first correlation was not flagged. -/
theorem full_not_finite (ga gb : Four (Option (Cx K))) (u : Bool) (s : Sample K)
    (h : ∃ i j, ga.get i j = none ∨ gb.get i j = none) :
    applyFull ga gb u s = (⟨s.data, ⟨true, true, true, true⟩, s.weights⟩, !s.flags.xx) := by
  have hn : finite4 ga = none ∨ finite4 gb = none := by
    obtain ⟨i, j, h⟩ := h
    refine h.imp (fun h => ?_) (fun h => ?_)
    · unfold finite4
      cases i <;> cases j <;> simp only [Four.get] at h <;> rw [h] <;> split <;> first | rfl | simp_all
    · unfold finite4
      cases i <;> cases j <;> simp only [Four.get] at h <;> rw [h] <;> split <;> first | rfl | simp_all
  unfold applyFull
  rcases hn with h | h <;> rw [h]
  · rfl
  · cases finite4 ga <;> rfl

/-- C92. The same for diagonal gains, and for scalar gains by `scalar_eq_diag`. -/
theorem diag_not_finite (ga gb : Option (Cx K) × Option (Cx K)) (u : Bool) (s : Sample K)
    (h : ga.1 = none ∨ ga.2 = none ∨ gb.1 = none ∨ gb.2 = none) :
    applyDiag ga gb u s = (⟨s.data, ⟨true, true, true, true⟩, s.weights⟩, !s.flags.xx) := by
  obtain ⟨a0, a1⟩ := ga
  obtain ⟨b0, b1⟩ := gb
  cases a0 <;> cases a1 <;> cases b0 <;> cases b1 <;> first | rfl | (simp at h)

/-- C90 fails for a zero weight: with unit gains (as matrices), the weights of a sample with a zero weight become
NaN, also those that were positive. -/
theorem zero_weight_gives_nan : ∃ s : Sample ℚ, s.weights = ⟨.fin 1, .fin 0, .fin 1, .fin 1⟩ ∧
    (applyFull (some4 1) (some4 1) true s).1.weights.xx = .nan ∧
    (applyDiag (some 1, some 1) (some 1, some 1) true s).1.weights = s.weights :=
  ⟨⟨0, ⟨false, false, false, false⟩, ⟨.fin 1, .fin 0, .fin 1, .fin 1⟩⟩, rfl, by decide +kernel, by decide +kernel⟩

/-- C90. base::apply computes `Jp V Jqᴴ` for cross-correlations, and leaves autocorrelations as they are. -/
theorem baseApply_spec (coeff : Nat → M2 K) (baselines : List (Nat × Nat)) (data : List (List (M2 K)))
    (hlen : baselines.length = data.length) :
    (baseApply coeff baselines data).length = data.length ∧
    ∀ (i p q : Nat) (channels : List (M2 K)), baselines[i]? = some (p, q) → data[i]? = some channels →
      (baseApply coeff baselines data)[i]? =
        some (channels.map fun v => if p = q then v else coeff p * v * (coeff q).herm) := by
  have hv : ∀ jp jq v : M2 K, applyVis jp jq v = jp * v * jq.herm := by
    intro jp jq v
    refine M2.ext ?_ ?_ ?_ ?_ <;> simp [applyVis, M2.herm] <;> ring
  induction baselines generalizing data with
  | nil =>
    cases data with
    | nil => exact ⟨rfl, by intro i p q c h; simp at h⟩
    | cons c d => simp at hlen
  | cons b bs ih =>
    cases data with
    | nil => simp at hlen
    | cons c d =>
      obtain ⟨p0, q0⟩ := b
      obtain ⟨h1, h2⟩ := ih d (by simpa using hlen)
      refine ⟨by simp [baseApply, h1], ?_⟩
      intro i p q channels hb hc
      cases i with
      | zero =>
        simp only [List.getElem?_cons_zero, Option.some.injEq, Prod.mk.injEq] at hb hc
        obtain ⟨rfl, rfl⟩ := hb
        subst hc
        simp only [baseApply, List.getElem?_cons_zero, applyBaseline]
        by_cases h : p0 = q0
        · simp [h]
        · simp only [ne_eq, h, not_false_eq_true, if_true, if_false]
          congr 1
          exact List.map_congr_left fun v _ => hv _ _ v
      | succ i => exact h2 i p q channels (by simpa using hb) (by simpa using hc)

end Visibility

/-! ## The loop over a buffer -/

section Loop
variable {K : Type}

/-- How often a condition holds. -/
def count {X : Type} (p : X → Bool) (l : List X) : Nat := (l.filter p).length

theorem loop_spec (f : Nat → Nat → Sample K → Sample K × Bool) (order : List (Nat × Nat)) (hnd : order.Nodup)
    (buf : Buf K) :
    (∀ bl ch, (order.foldl (applyAt f) buf).sample bl ch =
      if (bl, ch) ∈ order then (f bl ch (buf.sample bl ch)).1 else buf.sample bl ch) ∧
    (∀ bl, (order.foldl (applyAt f) buf).perBaseline bl = buf.perBaseline bl +
      count (fun p => decide (p.1 = bl) && (f p.1 p.2 (buf.sample p.1 p.2)).2) order) ∧
    (∀ ch, (order.foldl (applyAt f) buf).perChannel ch = buf.perChannel ch +
      count (fun p => decide (p.2 = ch) && (f p.1 p.2 (buf.sample p.1 p.2)).2) order) := by
  induction order generalizing buf with
  | nil => simp [count]
  | cons p ps ih =>
    obtain ⟨hp, hps⟩ := List.nodup_cons.mp hnd
    obtain ⟨h1, h2, h3⟩ := ih hps (applyAt f buf p)
    have hsame : ∀ q ∈ ps, (applyAt f buf p).sample q.1 q.2 = buf.sample q.1 q.2 := by
      intro q hq
      simp only [applyAt]
      rw [if_neg]
      rintro ⟨e1, e2⟩
      exact hp (by rwa [← (Prod.ext e1 e2 : q = p)])
    have hcount : ∀ g : Nat × Nat → Bool,
        count (fun q => g q && (f q.1 q.2 ((applyAt f buf p).sample q.1 q.2)).2) ps =
        count (fun q => g q && (f q.1 q.2 (buf.sample q.1 q.2)).2) ps := by
      intro g
      simp only [count]
      congr 1
      refine List.filter_congr fun q hq => ?_
      rw [hsame q hq]
    refine ⟨?_, ?_, ?_⟩
    · intro bl ch
      rw [List.foldl_cons, h1]
      by_cases hm : (bl, ch) ∈ ps
      · rw [if_pos hm, if_pos (List.mem_cons_of_mem _ hm), hsame (bl, ch) hm]
      · rw [if_neg hm]
        by_cases he : (bl, ch) = p
        · subst he; simp [applyAt]
        · rw [if_neg (by simp [hm, he])]
          simp only [applyAt]
          rw [if_neg (fun c => he (Prod.ext c.1 c.2))]
    · intro bl
      rw [List.foldl_cons, h2, hcount]
      simp only [applyAt, count, List.filter_cons]
      by_cases hb : bl = p.1
      · subst hb
        cases hc : (f p.1 p.2 (buf.sample p.1 p.2)).2 <;> simp [hc]; omega
      · have hb' : ¬ p.1 = bl := fun c => hb c.symm
        simp [hb, hb']
    · intro ch
      rw [List.foldl_cons, h3, hcount]
      simp only [applyAt, count, List.filter_cons]
      by_cases hb : ch = p.2
      · subst hb
        cases hc : (f p.1 p.2 (buf.sample p.1 p.2)).2 <;> simp [hc]; omega
      · have hb' : ¬ p.2 = ch := fun c => hb c.symm
        simp [hb, hb']

theorem loopOrder_nodup (nBl nChan : Nat) : (loopOrder nBl nChan).Nodup := by
  unfold loopOrder
  refine List.nodup_flatMap.mpr ⟨?_, ?_⟩
  · intro bl _
    exact List.nodup_range.map (fun a b h => by simpa using h)
  · refine List.nodup_range.pairwise_of_forall_ne ?_
    intro a _ b _ hab
    simp only [Function.onFun]
    intro p hp hq
    simp only [List.mem_map, List.mem_range] at hp hq
    obtain ⟨c, -, rfl⟩ := hp
    obtain ⟨d, -, he⟩ := hq
    exact hab (by simpa using (congrArg Prod.fst he).symm)

theorem mem_loopOrder (nBl nChan bl ch : Nat) : (bl, ch) ∈ loopOrder nBl nChan ↔ bl < nBl ∧ ch < nChan := by
  simp [loopOrder]

/-- C92. CorrectionLoop applies to each baseline and channel, once, the gains of its own antennas at the channel
and time step, and the counters increase by the number of newly flagged samples; in any order of the threads
(when their increments are atomic). -/
theorem correctionLoop_spec {G : Type} (apply : G → G → Sample K → Sample K × Bool) (ant1 ant2 : Nat → Nat)
    (gains : Gains G) (nBl nchan timeStep : Nat) (order : List (Nat × Nat))
    (horder : order.Perm (loopOrder nBl nchan)) (buf : Buf K) :
    (∀ bl ch, bl < nBl → ch < nchan → (correctionLoop apply ant1 ant2 gains nchan timeStep order buf).sample bl ch =
      (apply (gains (ant1 bl) (timeStep * nchan + ch)) (gains (ant2 bl) (timeStep * nchan + ch))
        (buf.sample bl ch)).1) ∧
    (∀ bl ch, ¬ (bl < nBl ∧ ch < nchan) →
      (correctionLoop apply ant1 ant2 gains nchan timeStep order buf).sample bl ch = buf.sample bl ch) ∧
    (∀ bl, bl < nBl → (correctionLoop apply ant1 ant2 gains nchan timeStep order buf).perBaseline bl =
      buf.perBaseline bl + count (fun ch => (apply (gains (ant1 bl) (timeStep * nchan + ch))
        (gains (ant2 bl) (timeStep * nchan + ch)) (buf.sample bl ch)).2) (List.range nchan)) ∧
    (∀ ch, ch < nchan → (correctionLoop apply ant1 ant2 gains nchan timeStep order buf).perChannel ch =
      buf.perChannel ch + count (fun bl => (apply (gains (ant1 bl) (timeStep * nchan + ch))
        (gains (ant2 bl) (timeStep * nchan + ch)) (buf.sample bl ch)).2) (List.range nBl)) := by
  obtain ⟨h1, h2, h3⟩ := loop_spec (fun bl ch =>
    apply (gains (ant1 bl) (timeStep * nchan + ch)) (gains (ant2 bl) (timeStep * nchan + ch))) order
    (horder.nodup_iff.mpr (loopOrder_nodup _ _)) buf
  have hm : ∀ bl ch, (bl, ch) ∈ order ↔ bl < nBl ∧ ch < nchan := by
    intro bl ch; rw [horder.mem_iff, mem_loopOrder]
  have hperm : ∀ g : Nat × Nat → Bool, count g order = count g (loopOrder nBl nchan) := by
    intro g; exact (horder.filter g).length_eq
  have cntBl : ∀ (g : Nat → Nat → Bool) (n bl : Nat), bl < n →
      count (fun p : Nat × Nat => decide (p.1 = bl) && g p.1 p.2) (loopOrder n nchan) =
        count (g bl) (List.range nchan) := by
    intro g n bl
    have zero : ∀ n, n ≤ bl →
        count (fun p : Nat × Nat => decide (p.1 = bl) && g p.1 p.2) (loopOrder n nchan) = 0 := by
      intro n hn
      simp only [count, List.length_eq_zero_iff, List.filter_eq_nil_iff]
      rintro ⟨a, b⟩ hab
      have := (mem_loopOrder _ _ _ _).mp hab
      have : ¬ a = bl := by omega
      simp [this]
    induction n with
    | zero => intro h; omega
    | succ n ih =>
      intro hbl
      have e : loopOrder (n + 1) nchan = loopOrder n nchan ++ (List.range nchan).map fun ch => (n, ch) := by
        simp [loopOrder, List.range_succ]
      rw [e]
      simp only [count, List.filter_append, List.length_append]
      rcases Nat.lt_or_ge bl n with h | h
      · have := ih h
        simp only [count] at this
        rw [this]
        have hne : ¬ n = bl := by omega
        simp [List.filter_map, Function.comp_def, hne]
      · have hbn : bl = n := by omega
        have := zero n h
        simp only [count] at this
        rw [this]
        subst hbn
        simp [List.filter_map, Function.comp_def]
  have cntCh : ∀ (g : Nat → Nat → Bool) (n ch : Nat), ch < nchan →
      count (fun p : Nat × Nat => decide (p.2 = ch) && g p.1 p.2) (loopOrder n nchan) =
        count (fun bl => g bl ch) (List.range n) := by
    intro g n ch hch
    have one : ∀ (b m : Nat), ((List.range m).filter fun c => decide (c = ch) && g b c).length =
        if ch < m ∧ g b ch = true then 1 else 0 := by
      intro b m
      induction m with
      | zero => simp
      | succ m ih =>
        rw [List.range_succ, List.filter_append, List.length_append, ih]
        by_cases hc : m = ch
        · subst hc
          cases hg : g b m <;> simp [hg]
        · have : (ch < m + 1 ∧ g b ch = true) ↔ (ch < m ∧ g b ch = true) := by
            constructor
            · rintro ⟨x, y⟩; exact ⟨by omega, y⟩
            · rintro ⟨x, y⟩; exact ⟨by omega, y⟩
          simp [hc, this]
    induction n with
    | zero => simp [loopOrder, count]
    | succ n ih =>
      have e : loopOrder (n + 1) nchan = loopOrder n nchan ++ (List.range nchan).map fun ch => (n, ch) := by
        simp [loopOrder, List.range_succ]
      rw [e]
      simp only [count, List.filter_append, List.length_append, List.range_succ] at ih ⊢
      rw [ih]
      congr 1
      rw [List.filter_map, List.length_map]
      have := one n nchan
      simp only [Function.comp_def]
      rw [this]
      cases hg : g n ch <;> simp [hg, hch]
  refine ⟨fun bl ch hb hc => ?_, fun bl ch h => ?_, fun bl hb => ?_, fun ch hc => ?_⟩
  · exact (h1 bl ch).trans (if_pos ((hm bl ch).mpr ⟨hb, hc⟩))
  · exact (h1 bl ch).trans (if_neg fun c => h ((hm bl ch).mp c))
  · refine (h2 bl).trans ?_
    rw [hperm]
    congr 1
    exact cntBl (fun bl ch => (apply (gains (ant1 bl) (timeStep * nchan + ch))
        (gains (ant2 bl) (timeStep * nchan + ch)) (buf.sample bl ch)).2) nBl bl hb
  · refine (h3 ch).trans ?_
    rw [hperm]
    congr 1
    exact cntCh (fun bl ch => (apply (gains (ant1 bl) (timeStep * nchan + ch))
        (gains (ant2 bl) (timeStep * nchan + ch)) (buf.sample bl ch)).2) nBl ch hc

end Loop

/-! ## Several directions -/

section ModelData

/-- C90 fails for model data of several directions: with updateweights, the weights are divided by the gains of all
directions, though a gain of a direction is only for its model data. -/
theorem weights_updated_per_direction : ∃ (g : Cx ℚ) (d : M2 ℚ),
    (modelDataLoop [applyScalar (some g) (some g) true, applyScalar (some g) (some g) true] [d, d]
      ⟨false, false, false, false⟩ ⟨.fin 1, .fin 1, .fin 1, .fin 1⟩).2.2.xx = .fin (1 / 256) ∧
    (applyScalar (some g) (some g) true ⟨d, ⟨false, false, false, false⟩, ⟨.fin 1, .fin 1, .fin 1, .fin 1⟩⟩).1.weights.xx
      = .fin (1 / 16) :=
  ⟨⟨2, 0⟩, 1, by decide +kernel, by decide +kernel⟩

/-- C92. The data of each direction get the gains of that direction, whatever the other directions. -/
theorem model_data_own_gains {K : Type} [Field K] [LinearOrder K] [IsStrictOrderedRing K] (a b : List (M2 K)) (u : Bool)
    (data : List (M2 K)) (flags : Four Bool) (weights : Four (Flt K)) (ha : a.length = data.length)
    (hb : b.length = data.length) :
    (modelDataLoop (List.zipWith (fun x y => applyFull (some4 x) (some4 y) u) a b) data flags weights).1 =
      List.zipWith (fun v (g : M2 K × M2 K) => g.1 * v * g.2.herm) data (a.zip b) := by
  induction data generalizing a b flags weights with
  | nil =>
    cases a with
    | nil => simp [modelDataLoop]
    | cons x a => simp at ha
  | cons d ds ih =>
    cases a with
    | nil => simp at ha
    | cons x a =>
      cases b with
      | nil => simp at hb
      | cons y b =>
        simp only [List.zipWith_cons_cons, modelDataLoop, List.zip_cons_cons]
        rw [ih a b _ _ (by simpa using ha) (by simpa using hb), (full_data x y u _).1]

end ModelData

/-! ## Times -/

section Times
variable {K : Type} [Field K] [LinearOrder K] [IsStrictOrderedRing K]

/-- The state after the buffer with number `i - 1`, when the current gains are for `m` times from number `s`. -/
private def Inv (c : TimeSettings K) (t0 : K) (n i : Nat) (st : TimeState K) : Prop :=
  ∃ s m : Nat, s < i ∧ i ≤ s + m ∧ s + m ≤ n ∧ st.timeStep + s + 1 = i ∧
    st.times = ((List.range m).map fun (t : Nat) => t0 + ((s + t : Nat) : K) * c.interval) ∧
    st.lastTime = t0 + ((s + m : Nat) : K) * c.interval - c.interval / 2

private theorem calc_spec (round : K → Nat) (hround : ∀ n : Nat, round n = n) (c : TimeSettings K)
    (hdt : 0 < c.interval) (hslots : 0 < c.slots) (t0 : K) (n i : Nat) (hi : i < n)
    (hlast : c.lastTime = t0 + ((n : K) - 1) * c.interval) :
    ∃ m : Nat, 0 < m ∧ i + m ≤ n ∧ calculateBufferTimes round c (t0 + (i : K) * c.interval) =
      .ok (t0 + ((i + m : Nat) : K) * c.interval - c.interval / 2,
        (List.range m).map fun (t : Nat) => t0 + ((i + t : Nat) : K) * c.interval) := by
  have hmap : ∀ m : Nat, ((List.range m).map fun (t : Nat) => t0 + (i : K) * c.interval + (t : K) * c.interval) =
      (List.range m).map fun (t : Nat) => t0 + ((i + t : Nat) : K) * c.interval := by
    intro m
    refine List.map_congr_left fun t _ => ?_
    push_cast; ring
  simp only [calculateBufferTimes, hmap]
  split
  · rename_i h
    rw [hlast] at h
    have h1 : (n : K) < (i + c.slots : Nat) := by
      have : (n : K) * c.interval < ((i + c.slots : Nat) : K) * c.interval := by
        push_cast; linarith
      exact lt_of_mul_lt_mul_right this hdt.le
    have h2 : n < i + c.slots := by exact_mod_cast h1
    have hr : (c.lastTime + c.interval / 2 - (t0 + (i : K) * c.interval - c.interval / 2)) / c.interval =
        ((n - i : Nat) : K) := by
      rw [hlast, Nat.cast_sub hi.le, div_eq_iff hdt.ne']
      ring
    rw [hr, hround, if_neg (by omega)]
    refine ⟨n - i, by omega, by omega, ?_⟩
    rw [show min (max c.slots 1) (n - i) = n - i by omega, show i + (n - i) = n by omega, hlast]
    congr 2
    ring
  · rename_i h
    rw [hlast] at h
    have h1 : ((i + c.slots : Nat) : K) ≤ (n : K) := by
      have : ((i + c.slots : Nat) : K) * c.interval ≤ (n : K) * c.interval := by
        push_cast; linarith [not_lt.mp h]
      exact le_of_mul_le_mul_right this hdt
    refine ⟨c.slots, hslots, by exact_mod_cast h1, ?_⟩
    congr 2
    push_cast; ring

private theorem step_inv (round : K → Nat) (hround : ∀ n : Nat, round n = n) (c : TimeSettings K)
    (hdt : 0 < c.interval) (hslots : 0 < c.slots) (t0 : K) (n i : Nat) (hi : i < n)
    (hlast : c.lastTime = t0 + ((n : K) - 1) * c.interval) (st : TimeState K)
    (h : Inv c t0 n i st ∨ st.lastTime < t0 + (i : K) * c.interval) :
    ∃ st', timeProcess round c st (t0 + (i : K) * c.interval) = .ok st' ∧ Inv c t0 n (i + 1) st' := by
  obtain ⟨m, hm, hmn, hcalc⟩ := calc_spec round hround c hdt hslots t0 n i hi hlast
  have new : ∃ st', (match calculateBufferTimes round c (t0 + (i : K) * c.interval) with
      | .error e => Except.error e
      | .ok (last, times) => Except.ok (⟨last, 0, times⟩ : TimeState K)) = Except.ok st' ∧
      Inv c t0 n (i + 1) st' := by
    rw [hcalc]
    exact ⟨_, rfl, i, m, by omega, by omega, hmn, by simp, rfl, rfl⟩
  by_cases hlt : st.lastTime < t0 + (i : K) * c.interval
  · simp only [timeProcess]
    rw [if_pos hlt]
    exact new
  · rcases h with ⟨s, k, hs, hik, hkn, hst, htimes, hl⟩ | h
    · simp only [timeProcess]
      rw [if_neg hlt]
      refine ⟨_, rfl, s, k, by omega, ?_, hkn, ?_, htimes, hl⟩
      · by_contra hc
        apply hlt
        rw [hl, show s + k = i by omega]
        linarith
      · show st.timeStep + 1 + s + 1 = i + 1
        omega
    · exact absurd h hlt

/-- C91. For a regular input (times `t0 + i dt` up to the last time), every buffer uses the gains that were computed
for exactly its own time: whatever the number of time slots per update, also at the end where fewer remain, and also
when the stream stops before the last time. -/
theorem times_exact (round : K → Nat) (hround : ∀ n : Nat, round n = n) (c : TimeSettings K)
    (hdt : 0 < c.interval) (hslots : 0 < c.slots) (t0 : K) (ht0 : -1 < t0) (n m : Nat) (hm : m ≤ n)
    (hlast : c.lastTime = t0 + ((n : K) - 1) * c.interval) :
    timesUsed round c initialTime ((List.range m).map fun (i : Nat) => t0 + (i : K) * c.interval) =
      .ok ((List.range m).map fun (i : Nat) => some (t0 + (i : K) * c.interval)) := by
  have gen : ∀ (k i : Nat) (st : TimeState K), i + k ≤ n →
      (Inv c t0 n i st ∨ st.lastTime < t0 + (i : K) * c.interval) →
      timesUsed round c st ((List.range' i k).map fun (i : Nat) => t0 + (i : K) * c.interval) =
        .ok ((List.range' i k).map fun (i : Nat) => some (t0 + (i : K) * c.interval)) := by
    intro k
    induction k with
    | zero => intro i st _ _; rfl
    | succ k ih =>
      intro i st hik h
      obtain ⟨st', h1, h2⟩ := step_inv round hround c hdt hslots t0 n i (by omega) hlast st h
      have h3 := ih (i + 1) st' (by omega) (.inl h2)
      obtain ⟨s, l, hs, hil, hln, hst, htimes, hl⟩ := h2
      have h4 : st'.times[st'.timeStep]? = some (t0 + (i : K) * c.interval) := by
        rw [htimes, List.getElem?_map, List.getElem?_range (by omega)]
        simp only [Option.map_some]
        rw [show s + st'.timeStep = i by omega]
      simp only [List.range'_succ, List.map_cons, timesUsed, h1, h3, h4]
  have h := gen m 0 initialTime (by omega) (.inr (by simpa [initialTime] using ht0))
  rwa [← List.range_eq_range'] at h

/-- C91 needs the last time of the input to be right: a buffer after it gives a clamp with its limits in the wrong
order, which is undefined. -/
theorem after_last_time_undefined (round : K → Nat) (hround : ∀ x : K, x ≤ 0 → round x = 0) (c : TimeSettings K)
    (hdt : 0 < c.interval) (hslots : 0 < c.slots) (st : TimeState K) (time : K)
    (h : c.lastTime + c.interval ≤ time) (hst : st.lastTime < time) :
    timeProcess round c st time = .error .ub := by
  simp only [timeProcess]
  rw [if_pos hst]
  have hs : (1 : K) ≤ (c.slots : K) := by exact_mod_cast hslots
  have h2 : c.interval ≤ (c.slots : K) * c.interval := le_mul_of_one_le_left hdt.le hs
  simp only [calculateBufferTimes]
  rw [if_pos (by linarith), hround _ (div_nonpos_of_nonpos_of_nonneg (by linarith) hdt.le)]
  simp

end Times

/-! ## Examples -/

section Examples

private def exA : M2 ℚ := ⟨⟨1, 1⟩, ⟨0, 1⟩, ⟨2, 0⟩, ⟨1, -1⟩⟩
private def exB : M2 ℚ := ⟨⟨0, 2⟩, ⟨1, 0⟩, ⟨1, 0⟩, ⟨3, 0⟩⟩
private def exV : M2 ℚ := ⟨⟨1, 2⟩, ⟨3, 4⟩, ⟨5, 6⟩, ⟨7, 8⟩⟩
private def exS : Sample ℚ := ⟨exV, ⟨false, true, false, false⟩, weightsOf ⟨1, 2, 3, 4⟩⟩

/-- Of `full_data`, `full_weights`, `invert_spec` and `full_round_trip`: gains with inverses, and weights that
change. -/
example : (invert exA).isSome ∧ (invert exB).isSome ∧
    (applyFull (some4 exA) (some4 exB) true exS).1.data ≠ exS.data ∧
    (applyFull (some4 exA) (some4 exB) true exS).1.weights ≠ exS.weights ∧
    variance exA exB ⟨1, 2, 3, 4⟩ false false = 28 := by
  decide +kernel

/-- Of `invert_none_iff`: a singular matrix. -/
example : invert (⟨⟨1, 0⟩, ⟨0, 1⟩, ⟨0, 1⟩, ⟨-1, 0⟩⟩ : M2 ℚ) = none := by decide +kernel

/-- Of `diag_data`, `scalar_eq_diag`, `diag_weights` and `diag_round_trip`. -/
example : (⟨2, 0⟩ : Cx ℚ) ≠ 0 ∧ (⟨1/2, 0⟩ : Cx ℚ) * ⟨2, 0⟩ = 1 ∧
    (applyDiag (some ⟨2, 0⟩, some ⟨0, 1⟩) (some ⟨2, 0⟩, some ⟨3, 0⟩) true exS).1.weights =
      ⟨.fin (1/16), .fin (1/72), .fin (1/12), .fin (1/36)⟩ := by
  decide +kernel

/-- Of `full_not_finite` and `diag_not_finite`: counted the first time, and not again. -/
example : applyDiag (some ⟨2, 0⟩, none) (some ⟨2, 0⟩, some ⟨3, 0⟩) true exS =
      (⟨exV, ⟨true, true, true, true⟩, exS.weights⟩, true) ∧
    (applyDiag (some ⟨2, 0⟩, none) (some ⟨2, 0⟩, some ⟨3, 0⟩) true
      (applyDiag (some ⟨2, 0⟩, none) (some ⟨2, 0⟩, some ⟨3, 0⟩) true exS).1).2 = false := by
  decide +kernel

/-- Of `baseApply_spec`: an autocorrelation and a cross-correlation. -/
example : baseApply (fun p => if p = 0 then exA else exB) [(0, 0), (0, 1)] [[exV], [exV]] =
    [[exV], [exA * exV * exB.herm]] := by
  decide +kernel

/-- Of `correctionLoop_spec`: two baselines and two channels, visited backwards; antenna 1 has no finite gain at the
second channel of time step 1. -/
private def exLoop : Buf ℚ :=
  correctionLoop (fun a b => applyScalar a b false) (fun bl => bl) (fun _ => 2)
    (fun ant k => if ant = 1 ∧ k = 3 then none else some ⟨ant + 1, 0⟩) 2 1 (loopOrder 2 2).reverse
    ⟨fun _ _ => exS, fun _ => 0, fun _ => 0⟩

example : exLoop.perBaseline 1 = 1 ∧ exLoop.perBaseline 0 = 0 ∧ exLoop.perChannel 1 = 1 ∧ exLoop.perChannel 0 = 0 ∧
    (exLoop.sample 1 0).data = exV.smul ⟨6, 0⟩ ∧ (exLoop.sample 0 1).data = exV.smul ⟨3, 0⟩ ∧
    (exLoop.sample 1 1).data = exV := by
  decide +kernel

/-- Of `model_data_own_gains`: two directions. -/
example : (modelDataLoop (List.zipWith (fun x y => applyFull (some4 x) (some4 y) true) [exA, exB] [exB, exB])
    [exV, exA] exS.flags exS.weights).1 = [exA * exV * exB.herm, exB * exA * exB.herm] := by
  decide +kernel

/-- Of `times_exact`: five times, in groups of two, with one remaining. -/
example : timesUsed (fun x : ℚ => x.num.toNat) ⟨2, 18, 2⟩ initialTime [10, 12, 14, 16, 18] =
    .ok [some 10, some 12, some 14, some 16, some 18] := by
  decide +kernel

/-- Of `after_last_time_undefined`. -/
example : timesUsed (fun x : ℚ => x.num.toNat) ⟨2, 12, 2⟩ initialTime [10, 12, 14] = .error .ub := by
  decide +kernel

end Examples

end DP3.ApplyCal
