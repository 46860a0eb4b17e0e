import Verif.Estimate.Spec
import Mathlib.Tactic.Ring
import Mathlib.Tactic.Linarith
import Mathlib.Algebra.BigOperators.Ring.Finset
import Mathlib.Algebra.BigOperators.Group.List.Basic

/-!
# Lemmas on the loops of the estimation
-/

namespace DP3.Estimate

set_option linter.unusedSimpArgs false
set_option linter.unusedSectionVars false

variable {K : Type}

/-- A cursor moved over a distance. -/
def Cur.shift (c : Cur) (z : ℤ) : Cur := { c with pos := c.pos + z }

@[simp] theorem shift_pos (c : Cur) (z : ℤ) : (c.shift z).pos = c.pos + z := rfl
@[simp] theorem shift_stride (c : Cur) (z : ℤ) : (c.shift z).stride = c.stride := rfl
theorem shift_shift (c : Cur) (y z : ℤ) : (c.shift y).shift z = c.shift (y + z) := by
  simp [Cur.shift, add_assoc]
theorem shift_zero (c : Cur) : c.shift 0 = c := by simp [Cur.shift]
theorem forward_eq (c : Cur) (i : ℕ) : c.forward i = c.shift (c.stride i) := rfl
theorem backward_eq (c : Cur) (i n : ℕ) : c.backward i n = c.shift (-(n * c.stride i)) := by
  simp [Cur.shift, Cur.backward, sub_eq_add_neg]
theorem forwardN_eq (c : Cur) (i n : ℕ) : c.forwardN i n = c.shift (n * c.stride i) := rfl
theorem shift_forward (c : Cur) (z : ℤ) (i : ℕ) : (c.shift z).forward i = c.shift (z + c.stride i) := by
  rw [forward_eq, shift_shift, shift_stride]
theorem shift_backward (c : Cur) (z : ℤ) (i n : ℕ) : (c.shift z).backward i n = c.shift (z - n * c.stride i) := by
  rw [backward_eq, shift_shift, shift_stride, sub_eq_add_neg]

/-- All cursors moved to a channel of a baseline. -/
def Curs.moved (c : Curs) (bl ch : ℕ) : Curs where
  baselines := c.baselines.shift (bl * c.baselines.stride 0)
  data := fun d => (c.data d).shift (bl * (c.data d).stride 2 + ch * (c.data d).stride 1)
  model := fun d => (c.model d).shift (bl * (c.model d).stride 2 + ch * (c.model d).stride 1)
  flag := c.flag.shift (bl * c.flag.stride 2 + ch * c.flag.stride 1)
  weight := c.weight.shift (bl * c.weight.stride 2 + ch * c.weight.stride 1)
  mix := c.mix.shift (bl * c.mix.stride 4 + ch * c.mix.stride 3)

theorem Curs.moved_zero (c : Curs) : c.moved 0 0 = c := by
  cases c
  simp [Curs.moved, shift_zero]

section Ring
variable [CommRing K]

/-- The coefficients of all directions. -/
def coefs (f : Cx K → List (Cx K) → ℕ → List K) (mem : Mem K) (c : Curs) (nSt : ℕ) (u : ℕ → K) (bl ch cr tg : ℕ) (p q : ℕ) (n : ℕ) : List K :=
  (List.range n).flatMap fun dr => f (mem.mix (mixPlace c.mix bl ch cr dr tg))
    (derivatives (jones u (dr * nSt * 8 + p * 8)) (jonesConj u (dr * nSt * 8 + q * 8)) (modelVis mem c bl ch dr)) cr

/-- The visibility of all directions. -/
def visOf (mem : Mem K) (c : Curs) (nSt : ℕ) (u : ℕ → K) (bl ch cr tg : ℕ) (p q : ℕ) (n : ℕ) : Cx K :=
  ((List.range n).map fun dr => mem.mix (mixPlace c.mix bl ch cr dr tg) *
    (applied (jones u (dr * nSt * 8 + p * 8)) (jonesConj u (dr * nSt * 8 + q * 8)) (modelVis mem c bl ch dr)).getD cr 0).sum

/-- The two equations of a datum. -/
def datumRows (mem : Mem K) (c : Curs) (nDir nSt : ℕ) (u : ℕ → K) (bl ch cr tg : ℕ) : List (Row K) :=
  let p := (pair mem c bl).1
  let q := (pair mem c bl).2
  let res := mem.data tg (place (c.data tg) bl ch cr) - visOf mem c nSt u bl ch cr tg p q nDir
  let idx := ((makeIndex nDir nSt (p, q)).drop (cr * (nDir * 8))).take (nDir * 8)
  let w := mem.weight (place c.weight bl ch cr)
  [⟨idx, coefs coefR mem c nSt u bl ch cr tg p q nDir, w, res.re⟩, ⟨idx, coefs coefI mem c nSt u bl ch cr tg p q nDir, w, res.im⟩]

theorem modelAt_moved (mem : Mem K) (c : Curs) (bl ch dr : ℕ) : modelAt mem (c.moved bl ch) dr = modelVis mem c bl ch dr := by
  simp [modelAt, modelVis, Curs.moved, Cur.index, place, add_assoc]

theorem src_fold (mem : Mem K) (c : Curs) (nSt : ℕ) (u : ℕ → K) (p q bl ch cr tg : ℕ) (m : Cur)
    (hm : m = c.mix.shift (bl * c.mix.stride 4 + ch * c.mix.stride 3 + cr * c.mix.stride 2 + tg * c.mix.stride 0)) (n : ℕ) :
    (List.range n).foldl (srcStep mem (c.moved bl ch) nSt u p q cr) ⟨m, 0, [], []⟩ =
      ⟨m.shift (n * m.stride 1), visOf mem c nSt u bl ch cr tg p q n, coefs coefR mem c nSt u bl ch cr tg p q n,
        coefs coefI mem c nSt u bl ch cr tg p q n⟩ := by
  induction n with
  | zero => simp [visOf, coefs, shift_zero]
  | succ n ih =>
    have hp : (m.shift (n * m.stride 1)).pos = mixPlace c.mix bl ch cr n tg := by
      subst hm
      simp only [shift_pos, shift_stride, mixPlace]; ring
    rw [List.range_succ, List.foldl_append, ih, List.foldl_cons, List.foldl_nil]
    simp only [srcStep, hp, modelAt_moved, shift_forward]
    simp only [visOf, coefs, List.range_succ, List.map_append, List.sum_append, List.flatMap_append, List.map_cons, List.map_nil,
      List.sum_cons, List.sum_nil, List.flatMap_cons, List.flatMap_nil, List.append_nil, add_zero]
    simp only [Src.mk.injEq, and_true, Nat.cast_add, Nat.cast_one]
    congr 1; ring

theorem tg_fold (mem : Mem K) (c : Curs) (nDir nSt : ℕ) (u : ℕ → K) (bl ch cr : ℕ) (m : Cur) (rows : List (Row K))
    (hm : m = c.mix.shift (bl * c.mix.stride 4 + ch * c.mix.stride 3 + cr * c.mix.stride 2)) (n : ℕ) :
    (List.range n).foldl (tgStep mem (c.moved bl ch) nDir nSt u (pair mem c bl).1 (pair mem c bl).2 cr) (m, rows) =
      (m.shift (n * m.stride 0), rows ++ (List.range n).flatMap fun tg => datumRows mem c nDir nSt u bl ch cr tg) := by
  induction n with
  | zero => simp [shift_zero]
  | succ n ih =>
    rw [List.range_succ, List.foldl_append, ih, List.foldl_cons, List.foldl_nil]
    have hm' : m.shift (n * m.stride 0) = c.mix.shift (bl * c.mix.stride 4 + ch * c.mix.stride 3 + cr * c.mix.stride 2 + n * c.mix.stride 0) := by
      subst hm
      rw [shift_shift, shift_stride]
    unfold tgStep
    simp only
    rw [src_fold mem c nSt u _ _ bl ch cr n _ hm']
    rw [List.flatMap_append, ← List.append_assoc]
    simp only [List.flatMap_cons, List.flatMap_nil, List.append_nil, shift_backward, shift_forward, shift_stride, shift_shift,
      datumRows, Curs.moved, Cur.index, shift_pos, place]
    refine Prod.ext ?_ ?_
    · simp only [Nat.cast_add, Nat.cast_one]
      congr 1; ring
    · simp only [add_assoc]

theorem cr_fold (mem : Mem K) (c : Curs) (nDir nSt : ℕ) (u : ℕ → K) (bl ch : ℕ) (m : Cur) (rows : List (Row K))
    (hm : m = c.mix.shift (bl * c.mix.stride 4 + ch * c.mix.stride 3)) (n : ℕ) :
    (List.range n).foldl (crStep mem (c.moved bl ch) nDir nSt u (pair mem c bl).1 (pair mem c bl).2) (m, rows) =
      (m.shift (n * m.stride 2), rows ++ (List.range n).flatMap fun cr => if mem.flag (place c.flag bl ch cr) = false then
        (List.range nDir).flatMap fun tg => datumRows mem c nDir nSt u bl ch cr tg else []) := by
  induction n with
  | zero => simp [shift_zero]
  | succ n ih =>
    rw [List.range_succ, List.foldl_append, ih, List.foldl_cons, List.foldl_nil]
    have hm' : m.shift (n * m.stride 2) = c.mix.shift (bl * c.mix.stride 4 + ch * c.mix.stride 3 + n * c.mix.stride 2) := by
      subst hm
      rw [shift_shift, shift_stride]
    have hf : mem.flag ((c.moved bl ch).flag.index n) = mem.flag (place c.flag bl ch n) := by
      simp [Curs.moved, Cur.index, place, add_assoc]
    have hc : ((n : ℤ) * m.stride 2 + m.stride 2) = ((n + 1 : ℕ) : ℤ) * m.stride 2 := by push_cast; ring
    rw [List.flatMap_append, ← List.append_assoc, List.flatMap_cons, List.flatMap_nil, List.append_nil]
    unfold crStep
    rw [hf]
    by_cases h : mem.flag (place c.flag bl ch n) = true
    · rw [if_pos h, if_neg (by simp [h])]
      simp only [shift_forward, List.append_nil, hc]
    · rw [if_neg h, if_pos (by simpa using h)]
      simp only
      rw [tg_fold mem c nDir nSt u bl ch n _ _ hm']
      simp only [shift_backward, shift_forward, shift_stride, shift_shift]
      refine Prod.ext ?_ rfl
      simp only [Nat.cast_add, Nat.cast_one]
      congr 1; ring

/-- The equations of a channel. -/
def chRows (mem : Mem K) (c : Curs) (nDir nSt : ℕ) (u : ℕ → K) (bl ch : ℕ) : List (Row K) :=
  (List.range 4).flatMap fun cr => if mem.flag (place c.flag bl ch cr) = false then
    (List.range nDir).flatMap fun tg => datumRows mem c nDir nSt u bl ch cr tg else []

theorem ch_fold (mem : Mem K) (c : Curs) (nDir nSt : ℕ) (u : ℕ → K) (bl : ℕ) (rows : List (Row K)) (n : ℕ) :
    (List.range n).foldl (chStep mem nDir nSt u (pair mem c bl).1 (pair mem c bl).2) (c.moved bl 0, rows) =
      (c.moved bl n, rows ++ (List.range n).flatMap fun ch => chRows mem c nDir nSt u bl ch) := by
  induction n with
  | zero => simp
  | succ n ih =>
    rw [List.range_succ, List.foldl_append, ih, List.foldl_cons, List.foldl_nil]
    unfold chStep
    simp only
    rw [cr_fold mem c nDir nSt u bl n (c.moved bl n).mix _ rfl]
    rw [List.flatMap_append, ← List.append_assoc, List.flatMap_cons, List.flatMap_nil, List.append_nil]
    refine Prod.ext ?_ rfl
    simp only [Curs.moved, shift_forward, shift_backward, shift_stride, shift_shift, Nat.cast_add, Nat.cast_one, Curs.mk.injEq, true_and]
    refine ⟨?_, ?_, ?_, ?_, ?_⟩
    · funext d; congr 1; ring
    · funext d; congr 1; ring
    · congr 1; ring
    · congr 1; ring
    · congr 1; push_cast; ring

theorem bl_fold (mem : Mem K) (c : Curs) (nDir nSt nCh : ℕ) (u : ℕ → K) (n : ℕ) :
    (List.range n).foldl (blStep mem nDir nSt nCh u) (c, []) =
      (c.moved n 0, (List.range n).flatMap fun bl => if (pair mem c bl).1 ≠ (pair mem c bl).2 then
        (List.range nCh).flatMap fun ch => chRows mem c nDir nSt u bl ch else []) := by
  induction n with
  | zero => simp [Curs.moved_zero]
  | succ n ih =>
    rw [List.range_succ, List.foldl_append, ih, List.foldl_cons, List.foldl_nil]
    rw [List.flatMap_append, List.flatMap_cons, List.flatMap_nil, List.append_nil]
    have hb : mem.baselines (c.moved n 0).baselines.pos = pair mem c n := rfl
    unfold blStep
    simp only [hb]
    by_cases h : (pair mem c n).1 ≠ (pair mem c n).2
    · rw [if_pos h, if_pos h]
      rw [ch_fold]
      refine Prod.ext ?_ rfl
      simp only [Curs.moved, shift_forward, shift_backward, shift_stride, shift_shift, Nat.cast_add, Nat.cast_one, Curs.mk.injEq, true_and]
      refine ⟨?_, ?_, ?_, ?_, ?_, ?_⟩
      · congr 1; ring
      · funext d; congr 1; push_cast; ring
      · funext d; congr 1; push_cast; ring
      · congr 1; push_cast; ring
      · congr 1; push_cast; ring
      · congr 1; push_cast; ring
    · rw [if_neg h, if_neg h, List.append_nil]
      refine Prod.ext ?_ rfl
      simp only [Curs.moved, shift_forward, shift_backward, shift_stride, shift_shift, Nat.cast_add, Nat.cast_one, Curs.mk.injEq, true_and]
      refine ⟨?_, ?_, ?_, ?_, ?_, ?_⟩
      · congr 1; ring
      · funext d; congr 1; push_cast; ring
      · funext d; congr 1; push_cast; ring
      · congr 1; push_cast; ring
      · congr 1; push_cast; ring
      · congr 1; push_cast; ring

theorem iteration_eq (mem : Mem K) (c : Curs) (nDir nSt nBl nCh : ℕ) (u : ℕ → K) :
    iteration mem nDir nSt nBl nCh u c = (c, (used mem c nDir nBl nCh).flatMap fun d => datumRows mem c nDir nSt u d.bl d.ch d.cr d.tg) := by
  unfold iteration
  rw [bl_fold]
  refine Prod.ext ?_ ?_
  · simp only [Curs.moved, shift_forward, shift_backward, shift_stride, shift_shift]
    cases c
    simp [shift_zero]
  · simp only [used, List.flatMap_assoc]
    congr 1; funext bl
    by_cases h : (pair mem c bl).1 ≠ (pair mem c bl).2
    · rw [if_pos h]
      congr 1; funext ch
      unfold chRows
      congr 1; funext cr
      by_cases hf : mem.flag (place c.flag bl ch cr) = false
      · rw [if_pos hf, if_pos ⟨h, hf⟩, List.flatMap_map]
      · rw [if_neg hf, if_neg (fun x => hf x.2), List.flatMap_nil]
    · rw [if_neg h]
      symm
      rw [List.flatMap_eq_nil_iff]
      intro ch _
      rw [List.flatMap_eq_nil_iff]
      intro cr _
      rw [if_neg (fun x => h x.1), List.flatMap_nil]

/-- The coefficients of an equation applied to a step. -/
def dot (r : Row K) (δ : ℕ → K) : K := ((r.index.zip r.coef).map fun a => a.2 * δ a.1).sum

theorem sum_pick (l : List (ℕ × K)) (n : ℕ) (h : ∀ a ∈ l, a.1 < n) (w : K) (δ : ℕ → K) :
    (∑ i ∈ Finset.range n, (l.map fun a => if a.1 = i then w * a.2 else 0).sum * δ i) = w * (l.map fun a => a.2 * δ a.1).sum := by
  induction l with
  | nil => simp
  | cons a l ih =>
    simp only [List.map_cons, List.sum_cons, add_mul, Finset.sum_add_distrib]
    rw [ih (fun b hb => h b (List.mem_cons_of_mem _ hb))]
    have : (∑ i ∈ Finset.range n, (if a.1 = i then w * a.2 else 0) * δ i) = w * a.2 * δ a.1 := by
      rw [Finset.sum_eq_single a.1]
      · rw [if_pos rfl]
      · intro b _ hb
        rw [if_neg (Ne.symm hb), zero_mul]
      · intro hn
        exact absurd (Finset.mem_range.mpr (h a (List.mem_cons_self))) hn
    rw [this]; ring

theorem known_dot (rows : List (Row K)) (n : ℕ) (h : ∀ r ∈ rows, ∀ i ∈ r.index, i < n) (δ : ℕ → K) :
    (∑ i ∈ Finset.range n, known rows i * δ i) = (rows.map fun r => r.weight * (r.obs * dot r δ)).sum := by
  induction rows with
  | nil => simp [known]
  | cons r rows ih =>
    have hi := ih (fun r' hr' => h r' (List.mem_cons_of_mem _ hr'))
    simp only [known, List.map_cons, List.sum_cons, add_mul, Finset.sum_add_distrib] at hi ⊢
    rw [hi]
    congr 1
    have := sum_pick (r.index.zip r.coef) n (fun a ha => h r (List.mem_cons_self) a.1 (List.of_mem_zip ha).1) (r.weight * r.obs) δ
    rw [dot, ← mul_assoc, ← this]
    apply Finset.sum_congr rfl
    intro i _
    congr 3
    funext a
    split <;> ring

theorem normal_row (rows : List (Row K)) (n : ℕ) (h : ∀ r ∈ rows, ∀ i ∈ r.index, i < n) (δ : ℕ → K) (i : ℕ) :
    (∑ j ∈ Finset.range n, normal rows i j * δ j) = known (rows.map fun r => { r with obs := dot r δ }) i := by
  induction rows with
  | nil => simp [known, normal]
  | cons r rows ih =>
    have hi := ih (fun r' hr' => h r' (List.mem_cons_of_mem _ hr'))
    simp only [known, normal, List.map_cons, List.sum_cons, add_mul, Finset.sum_add_distrib, List.map_map, Function.comp_def] at hi ⊢
    rw [hi]
    congr 1
    have hz : ∀ a ∈ r.index.zip r.coef, a.1 < n := fun a ha => h r (List.mem_cons_self) a.1 (List.of_mem_zip ha).1
    have key : ∀ l : List (ℕ × K), (∑ j ∈ Finset.range n, (l.map fun a => ((r.index.zip r.coef).map fun b =>
        if a.1 = i ∧ b.1 = j then r.weight * (a.2 * b.2) else 0).sum).sum * δ j) =
        (l.map fun a => if a.1 = i then r.weight * (a.2 * dot r δ) else 0).sum := by
      intro l
      induction l with
      | nil => simp
      | cons a l ihl =>
        simp only [List.map_cons, List.sum_cons, add_mul, Finset.sum_add_distrib, ihl]
        congr 1
        by_cases ha : a.1 = i
        · rw [if_pos ha]
          have := sum_pick (r.index.zip r.coef) n hz (r.weight * a.2) δ
          rw [dot, ← mul_assoc, ← this]
          apply Finset.sum_congr rfl
          intro j _
          congr 3
          funext b
          simp only [ha, true_and, mul_assoc]
        · rw [if_neg ha]
          apply Finset.sum_eq_zero
          intro j _
          simp [ha]
    exact key _

end Ring

end DP3.Estimate
