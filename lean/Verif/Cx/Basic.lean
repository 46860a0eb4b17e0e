import Mathlib.Algebra.Order.Ring.Defs
import Mathlib.Algebra.Field.Defs
import Mathlib.Algebra.Ring.MinimalAxioms
import Mathlib.Tactic.Ring
import Mathlib.Tactic.Linarith

/-!
# Complex numbers and 2x2 matrices

The numbers of `std::complex` and the matrices of aocommon (`MC2x2`, a submodule that is not in the
repository), over any ring. They are used in the models of the solvers and of the steps that apply
solutions. All arithmetic is exact.
-/

namespace DP3

/-- `std::complex` (used for visibilities and solutions, ddecal/gain_solvers/SolverBase.h:26-27). -/
@[ext] structure Cx (K : Type) where
  re : K
  im : K
  deriving DecidableEq, Repr

namespace Cx

variable {K : Type}

section Ring
variable [CommRing K]

instance : Zero (Cx K) := ⟨⟨0, 0⟩⟩
instance : One (Cx K) := ⟨⟨1, 0⟩⟩
instance : Add (Cx K) := ⟨fun a b => ⟨a.re + b.re, a.im + b.im⟩⟩
instance : Neg (Cx K) := ⟨fun a => ⟨-a.re, -a.im⟩⟩
instance : Sub (Cx K) := ⟨fun a b => ⟨a.re - b.re, a.im - b.im⟩⟩
instance : Mul (Cx K) := ⟨fun a b => ⟨a.re * b.re - a.im * b.im, a.re * b.im + a.im * b.re⟩⟩

@[simp] theorem zero_re : (0 : Cx K).re = 0 := rfl
@[simp] theorem zero_im : (0 : Cx K).im = 0 := rfl
@[simp] theorem one_re : (1 : Cx K).re = 1 := rfl
@[simp] theorem one_im : (1 : Cx K).im = 0 := rfl
@[simp] theorem add_re (a b : Cx K) : (a + b).re = a.re + b.re := rfl
@[simp] theorem add_im (a b : Cx K) : (a + b).im = a.im + b.im := rfl
@[simp] theorem neg_re (a : Cx K) : (-a).re = -a.re := rfl
@[simp] theorem neg_im (a : Cx K) : (-a).im = -a.im := rfl
@[simp] theorem sub_re (a b : Cx K) : (a - b).re = a.re - b.re := rfl
@[simp] theorem sub_im (a b : Cx K) : (a - b).im = a.im - b.im := rfl
@[simp] theorem mul_re (a b : Cx K) : (a * b).re = a.re * b.re - a.im * b.im := rfl
@[simp] theorem mul_im (a b : Cx K) : (a * b).im = a.re * b.im + a.im * b.re := rfl

instance : CommRing (Cx K) where
  add_assoc a b c := by ext <;> simp <;> ring
  zero_add a := by ext <;> simp
  add_zero a := by ext <;> simp
  add_comm a b := by ext <;> simp <;> ring
  neg_add_cancel a := by ext <;> simp
  sub_eq_add_neg a b := by ext <;> simp <;> ring
  mul_assoc a b c := by ext <;> simp <;> ring
  one_mul a := by ext <;> simp
  mul_one a := by ext <;> simp
  left_distrib a b c := by ext <;> simp <;> ring
  right_distrib a b c := by ext <;> simp <;> ring
  zero_mul a := by ext <;> simp
  mul_zero a := by ext <;> simp
  mul_comm a b := by ext <;> simp <;> ring
  nsmul := nsmulRec
  zsmul := zsmulRec

/-- `std::conj`, used at ddecal/gain_solvers/IterativeScalarSolver.cc:21. -/
def conj (a : Cx K) : Cx K := ⟨a.re, -a.im⟩

/-- `std::norm`: the squared absolute value, used at IterativeScalarSolver.cc:27. -/
def normSq (a : Cx K) : K := a.re * a.re + a.im * a.im

/-- A real number (conversion to `std::complex`). -/
def ofReal (x : K) : Cx K := ⟨x, 0⟩

@[simp] theorem conj_re (a : Cx K) : (conj a).re = a.re := rfl
@[simp] theorem conj_im (a : Cx K) : (conj a).im = -a.im := rfl
@[simp] theorem ofReal_re (x : K) : (ofReal x).re = x := rfl
@[simp] theorem ofReal_im (x : K) : (ofReal x).im = 0 := rfl
@[simp] theorem conj_conj (a : Cx K) : conj (conj a) = a := by ext <;> simp
@[simp] theorem conj_zero : conj (0 : Cx K) = 0 := by ext <;> simp
@[simp] theorem conj_one : conj (1 : Cx K) = 1 := by ext <;> simp
theorem conj_add (a b : Cx K) : conj (a + b) = conj a + conj b := by ext <;> simp; ring
theorem conj_sub (a b : Cx K) : conj (a - b) = conj a - conj b := by ext <;> simp; ring
theorem conj_neg (a : Cx K) : conj (-a) = -conj a := by ext <;> simp
theorem conj_mul (a b : Cx K) : conj (a * b) = conj a * conj b := by ext <;> simp; ring
@[simp] theorem conj_ofReal (x : K) : conj (ofReal x) = ofReal x := by ext <;> simp
theorem mul_conj (a : Cx K) : a * conj a = ofReal (normSq a) := by
  ext <;> simp [normSq]; ring
theorem normSq_conj (a : Cx K) : normSq (conj a) = normSq a := by simp [normSq]
theorem normSq_mul (a b : Cx K) : normSq (a * b) = normSq a * normSq b := by simp [normSq]; ring
@[simp] theorem normSq_zero : normSq (0 : Cx K) = 0 := by simp [normSq]
@[simp] theorem ofReal_zero : ofReal (0 : K) = 0 := rfl
@[simp] theorem ofReal_one : ofReal (1 : K) = 1 := rfl
theorem ofReal_add (x y : K) : ofReal (x + y) = ofReal x + ofReal y := by ext <;> simp
theorem ofReal_mul (x y : K) : ofReal (x * y) = ofReal x * ofReal y := by ext <;> simp

end Ring

section Order
variable [CommRing K] [LinearOrder K] [IsStrictOrderedRing K]

theorem normSq_nonneg (a : Cx K) : 0 ≤ normSq a :=
  add_nonneg (mul_self_nonneg _) (mul_self_nonneg _)

theorem normSq_eq_zero {a : Cx K} : normSq a = 0 ↔ a = 0 := by
  constructor
  · intro h
    have h1 := mul_self_nonneg a.re
    have h2 := mul_self_nonneg a.im
    simp only [normSq] at h
    ext
    · exact mul_self_eq_zero.mp (by linarith)
    · exact mul_self_eq_zero.mp (by linarith)
  · rintro rfl; simp

end Order

section Division
variable [Field K]

/-- Division by a real number, used at IterativeScalarSolver.cc:192. -/
def divReal (a : Cx K) (x : K) : Cx K := ⟨a.re / x, a.im / x⟩

/-- The quotient of complex numbers, used by `MC2x2::Invert`. -/
def div (a b : Cx K) : Cx K := divReal (a * conj b) (normSq b)

end Division

end Cx

/-- `aocommon::MC2x2`, with the elements in the order XX, XY, YX, YY (as used in
ddecal/gain_solvers/IterativeFullJonesSolver.cc). -/
@[ext] structure M2 (K : Type) where
  a : Cx K
  b : Cx K
  c : Cx K
  d : Cx K
  deriving DecidableEq, Repr

namespace M2

variable {K : Type}

section Ring
variable [CommRing K]

instance : Zero (M2 K) := ⟨⟨0, 0, 0, 0⟩⟩
instance : One (M2 K) := ⟨⟨1, 0, 0, 1⟩⟩
instance : Add (M2 K) := ⟨fun m n => ⟨m.a + n.a, m.b + n.b, m.c + n.c, m.d + n.d⟩⟩
instance : Neg (M2 K) := ⟨fun m => ⟨-m.a, -m.b, -m.c, -m.d⟩⟩
instance : Sub (M2 K) := ⟨fun m n => ⟨m.a - n.a, m.b - n.b, m.c - n.c, m.d - n.d⟩⟩
instance : Mul (M2 K) := ⟨fun m n =>
  ⟨m.a * n.a + m.b * n.c, m.a * n.b + m.b * n.d, m.c * n.a + m.d * n.c, m.c * n.b + m.d * n.d⟩⟩

@[simp] theorem zero_a : (0 : M2 K).a = 0 := rfl
@[simp] theorem zero_b : (0 : M2 K).b = 0 := rfl
@[simp] theorem zero_c : (0 : M2 K).c = 0 := rfl
@[simp] theorem zero_d : (0 : M2 K).d = 0 := rfl
@[simp] theorem one_a : (1 : M2 K).a = 1 := rfl
@[simp] theorem one_b : (1 : M2 K).b = 0 := rfl
@[simp] theorem one_c : (1 : M2 K).c = 0 := rfl
@[simp] theorem one_d : (1 : M2 K).d = 1 := rfl
@[simp] theorem add_a (m n : M2 K) : (m + n).a = m.a + n.a := rfl
@[simp] theorem add_b (m n : M2 K) : (m + n).b = m.b + n.b := rfl
@[simp] theorem add_c (m n : M2 K) : (m + n).c = m.c + n.c := rfl
@[simp] theorem add_d (m n : M2 K) : (m + n).d = m.d + n.d := rfl
@[simp] theorem neg_a (m : M2 K) : (-m).a = -m.a := rfl
@[simp] theorem neg_b (m : M2 K) : (-m).b = -m.b := rfl
@[simp] theorem neg_c (m : M2 K) : (-m).c = -m.c := rfl
@[simp] theorem neg_d (m : M2 K) : (-m).d = -m.d := rfl
@[simp] theorem sub_a (m n : M2 K) : (m - n).a = m.a - n.a := rfl
@[simp] theorem sub_b (m n : M2 K) : (m - n).b = m.b - n.b := rfl
@[simp] theorem sub_c (m n : M2 K) : (m - n).c = m.c - n.c := rfl
@[simp] theorem sub_d (m n : M2 K) : (m - n).d = m.d - n.d := rfl
@[simp] theorem mul_a (m n : M2 K) : (m * n).a = m.a * n.a + m.b * n.c := rfl
@[simp] theorem mul_b (m n : M2 K) : (m * n).b = m.a * n.b + m.b * n.d := rfl
@[simp] theorem mul_c (m n : M2 K) : (m * n).c = m.c * n.a + m.d * n.c := rfl
@[simp] theorem mul_d (m n : M2 K) : (m * n).d = m.c * n.b + m.d * n.d := rfl

instance : Ring (M2 K) where
  add_assoc a b c := by ext <;> simp <;> ring
  zero_add a := by ext <;> simp
  add_zero a := by ext <;> simp
  add_comm a b := by ext <;> simp <;> ring
  neg_add_cancel a := by ext <;> simp
  sub_eq_add_neg a b := by ext <;> simp <;> ring
  mul_assoc a b c := by ext <;> simp <;> ring
  one_mul a := by ext <;> simp
  mul_one a := by ext <;> simp
  left_distrib a b c := by ext <;> simp <;> ring
  right_distrib a b c := by ext <;> simp <;> ring
  zero_mul a := by ext <;> simp
  mul_zero a := by ext <;> simp
  nsmul := nsmulRec
  zsmul := zsmulRec

/-- `HermTranspose`, used at ddecal/gain_solvers/IterativeFullJonesSolver.cc:159. -/
def herm (m : M2 K) : M2 K := ⟨m.a.conj, m.c.conj, m.b.conj, m.d.conj⟩

/-- The product with a number, used at IterativeScalarSolver.cc:170. -/
def smul (m : M2 K) (x : Cx K) : M2 K := ⟨m.a * x, m.b * x, m.c * x, m.d * x⟩

/-- `Trace`, used at IterativeScalarSolver.cc:166. -/
def trace (m : M2 K) : Cx K := m.a + m.d

/-- `Norm`: the sum of the squared absolute values, used at IterativeScalarSolver.cc:167. -/
def norm (m : M2 K) : K := m.a.normSq + m.b.normSq + m.c.normSq + m.d.normSq

/-- `Determinant`, used by `Invert`. -/
def det (m : M2 K) : Cx K := m.a * m.d - m.b * m.c

@[simp] theorem herm_herm (m : M2 K) : herm (herm m) = m := by ext <;> simp [herm]
theorem herm_mul (m n : M2 K) : herm (m * n) = herm n * herm m := by
  ext <;> simp [herm] <;> ring
theorem herm_add (m n : M2 K) : herm (m + n) = herm m + herm n := by
  simp [M2.ext_iff, herm, Cx.conj_add]
theorem herm_sub (m n : M2 K) : herm (m - n) = herm m - herm n := by
  simp [M2.ext_iff, herm, Cx.conj_sub]
theorem herm_smul (m : M2 K) (x : Cx K) : herm (smul m x) = smul (herm m) x.conj := by
  simp [herm, smul, Cx.conj_mul]
theorem smul_smul (m : M2 K) (x y : Cx K) : smul (smul m x) y = smul m (x * y) := by
  ext <;> simp [smul] <;> ring
theorem norm_herm (m : M2 K) : norm (herm m) = norm m := by
  simp [norm, herm, Cx.normSq_conj]; ring
@[simp] theorem norm_zero : norm (0 : M2 K) = 0 := by simp [norm]

/-- The norm of a sum. -/
theorem norm_add (m n : M2 K) : norm (m + n) = norm m + 2 * (trace (m * herm n)).re + norm n := by
  simp [norm, trace, herm, Cx.normSq]; ring

end Ring

section Order
variable [CommRing K] [LinearOrder K] [IsStrictOrderedRing K]

theorem norm_nonneg (m : M2 K) : 0 ≤ norm m :=
  add_nonneg (add_nonneg (add_nonneg (Cx.normSq_nonneg _) (Cx.normSq_nonneg _)) (Cx.normSq_nonneg _))
    (Cx.normSq_nonneg _)

theorem norm_eq_zero {m : M2 K} : norm m = 0 ↔ m = 0 := by
  constructor
  · intro h
    have h1 := Cx.normSq_nonneg m.a
    have h2 := Cx.normSq_nonneg m.b
    have h3 := Cx.normSq_nonneg m.c
    have h4 := Cx.normSq_nonneg m.d
    simp only [norm] at h
    refine M2.ext ?_ ?_ ?_ ?_
    · exact Cx.normSq_eq_zero.mp (by linarith)
    · exact Cx.normSq_eq_zero.mp (by linarith)
    · exact Cx.normSq_eq_zero.mp (by linarith)
    · exact Cx.normSq_eq_zero.mp (by linarith)
  · rintro rfl; simp

end Order

section Inverse
variable [Field K] [DecidableEq K]

/-- `MC2x2::Invert`: nothing for a singular matrix, used at IterativeFullJonesSolver.cc:183. -/
def inv (m : M2 K) : Option (M2 K) :=
  if m.det = 0 then none
  else some ⟨m.d.div m.det, (-m.b).div m.det, (-m.c).div m.det, m.a.div m.det⟩

end Inverse

end M2

/-- `aocommon::MC2x2Diag`, used at ddecal/gain_solvers/IterativeDiagonalSolver.cc:141. -/
@[ext] structure D2 (K : Type) where
  x : Cx K
  y : Cx K
  deriving DecidableEq, Repr

namespace D2

variable {K : Type} [CommRing K]

instance : Zero (D2 K) := ⟨⟨0, 0⟩⟩
instance : Add (D2 K) := ⟨fun m n => ⟨m.x + n.x, m.y + n.y⟩⟩
instance : Neg (D2 K) := ⟨fun m => ⟨-m.x, -m.y⟩⟩
instance : Sub (D2 K) := ⟨fun m n => ⟨m.x - n.x, m.y - n.y⟩⟩
instance : Mul (D2 K) := ⟨fun m n => ⟨m.x * n.x, m.y * n.y⟩⟩

@[simp] theorem zero_x : (0 : D2 K).x = 0 := rfl
@[simp] theorem zero_y : (0 : D2 K).y = 0 := rfl
@[simp] theorem add_x (m n : D2 K) : (m + n).x = m.x + n.x := rfl
@[simp] theorem add_y (m n : D2 K) : (m + n).y = m.y + n.y := rfl
@[simp] theorem neg_x (m : D2 K) : (-m).x = -m.x := rfl
@[simp] theorem neg_y (m : D2 K) : (-m).y = -m.y := rfl
@[simp] theorem sub_x (m n : D2 K) : (m - n).x = m.x - n.x := rfl
@[simp] theorem sub_y (m n : D2 K) : (m - n).y = m.y - n.y := rfl
@[simp] theorem mul_x (m n : D2 K) : (m * n).x = m.x * n.x := rfl
@[simp] theorem mul_y (m n : D2 K) : (m * n).y = m.y * n.y := rfl

instance : AddCommGroup (D2 K) where
  add_assoc a b c := by ext <;> simp <;> ring
  zero_add a := by ext <;> simp
  add_zero a := by ext <;> simp
  add_comm a b := by ext <;> simp <;> ring
  neg_add_cancel a := by ext <;> simp
  sub_eq_add_neg a b := by ext <;> simp <;> ring
  nsmul := nsmulRec
  zsmul := zsmulRec

/-- `HermTranspose`, used at ddecal/gain_solvers/SolveData.h:237. -/
def herm (m : D2 K) : D2 K := ⟨m.x.conj, m.y.conj⟩

/-- As a full matrix, for products with one (SolveData.h:236). -/
def toM2 (m : D2 K) : M2 K := ⟨m.x, 0, 0, m.y⟩

end D2

end DP3
