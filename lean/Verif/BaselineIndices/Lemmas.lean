import Verif.BaselineIndices.Model
import Mathlib.Tactic.Ring
import Mathlib.Tactic.Linarith

namespace DP3.BaselineIndices

/-- Twice a triangular number. -/
theorem two_mul_tri (t : Nat) : 2 * (t * (t + 1) / 2) = t * (t + 1) :=
  Nat.mul_div_cancel' (Nat.even_mul_succ_self t).two_dvd

theorem two_mul_tri_pred (t : Nat) : 2 * (t * (t - 1) / 2) = t * (t - 1) :=
  Nat.mul_div_cancel' (Nat.even_mul_pred_self t).two_dvd

theorem triangleRoot_eq {m t : Nat} (h1 : t * (t + 1) ≤ 2 * m)
    (h2 : 2 * m < (t + 1) * (t + 2)) : triangleRoot m = t + 1 := by
  have hs1 : 2 * t + 1 ≤ Nat.sqrt (1 + 8 * m) := by
    rw [Nat.le_sqrt]
    nlinarith
  have hs2 : Nat.sqrt (1 + 8 * m) < 2 * t + 3 := by
    rw [Nat.sqrt_lt]
    nlinarith
  unfold triangleRoot
  omega

theorem two_nBaselines (n : Nat) : 2 * nBaselines n = n * (n + 1) := by
  unfold nBaselines
  have := two_mul_tri_pred n
  cases n with
  | zero => rfl
  | succ k =>
    simp only [Nat.add_sub_cancel] at *
    nlinarith

/-- Row-major index of `(r,c)` in terms of doubled numbers. -/
theorem two_rowMajor {r c n : Nat} (hrc : r ≤ c) (hc : c < n) :
    2 * (r * n + c - r * (r + 1) / 2) + r * (r + 1) = 2 * (r * n + c) := by
  have e := two_mul_tri r
  have hle : r * (r + 1) / 2 ≤ r * n + c := by
    have : r * (r + 1) ≤ r * n := Nat.mul_le_mul_left r (by omega)
    omega
  omega

theorem exists_tri (m : Nat) : ∃ t, t * (t + 1) / 2 ≤ m ∧ m < (t + 1) * (t + 2) / 2 := by
  induction m with
  | zero => exact ⟨0, by decide, by decide⟩
  | succ m ih =>
    obtain ⟨t, h1, h2⟩ := ih
    by_cases h : m + 1 < (t + 1) * (t + 2) / 2
    · exact ⟨t, by omega, h⟩
    · refine ⟨t + 1, ?_, ?_⟩
      · have : (t + 1) * (t + 1 + 1) / 2 = (t + 1) * (t + 2) / 2 := by ring_nf
        omega
      · have e1 : 2 * ((t + 1) * (t + 2) / 2) = (t + 1) * (t + 2) := two_mul_tri (t + 1)
        have e2 : 2 * ((t + 1 + 1) * (t + 1 + 2) / 2) = (t + 1 + 1) * (t + 1 + 2) :=
          two_mul_tri (t + 1 + 1)
        generalize (t + 1) * (t + 2) / 2 = x at *
        generalize (t + 1 + 1) * (t + 1 + 2) / 2 = y at *
        nlinarith

end DP3.BaselineIndices
