import Verif.NullStokes.Model
import Mathlib.Algebra.Field.Rat
import Mathlib.Tactic.Ring
import Mathlib.Tactic.FieldSimp
import Mathlib.Tactic.LinearCombination

/-!
# Properties of NullStokes (C51)
-/

namespace DP3.NullStokes

set_option linter.unusedSectionVars false

variable {C : Type} [Field C]

/-- The Stokes parameters. -/
inductive Stokes | I | Q | U | V

/-- The Stokes parameters of four correlations; V without the factor -i. -/
def stokes (xx xy yx yy : C) : Stokes → C
  | .I => xx + yy
  | .Q => xx - yy
  | .U => xy + yx
  | .V => xy - yx

/-- Which Stokes parameters were asked for. -/
def Modify.asked (m : Modify) : Stokes → Bool
  | .I => m.i
  | .Q => m.q
  | .U => m.u
  | .V => m.v

private theorem vis_spec (h2 : (2 : C) ≠ 0) (m : Modify) (v : Vis C) (s : Stokes) :
    stokes (modifyVis m v).xx (modifyVis m v).xy (modifyVis m v).yx (modifyVis m v).yy s =
      if m.asked s then 0 else stokes v.xx v.xy v.yx v.yy s := by
  obtain ⟨i, q, u, w⟩ := m
  cases s <;> cases i <;> cases q <;> cases u <;> cases w <;>
    simp [stokes, Modify.asked, modifyVis, makeIZero, makeQZero, makeUZero, makeVZero] <;>
    (try field_simp) <;> (try ring)

private theorem ind {motive : List C → Prop} (h0 : motive []) (h1 : ∀ a, motive [a])
    (h2 : ∀ a b, motive [a, b]) (h3 : ∀ a b c, motive [a, b, c])
    (h4 : ∀ a b c d r, motive r → motive (a :: b :: c :: d :: r)) : ∀ l, motive l
  | [] => h0
  | [a] => h1 a
  | [a, b] => h2 a b
  | [a, b, c] => h3 a b c
  | a :: b :: c :: d :: r => h4 a b c d r (ind h0 h1 h2 h3 h4 r)

/-- C51: with four correlations the step succeeds, and in every visibility the Stokes parameters that
were asked for are zero and the others are unchanged. -/
theorem process_spec (h2 : (2 : C) ≠ 0) (m : Modify) (l : List C) (h4 : 4 ∣ l.length) :
    ∃ out, process m l = some out ∧ out.length = l.length ∧
      ∀ (k : Nat) (a b c d : C), l[4 * k]? = some a → l[4 * k + 1]? = some b →
        l[4 * k + 2]? = some c → l[4 * k + 3]? = some d →
        ∃ a' b' c' d', out[4 * k]? = some a' ∧ out[4 * k + 1]? = some b' ∧
          out[4 * k + 2]? = some c' ∧ out[4 * k + 3]? = some d' ∧
          ∀ s, stokes a' b' c' d' s = if m.asked s then 0 else stokes a b c d s := by
  induction l using ind with
  | h0 => exact ⟨[], by simp [process], rfl, by simp⟩
  | h4 a b c d rest ih =>
    have h4' : 4 ∣ rest.length := by
      simp only [List.length_cons] at h4
      omega
    obtain ⟨r, hr, hlen, hspec⟩ := ih h4'
    refine ⟨_, by rw [process, hr]; rfl, by simp [hlen], ?_⟩
    intro k a1 b1 c1 d1 ha hb hc hd
    cases k with
    | zero =>
      simp only [Nat.mul_zero, Nat.zero_add, List.getElem?_cons_zero, List.getElem?_cons_succ,
        Option.some.injEq] at ha hb hc hd
      subst ha hb hc hd
      exact ⟨_, _, _, _, rfl, rfl, rfl, rfl, fun s => vis_spec h2 m ⟨a, b, c, d⟩ s⟩
    | succ k =>
      have e : 4 * (k + 1) = 4 * k + 4 := by ring
      rw [e] at ha hb hc hd ⊢
      exact hspec k a1 b1 c1 d1 (by simpa using ha)
        (by simpa [Nat.add_right_comm] using hb) (by simpa [Nat.add_right_comm] using hc)
        (by simpa [Nat.add_right_comm] using hd)
  | h1 a => simp at h4
  | h2 a b => simp at h4
  | h3 a b c => simp at h4

/-- The step does not check that there are four correlations: with another number of values it
accesses memory past the end of the data. -/
theorem process_ub (m : Modify) (l : List C) (h4 : ¬ 4 ∣ l.length) : process m l = none := by
  induction l using ind with
  | h0 => simp at h4
  | h1 a => rfl
  | h2 a b => rfl
  | h3 a b c => rfl
  | h4 a b c d rest ih =>
    rw [process, ih]
    · rfl
    · simp only [List.length_cons] at h4
      omega

/-- With two correlations it mixes the XX of one channel with the YY of the next one. -/
theorem two_correlations :
    process ⟨false, true, false, false⟩ [1, 2, 5, (9 : ℚ)] = some [5, 2, 5, 5] := by decide +kernel

example : process ⟨false, true, true, false⟩ [1, 2, 4, 3, 7, 0, 0, (9 : ℚ)] =
    some [2, -1, 1, 2, 8, 0, 0, 8] := by decide +kernel

end DP3.NullStokes
