import Verif.DdeSettings.Model
import Mathlib.Algebra.BigOperators.Group.List.Basic
import Mathlib.Tactic.Linarith
import Mathlib.Tactic.Ring

/-!
# Lemmas about the settings of DDECal
-/

namespace DP3.DdeSettings

set_option linter.unusedSimpArgs false
set_option linter.unusedSectionVars false

theorem toDirectionFrom_length (d : Nat) (sub : List Nat) :
    (toDirectionFrom d sub).length = sub.sum := by
  induction sub generalizing d with
  | nil => rfl
  | cons n rest ih => simp [toDirectionFrom, ih]

theorem toDirectionFrom_get (d0 : Nat) (sub : List Nat) (d : Nat) (h : d < sub.length) (i : Nat)
    (hi : i < sub[d]) : (toDirectionFrom d0 sub)[(sub.take d).sum + i]? = some (d0 + d) := by
  induction sub generalizing d0 d with
  | nil => simp at h
  | cons n rest ih =>
    cases d with
    | zero =>
      simp only [List.getElem_cons_zero] at hi
      simp only [toDirectionFrom, List.take_zero, List.sum_nil, Nat.zero_add, Nat.add_zero]
      rw [List.getElem?_append_left (by simpa using hi)]
      simp [hi]
    | succ d =>
      simp only [List.getElem_cons_succ] at hi
      simp only [List.length_cons] at h
      have := ih (d0 + 1) d (by omega) hi
      simp only [toDirectionFrom, List.take_succ_cons, List.sum_cons]
      rw [List.getElem?_append_right (by simp; omega)]
      simp only [List.length_replicate]
      rw [show n + (rest.take d).sum + i - n = (rest.take d).sum + i by omega, this]
      congr 1
      omega

theorem expandLoop_spec {K : Type} (sub : List Nat) (factors : List K) (d0 : Nat) (all : List K)
    (hall : all.drop d0 = factors) (h : sub.length = factors.length) :
    ∃ e, expandLoop sub factors = some e ∧ e.length = sub.sum ∧
      e.map some = (toDirectionFrom d0 sub).map fun d => all[d]? := by
  induction sub generalizing factors d0 with
  | nil => exact ⟨[], rfl, rfl, rfl⟩
  | cons n rest ih =>
    cases factors with
    | nil => simp at h
    | cons f fs =>
      have hd : all.drop (d0 + 1) = fs := by
        rw [← List.drop_drop, hall]; rfl
      obtain ⟨e, he, hl, hm⟩ := ih fs (d0 + 1) hd (by simpa using h)
      refine ⟨List.replicate n f ++ e, by simp [expandLoop, he], by simp [hl], ?_⟩
      have hf : all[d0]? = some f := by
        have := congrArg (fun l => l[0]?) hall
        simpa using this
      simp [toDirectionFrom, hm, hf]

theorem foldl_mod (sub : List Nat) (m : Nat) (a : Nat) :
    (sub.foldl (fun acc v => (acc + v) % m) (a % m)) = (a + sub.sum) % m := by
  induction sub generalizing a with
  | nil => simp
  | cons n rest ih =>
    simp only [List.foldl_cons, List.sum_cons]
    rw [Nat.mod_add_mod, ih, Nat.add_assoc]

theorem nSolutions_eq (sub : List Nat) : nSolutions sub = sub.sum % 2 ^ 32 := by
  have := foldl_mod sub (2 ^ 32) 0
  simpa [nSolutions] using this

theorem max?_isSome_pos (l : List Nat) (h : l ≠ []) : ∃ m, l.max? = some m ∧ m ∈ l ∧ ∀ x ∈ l, x ≤ m := by
  cases hm : l.max? with
  | none => exact absurd (List.max?_eq_none_iff.1 hm) h
  | some m =>
    have := List.max?_eq_some_iff.1 hm
    exact ⟨m, rfl, this.1, fun x hx => this.2 x hx⟩

section
variable {K : Type} [Field K] [LinearOrder K] [IsStrictOrderedRing K]

theorem dist2_nonneg (p q : K × K × K) : 0 ≤ dist2 p q := by
  unfold dist2
  have h1 := mul_self_nonneg (p.1 - q.1)
  have h2 := mul_self_nonneg (p.2.1 - q.2.1)
  have h3 := mul_self_nonneg (p.2.2 - q.2.2)
  linarith

theorem dist2_eq_zero (p q : K × K × K) : dist2 p q = 0 ↔ p = q := by
  constructor
  · intro h
    unfold dist2 at h
    have h1 := mul_self_nonneg (p.1 - q.1)
    have h2 := mul_self_nonneg (p.2.1 - q.2.1)
    have h3 := mul_self_nonneg (p.2.2 - q.2.2)
    have e1 : p.1 - q.1 = 0 := mul_self_eq_zero.1 (by linarith)
    have e2 : p.2.1 - q.2.1 = 0 := mul_self_eq_zero.1 (by linarith)
    have e3 : p.2.2 - q.2.2 = 0 := mul_self_eq_zero.1 (by linarith)
    ext
    · linarith
    · linarith
    · linarith
  · rintro rfl
    simp [dist2]

theorem foldl_maxOpt_none (raw : List (Option K)) : raw.foldl maxOpt none = none := by
  induction raw with
  | nil => rfl
  | cons a rest ih => cases a <;> simpa [maxOpt] using ih

theorem foldl_maxOpt (raw : List (Option K)) (a : K) (m : K)
    (h : raw.foldl maxOpt (some a) = some m) :
    a ≤ m ∧ (∀ x ∈ raw, ∃ v, x = some v ∧ v ≤ m) ∧ (m = a ∨ some m ∈ raw) := by
  induction raw generalizing a with
  | nil =>
    simp only [List.foldl_nil, Option.some.injEq] at h
    subst h
    simp
  | cons x rest ih =>
    cases x with
    | none =>
      simp only [List.foldl_cons, maxOpt] at h
      rw [foldl_maxOpt_none] at h
      cases h
    | some v =>
      simp only [List.foldl_cons, maxOpt] at h
      obtain ⟨h1, h2, h3⟩ := ih _ h
      refine ⟨le_trans (le_max_left _ _) h1, ?_, ?_⟩
      · intro x hx
        rcases List.mem_cons.1 hx with rfl | hx
        · exact ⟨v, rfl, le_trans (le_max_right _ _) h1⟩
        · exact h2 x hx
      · rcases h3 with h3 | h3
        · rcases max_choice a v with hm | hm
          · exact Or.inl (by rw [h3, hm])
          · exact Or.inr (by rw [h3, hm]; simp)
        · exact Or.inr (List.mem_cons_of_mem _ h3)

end

end DP3.DdeSettings
