import Verif.ParmCache.Model

/-!
# Properties of the cache of parameter values

C285 a flush writes what changed, C286 under one lock.
-/

namespace DP3.ParmCache

set_option linter.unusedSimpArgs false

theorem write_mem (ds : List Bool) : ∀ (i k : Nat), (writeDirty i ds).count (.write k) =
    if i ≤ k ∧ ds[k - i]? = some true then 1 else 0 := by
  induction ds with
  | nil => intro i k; simp [writeDirty]
  | cons d ds ih =>
    intro i k
    simp only [writeDirty, List.count_append, ih]
    by_cases hk : i = k
    · subst hk
      have h2 : ¬ i + 1 ≤ i := by omega
      cases d <;> simp [putValues, h2]
    · by_cases hlt : i + 1 ≤ k
      · have h1 : k - i = (k - (i + 1)) + 1 := by omega
        have h2 : i ≤ k := by omega
        cases d <;> simp [putValues, hk, h1, hlt, h2]
      · have h2 : ¬ i ≤ k := by omega
        cases d <;> simp [putValues, hk, hlt, h2]

/-- C285: each value set that is dirty is written once, others are not, and none is dirty afterwards. -/
theorem flush_writes (dirty : List Bool) (k : Nat) :
    (flush dirty).1.count (.write k) = (if dirty[k]? = some true then 1 else 0) ∧
      (flush dirty).2.length = dirty.length ∧ ∀ d ∈ (flush dirty).2, d = false := by
  refine ⟨?_, by simp [flush], by simp [flush]⟩
  simp only [flush, List.count_append, write_mem]
  simp

example : (flush [true, false, true]).1.count (.write 2) = 1 ∧ (flush [true, false, true]).1.count (.write 1) = 0 ∧
    (flush [true, false, true]).2 = [false, false, false] := by decide

/-- No unlock between any two writes. -/
def Atomic (t : List Event) : Prop :=
  ∀ a i mid j b, t = a ++ .write i :: (mid ++ .write j :: b) → Event.unlock ∉ mid

theorem writeDirty_none (ds : List Bool) (h : ds.count true = 0) : ∀ i, writeDirty i ds = [] := by
  induction ds with
  | nil => intro i; rfl
  | cons d ds ih =>
    intro i
    cases d
    · simp only [List.count_cons] at h
      simp [writeDirty, ih (by simpa using h)]
    · simp at h

theorem writeDirty_one (ds : List Bool) (h : ds.count true ≤ 1) : ∀ i, writeDirty i ds = [] ∨ ∃ k, writeDirty i ds = putValues k := by
  induction ds with
  | nil => intro i; exact .inl rfl
  | cons d ds ih =>
    intro i
    cases d
    · simpa [writeDirty] using ih (by simpa [List.count_cons] using h) (i + 1)
    · have h0 : ds.count true = 0 := by simp only [List.count_cons_self] at h; omega
      exact .inr ⟨i, by simp [writeDirty, writeDirty_none ds h0]⟩

/-- C286: a flush of at most one value set is done under one lock. -/
theorem flush_atomic_partial (dirty : List Bool) (h : dirty.count true ≤ 1) : Atomic (flush dirty).1 := by
  intro a i mid j b ht
  have hc : (flush dirty).1.countP (fun e => match e with | .write _ => true | _ => false) ≤ 1 := by
    rcases writeDirty_one dirty h 0 with hw | ⟨k, hw⟩ <;> simp [flush, hw, putValues]
  rw [ht] at hc
  simp [List.countP_append, List.countP_cons] at hc
  omega

example : [false, true, false].count true ≤ 1 := by decide

theorem writeDirty_split (ds : List Bool) (h : 1 ≤ ds.count true) : ∀ i, ∃ p j b, writeDirty i ds = p ++ .write j :: b := by
  induction ds with
  | nil => simp at h
  | cons d ds ih =>
    intro i
    cases d
    · obtain ⟨p, j, b, hh⟩ := ih (by simpa [List.count_cons] using h) (i + 1)
      exact ⟨p, j, b, by simp [writeDirty, hh]⟩
    · exact ⟨[.lock], i, .unlock :: writeDirty (i + 1) ds, by simp [writeDirty, putValues]⟩

theorem writeDirty_released (ds : List Bool) (h : 2 ≤ ds.count true) : ∀ i, ∃ a k mid j b,
    writeDirty i ds = a ++ .write k :: (mid ++ .write j :: b) ∧ Event.unlock ∈ mid := by
  induction ds with
  | nil => simp at h
  | cons d ds ih =>
    intro i
    cases d
    · obtain ⟨a, k, mid, j, b, hh, hm⟩ := ih (by simpa [List.count_cons] using h) (i + 1)
      exact ⟨a, k, mid, j, b, by simp [writeDirty, hh], hm⟩
    · have h1 : 1 ≤ ds.count true := by simp only [List.count_cons_self] at h; omega
      obtain ⟨p, j, b, hh⟩ := writeDirty_split ds h1 (i + 1)
      exact ⟨[.lock], i, .unlock :: p, j, b, by simp [writeDirty, putValues, hh], by simp⟩

/-- C286 does not hold: a flush of two or more value sets releases the lock between writes. -/
theorem flush_released (dirty : List Bool) (h : 2 ≤ dirty.count true) : ¬ Atomic (flush dirty).1 := by
  intro ha
  obtain ⟨a, k, mid, j, b, hh, hm⟩ := writeDirty_released dirty h 0
  exact ha ([.lock, .unlock] ++ a) k mid j b (by simp [flush, hh]) hm

example : 2 ≤ [true, false, true].count true := by decide

end DP3.ParmCache
