import Verif.MsOutput.Model
import Mathlib.Algebra.Order.Field.Basic
import Mathlib.Tactic.Linarith
import Mathlib.Tactic.Positivity

/-!
# C206-C207: weights that are read, and the keywords for the beam
-/

namespace DP3.MsOutput

set_option linter.unusedSimpArgs false
set_option linter.unusedSectionVars false

variable {F : Type} [Field F] [LinearOrder F] [IsStrictOrderedRing F]

/-! ## C206: weights -/

/-- C206: without a weight for each channel, all channels have the weight of the row, with 1 for a weight of zero, so
that no weight is zero. -/
theorem global_weights (w : List F) (nChan : Nat) :
    (globalWeights w nChan).length = nChan ∧
    ∀ (ch : Nat) ws, (globalWeights w nChan)[ch]? = some ws → ws.length = w.length ∧
      ∀ (p : Nat) x, w[p]? = some x → ∃ y, ws[p]? = some y ∧ y ≠ 0 ∧ (x ≠ 0 → y = x) ∧ (x = 0 → y = 1) := by
  refine ⟨by simp [globalWeights], ?_⟩
  intro ch ws h
  unfold globalWeights at h
  have hm := List.eq_of_mem_replicate (List.mem_of_getElem? h)
  subst hm
  refine ⟨by simp, ?_⟩
  intro p x hx
  refine ⟨if x = 0 then 1 else x, by simp [hx], ?_, ?_, ?_⟩
  · split_ifs with h0
    · exact one_ne_zero
    · exact h0
  · intro h0; rw [if_neg h0]
  · intro h0; rw [if_pos h0]

example : globalWeights ([0, 2] : List ℚ) 3 = [[1, 2], [1, 2], [1, 2]] := by decide +kernel

/-- The power of the first and second antenna that a correlation of `n` is for: correlation `p` of four is that of feed
`p / 2` of the first and feed `p % 2` of the second antenna. -/
def powers (n p : Nat) (a1 a2 : List F) : Option (F × F) :=
  if n = 4 then
    (a1[3 * (p / 2)]?).bind fun x => (a2[3 * (p % 2)]?).map fun y => (x, y)
  else (a1[p]?).bind fun x => (a2[p]?).map fun y => (x, y)

/-- C206: the radiometer equation: if the auto-correlations of both antennas are not zero, the weight of each correlation
is the original one times bandwidth times interval over the product of the powers of both feeds. -/
theorem auto_weight (w : F) (a1 a2 ws : List F) (n : Nat) (hn : n = 1 ∨ n = 2 ∨ n = 4) (h1 : a1.length = n)
    (h2 : a2.length = n) (h3 : ws.length = n) (hz1 : ∀ x ∈ a1, x ≠ 0) (hz2 : ∀ x ∈ a2, x ≠ 0) :
    (autoWeight w a1 a2 ws).length = n ∧
    ∀ p < n, ∃ x y v, powers n p a1 a2 = some (x, y) ∧ ws[p]? = some v ∧
      (autoWeight w a1 a2 ws)[p]? = some (v * (w / (x * y))) := by
  rcases hn with rfl | rfl | rfl
  · obtain ⟨x1, rfl⟩ := List.length_eq_one_iff.mp h1
    obtain ⟨x2, rfl⟩ := List.length_eq_one_iff.mp h2
    obtain ⟨w0, rfl⟩ := List.length_eq_one_iff.mp h3
    have e1 := hz1 x1 (by simp)
    have e2 := hz2 x2 (by simp)
    have ha : autoWeight w [x1] [x2] [w0] = [w0 * (w / (x1 * x2))] := by
      simp [autoWeight, e1, e2]
    rw [ha]
    refine ⟨rfl, ?_⟩
    intro p hp
    obtain rfl : p = 0 := by omega
    exact ⟨x1, x2, w0, rfl, rfl, rfl⟩
  · obtain ⟨x1, y1, rfl⟩ := List.length_eq_two.mp h1
    obtain ⟨x2, y2, rfl⟩ := List.length_eq_two.mp h2
    obtain ⟨w0, w1, rfl⟩ := List.length_eq_two.mp h3
    have e1 := hz1 x1 (by simp)
    have e2 := hz2 x2 (by simp)
    have e3 := hz1 y1 (by simp)
    have e4 := hz2 y2 (by simp)
    have ha : autoWeight w [x1, y1] [x2, y2] [w0, w1] = [w0 * (w / (x1 * x2)), w1 * (w / (y1 * y2))] := by
      simp [autoWeight, e1, e2, e3, e4]
    rw [ha]
    refine ⟨rfl, ?_⟩
    intro p hp
    have : p = 0 ∨ p = 1 := by omega
    rcases this with rfl | rfl
    · exact ⟨x1, x2, w0, rfl, rfl, rfl⟩
    · exact ⟨y1, y2, w1, rfl, rfl, rfl⟩
  · match a1, h1, a2, h2, ws, h3, hz1, hz2 with
    | [x1, u1, v1, y1], _, [x2, u2, v2, y2], _, [w0, w1, w2, w3], _, hz1, hz2 =>
      have e1 := hz1 x1 (by simp)
      have e2 := hz2 x2 (by simp)
      have e3 := hz1 y1 (by simp)
      have e4 := hz2 y2 (by simp)
      have ha : autoWeight w [x1, u1, v1, y1] [x2, u2, v2, y2] [w0, w1, w2, w3] =
          [w0 * (w / (x1 * x2)), w1 * (w / (x1 * y2)), w2 * (w / (y1 * x2)), w3 * (w / (y1 * y2))] := by
        simp [autoWeight, e1, e2, e3, e4]
      rw [ha]
      refine ⟨rfl, ?_⟩
      intro p hp
      have : p = 0 ∨ p = 1 ∨ p = 2 ∨ p = 3 := by omega
      rcases this with rfl | rfl | rfl | rfl
      · exact ⟨x1, x2, w0, rfl, rfl, rfl⟩
      · exact ⟨x1, y2, w1, rfl, rfl, rfl⟩
      · exact ⟨y1, x2, w2, rfl, rfl, rfl⟩
      · exact ⟨y1, y2, w3, rfl, rfl, rfl⟩

example : autoWeight (12 : ℚ) [2, 9, 9, 3] [1, 9, 9, 4] [1, 1, 1, 2] = [6, 3 / 2, 4, 2] := by decide +kernel

/-- C206: a baseline without an auto-correlation for one of its antennas, and one whose first auto-correlation is zero,
keeps its weights. -/
theorem auto_weight_kept (w : F) (autoInx : Nat → Option Nat) (data : List (List F)) :
    ∀ (bls : List (Nat × Nat)) (ws out : List (List F)), autoWeights w autoInx data bls ws = some out →
      out.length = ws.length ∧
      ∀ (bl p q : Nat) v, bls[bl]? = some (p, q) → ws[bl]? = some v →
        (autoInx p = none ∨ autoInx q = none → out[bl]? = some v) ∧
        (∀ i j a1 a2, autoInx p = some i → autoInx q = some j → data[i]? = some a1 → data[j]? = some a2 →
          out[bl]? = some (autoWeight w a1 a2 v)) := by
  intro bls
  induction bls with
  | nil =>
    intro ws out h
    simp only [autoWeights] at h
    obtain rfl := Option.some.inj h
    exact ⟨rfl, fun bl p q v hb => by simp at hb⟩
  | cons b bls ih =>
    obtain ⟨p0, q0⟩ := b
    intro ws out h
    cases ws with
    | nil =>
      simp only [autoWeights] at h
      obtain rfl := Option.some.inj h
      exact ⟨rfl, fun bl p q v _ hb => by simp at hb⟩
    | cons w0 ws =>
      have hcons : ∃ x l, out = x :: l ∧ autoWeights w autoInx data bls ws = some l ∧
          (autoInx p0 = none ∨ autoInx q0 = none → x = w0) ∧
          (∀ i j a1 a2, autoInx p0 = some i → autoInx q0 = some j → data[i]? = some a1 → data[j]? = some a2 →
            x = autoWeight w a1 a2 w0) := by
        simp only [autoWeights] at h
        cases hp : autoInx p0 with
        | none =>
          rw [hp] at h
          obtain ⟨l, hl, e⟩ := Option.map_eq_some_iff.mp h
          exact ⟨w0, l, e.symm, hl, fun _ => rfl, fun i j a1 a2 e => by cases e⟩
        | some i =>
          cases hq : autoInx q0 with
          | none =>
            rw [hp, hq] at h
            obtain ⟨l, hl, e⟩ := Option.map_eq_some_iff.mp h
            exact ⟨w0, l, e.symm, hl, fun _ => rfl, fun i j a1 a2 _ e => by cases e⟩
          | some j =>
            rw [hp, hq] at h
            simp only at h
            cases hi : data[i]? with
            | none => rw [hi] at h; cases h
            | some a1 =>
              cases hj : data[j]? with
              | none => rw [hi, hj] at h; cases h
              | some a2 =>
                rw [hi, hj] at h
                obtain ⟨l, hl, e⟩ := Option.map_eq_some_iff.mp h
                refine ⟨_, l, e.symm, hl, (fun h => by rcases h with h | h <;> cases h), ?_⟩
                intro i' j' b1 b2 e1 e2 e3 e4
                obtain rfl := Option.some.inj e1
                obtain rfl := Option.some.inj e2
                rw [hi] at e3; rw [hj] at e4
                obtain rfl := Option.some.inj e3
                obtain rfl := Option.some.inj e4
                rfl
      obtain ⟨x, l, rfl, hl, k1, k2⟩ := hcons
      obtain ⟨g1, g2⟩ := ih ws l hl
      refine ⟨by simp [g1], ?_⟩
      intro bl p q v hb hv
      cases bl with
      | zero =>
        obtain ⟨rfl, rfl⟩ := Prod.mk.inj (Option.some.inj hb)
        obtain rfl := Option.some.inj hv
        refine ⟨fun h => by simp [k1 h], fun i j a1 a2 e1 e2 e3 e4 => by simp [k2 i j a1 a2 e1 e2 e3 e4]⟩
      | succ bl => exact g2 bl p q v (by simpa using hb) (by simpa using hv)

/-- C206 (see `auto_weight_undefined`): weights are calculated without an exception or undefined behaviour if the data
of all auto-correlations were read. -/
theorem auto_weights_defined_partial (w : F) (autoInx : Nat → Option Nat) (data : List (List F))
    (h : ∀ a i, autoInx a = some i → i < data.length) :
    ∀ (bls : List (Nat × Nat)) (ws : List (List F)), (autoWeights w autoInx data bls ws).isSome := by
  intro bls
  induction bls with
  | nil => intro ws; rfl
  | cons b bls ih =>
    obtain ⟨p, q⟩ := b
    intro ws
    cases ws with
    | nil => rfl
    | cons v ws =>
      simp only [autoWeights]
      cases hp : autoInx p with
      | none => simpa using ih ws
      | some i =>
        cases hq : autoInx q with
        | none => simpa using ih ws
        | some j =>
          have hi : data[i]? = some (data[i]'(h p i hp)) := List.getElem?_eq_getElem (h p i hp)
          have hj : data[j]? = some (data[j]'(h q j hq)) := List.getElem?_eq_getElem (h q j hq)
          simp only [hi, hj]
          simpa using ih ws

/-- C206: when no step reads the data, the weights are calculated from data that are not there. -/
theorem auto_weight_undefined :
    autoWeights (1 : ℚ) (fun a => if a = 0 then some 0 else none) [] [(0, 0)] [[1]] = none := by decide +kernel

example : autoWeights (12 : ℚ) (fun a => if a = 0 then some 0 else if a = 1 then some 2 else none)
    [[2, 3], [7, 7], [3, 1], [9, 9]] [(0, 0), (0, 1), (1, 1), (1, 2)] [[1, 1], [1, 1], [1, 1], [1, 1]] =
    some [[3, 4 / 3], [2, 4], [4 / 3, 12], [1, 1]] := by decide +kernel

/-- C206: calculated weights are refused for data that are not raw unless forced; but forcing them switches them on even
if they were not asked for. -/
theorem auto_weight_use (auto raw : Bool) :
    useAutoWeight auto false raw = (if auto = true ∧ raw = false then none else some auto) ∧
    useAutoWeight false true raw = some true := by
  cases auto <;> cases raw <;> decide

/-! ## C207: the keywords for the beam -/

variable {D : Type}

/-- C207: what a run records about the beam in the column it writes is what the next run reads from it: the mode, and,
if there is a beam, its direction; whatever the column had before. -/
theorem beam_round_trip (k : BeamKeys D) (mode : Nat) (dir dflt : D) :
    readBeam (updateBeam k mode dir) dflt = some (mode, if mode = 0 then dflt else dir) := by
  obtain ⟨km, kd⟩ := k
  by_cases h : mode = 0
  · subst h
    cases km <;> simp [updateBeam, readBeam]
  · simp [updateBeam, readBeam, h]

/-- C207: a column for which the beam was never corrected gets no keywords. -/
theorem beam_untouched (dir : D) : updateBeam (⟨none, none⟩ : BeamKeys D) 0 dir = ⟨none, none⟩ := by
  simp [updateBeam]

/-- C207: a sequence of runs leaves what the last one recorded. -/
theorem beam_last (k : BeamKeys D) (runs : List (Nat × D)) (mode : Nat) (dir dflt : D) :
    readBeam ((runs ++ [(mode, dir)]).foldl (fun k r => updateBeam k r.1 r.2) k) dflt =
      some (mode, if mode = 0 then dflt else dir) := by
  rw [List.foldl_append]
  exact beam_round_trip _ _ _ _

example : updateBeam (⟨none, none⟩ : BeamKeys ℕ) 2 7 = ⟨some 2, some 7⟩ ∧
    readBeam (updateBeam (⟨some 2, some 7⟩ : BeamKeys ℕ) 0 9) 5 = some (0, 5) := by decide

end DP3.MsOutput
