import Verif.SolverTools.Model
import Mathlib.Algebra.Ring.Int.Defs

/-!
# Properties of the weighting for the solvers (C68, C69)
-/

namespace DP3.SolverTools

set_option linter.unusedSectionVars false

/-! ## C68 -/

section
variable {F : Type} [Ring F]

private theorem weighBatch_eq (h : Nat) (data weights : Nat → F) (i : Nat) :
    weighBatch (2 * h) data weights i =
      (List.range' (i * 2) (2 * h * 2)).map fun k => data k * weights (k / 2) := by
  unfold weighBatch
  apply List.ext_getElem
  · simp
    omega
  · intro k h1 h2
    simp only [List.length_map, List.length_range'] at h2
    rw [List.getElem_append]
    simp only [List.length_map, List.length_range, List.getElem_map, List.getElem_range,
      List.getElem_range']
    split_ifs with hk
    · congr 2 <;> omega
    · congr 2 <;> omega

private theorem weighOne_eq (data weights : Nat → F) (i : Nat) :
    weighOne data weights i = (List.range' (i * 2) 2).map fun k => data k * weights (k / 2) := by
  have h1 : i * 2 / 2 = i := by omega
  have h2 : (i * 2 + 1) / 2 = i := by omega
  simp [weighOne, List.range', h1, h2]

private theorem flatMap_ranges (m : Nat) (start n : Nat) :
    (List.range' start n).flatMap (fun k => List.range' (k * m) m) =
      List.range' (start * m) (n * m) := by
  induction n generalizing start with
  | zero => simp
  | succ n ih =>
    rw [List.range'_succ, List.flatMap_cons, ih, Nat.succ_mul, Nat.succ_mul, Nat.add_comm (n * m) m,
      ← List.range'_append_1]

/-- C68: `Weigh` multiplies the real and the imaginary part of every visibility with its own weight,
whatever the number of values and the (even) number of values the processor handles at once. -/
theorem weigh_eq (h : Nat) (data weights : Nat → F) (n : Nat) :
    weigh (2 * h) data weights n =
      (List.range (2 * n)).map fun k => data k * weights (k / 2) := by
  unfold weigh
  have e1 : ((List.range (n / (2 * h))).flatMap fun k => weighBatch (2 * h) data weights (k * (2 * h)))
      = (List.range' 0 (n / (2 * h) * (2 * h) * 2)).map fun k => data k * weights (k / 2) := by
    have := flatMap_ranges (2 * h * 2) 0 (n / (2 * h))
    rw [Nat.zero_mul, ← Nat.mul_assoc] at this
    rw [← this, List.map_flatMap, List.range_eq_range']
    congr 1
    funext k
    rw [weighBatch_eq]
    simp [Nat.mul_assoc]
  have e2 : ((List.range' (n / (2 * h) * (2 * h)) (n - n / (2 * h) * (2 * h))).flatMap
      (weighOne data weights)) =
        (List.range' (n / (2 * h) * (2 * h) * 2) ((n - n / (2 * h) * (2 * h)) * 2)).map
          fun k => data k * weights (k / 2) := by
    rw [← flatMap_ranges, List.map_flatMap]
    congr 1
    funext k
    rw [weighOne_eq]
  rw [e1, e2, ← List.map_append, List.range_eq_range']
  congr 1
  have hle : n / (2 * h) * (2 * h) ≤ n := Nat.div_mul_le_self n (2 * h)
  have := List.range'_append_1 (s := 0) (m := n / (2 * h) * (2 * h) * 2)
    (n := (n - n / (2 * h) * (2 * h)) * 2)
  rw [Nat.zero_add] at this
  rw [this]
  congr 1
  omega

end

/-- Seven visibilities, four at once. -/
example : weigh 4 (fun k => (k : Int)) (fun i => 10 * (i : Int)) 7 =
    [0, 0, 20, 30, 80, 100, 180, 210, 320, 360, 500, 550, 720, 780] := by decide

/-- The number of values at once has to be even. -/
example : weigh 3 (fun _ => (1 : Int)) (fun i => (i : Int)) 3 ≠
    (List.range 6).map fun k => ((k / 2 : Nat) : Int) := by decide

/-! ## C69 -/

section
variable {F : Type} [Ring F]

/-- A sample is unusable if in one of its correlations it is flagged, or its data or the model data
of one of the directions is not finite. -/
def Unusable (nCorr : Nat) (x : Input F) : Prop :=
  ∃ c, c < nCorr ∧ (x.flags c = true ∨ x.data c = none ∨ ∃ m ∈ x.models, m c = none)

/-- What a solver should get for one array: zero for an unusable sample, else the value times the
weight. -/
def Weighted (nCorr : Nat) (bad : Prop) (weights values : Nat → Option F) (out : List (Option F)) :
    Prop :=
  out.length = nCorr ∧ ∀ c, c < nCorr →
    (bad → out[c]? = some (some 0)) ∧ (¬ bad → out[c]? = some (mul (values c) (weights c)))

private theorem foldl_or {α : Type} (l : List α) (f : α → Bool) (b : Bool) :
    l.foldl (fun acc x => acc || f x) b = (b || l.any f) := by
  induction l generalizing b with
  | nil => simp
  | cons a l ih => simp [ih, Bool.or_assoc]

private theorem anyFlag_iff (nCorr : Nat) (x : Input F) :
    anyFlag nCorr x = true ↔ Unusable nCorr x := by
  have : anyFlag nCorr x = (List.range nCorr).foldl (fun acc c => acc ||
      (x.flags c || !(x.data c).isSome || x.models.any fun m => !(m c).isSome)) false := by
    unfold anyFlag
    congr 1
    funext acc c
    rw [foldl_or, Bool.or_assoc]
  rw [this, foldl_or]
  simp [Unusable, or_assoc]

private theorem weighMasked_spec (nCorr : Nat) (flag : Bool) (bad : Prop) (h : flag = true ↔ bad)
    (weights values : Nat → Option F) :
    Weighted nCorr bad weights values (weighMasked nCorr flag weights values) := by
  unfold Weighted weighMasked
  refine ⟨by cases flag <;> simp, ?_⟩
  intro c hc
  constructor
  · intro hb
    rw [h.2 hb]
    simp [hc]
  · intro hb
    have : flag = false := by
      cases hf : flag
      · rfl
      · exact absurd (h.1 hf) hb
    simp [this, hc]

/-- C69, regular data: an unusable sample contributes nothing, in the data and in the model data of
every direction, and every other sample has all its values multiplied with the square root of their
own weight, or with the weight itself in the linear mode. -/
theorem assignAndWeight_spec (linear : Bool) (sqrt : F → Option F) (nCorr : Nat) (x : Input F) :
    Weighted nCorr (Unusable nCorr x)
        (fun c => if linear then x.weights c else (x.weights c).bind sqrt) x.data
        (assignAndWeight linear sqrt nCorr x).data ∧
      (assignAndWeight linear sqrt nCorr x).models.length = x.models.length ∧
      ∀ (d : Nat) m, x.models[d]? = some m → ∃ out, (assignAndWeight linear sqrt nCorr x).models[d]? = some out ∧
        Weighted nCorr (Unusable nCorr x)
          (fun c => if linear then x.weights c else (x.weights c).bind sqrt) m out := by
  refine ⟨weighMasked_spec _ _ _ (anyFlag_iff _ _) _ _, by simp [assignAndWeight], ?_⟩
  intro d m hm
  refine ⟨_, by simp only [assignAndWeight, List.getElem?_map, hm]; rfl, ?_⟩
  exact weighMasked_spec _ _ _ (anyFlag_iff _ _) _ _

private theorem bdaArray_eq (flags : Nat → Bool) (weights values : Nat → Option F) (b : Bool) :
    bdaArray flags weights values b =
      ((List.range 4).map (fun c => mul (values c) (weights c)),
        b || (List.range 4).any fun c => !(values c).isSome || flags c) := by
  have : List.range 4 = [0, 1, 2, 3] := rfl
  simp [bdaArray, this, Bool.or_assoc]

private theorem bdaModels_eq (weights : Nat → Option F) (models : List (Nat → Option F))
    (acc : List (List (Option F))) (b : Bool) :
    models.foldl (fun (acc : List (List (Option F)) × Bool) values =>
        (acc.1 ++ [(bdaArray (fun _ => false) weights values acc.2).1],
          (bdaArray (fun _ => false) weights values acc.2).2)) (acc, b) =
      (acc ++ models.map (fun m => (List.range 4).map fun c => mul (m c) (weights c)),
        b || models.any fun m => (List.range 4).any fun c => !(m c).isSome) := by
  induction models generalizing acc b with
  | nil => simp
  | cons m models ih =>
    rw [List.foldl_cons, ih, bdaArray_eq]
    simp [Bool.or_assoc]

/-- C69: BDA data are weighted exactly like regular data with four correlations. -/
theorem bda_same (sqrt : F → Option F) (x : Input F) :
    bdaWeight sqrt x = assignAndWeight false sqrt 4 x := by
  unfold bdaWeight
  simp only [bdaModels_eq]
  simp only [bdaArray_eq]
  have hflag : ((false || (List.range 4).any fun c => !(x.data c).isSome || x.flags c) ||
      x.models.any fun m => (List.range 4).any fun c => !(m c).isSome) = anyFlag 4 x := by
    rw [Bool.eq_iff_iff, anyFlag_iff]
    simp only [Unusable, Bool.or_eq_true, List.any_eq_true, List.mem_range, Bool.not_eq_true',
      Option.isSome_eq_false_iff, Option.isNone_iff_eq_none, Bool.false_or]
    constructor
    · rintro (⟨c, hc, h | h⟩ | ⟨m, hm, c, hc, h⟩)
      · exact ⟨c, hc, .inr (.inl h)⟩
      · exact ⟨c, hc, .inl h⟩
      · exact ⟨c, hc, .inr (.inr ⟨m, hm, h⟩)⟩
    · rintro ⟨c, hc, h | h | ⟨m, hm, h⟩⟩
      · exact .inl ⟨c, hc, .inr h⟩
      · exact .inl ⟨c, hc, .inl h⟩
      · exact .inr ⟨m, hm, c, hc, h⟩
  rw [hflag]
  unfold assignAndWeight weighMasked prepare
  cases anyFlag 4 x <;> simp

/-- C69: with usable weights, everything the solvers get is finite. -/
theorem weighted_finite (linear : Bool) (sqrt : F → Option F) (nCorr : Nat) (x : Input F)
    (hw : ∀ c, c < nCorr → ∃ w, x.weights c = some w ∧ (sqrt w).isSome) :
    (∀ v ∈ (assignAndWeight linear sqrt nCorr x).data, v.isSome) ∧
      ∀ l ∈ (assignAndWeight linear sqrt nCorr x).models, ∀ v ∈ l, v.isSome := by
  have key : ∀ values : Nat → Option F,
      (¬ Unusable nCorr x → ∀ c, c < nCorr → (values c).isSome) →
      ∀ v ∈ weighMasked nCorr (anyFlag nCorr x) (fun c => prepare linear sqrt (x.weights c)) values,
        v.isSome := by
    intro values hvals v hv
    unfold weighMasked at hv
    simp only at hv
    split_ifs at hv with hf
    · simp only [List.mem_map] at hv
      obtain ⟨_, _, rfl⟩ := hv
      rfl
    · simp only [List.mem_map, List.mem_range] at hv
      obtain ⟨c, hc, rfl⟩ := hv
      obtain ⟨w, hw1, hw2⟩ := hw c hc
      have hb : ¬ Unusable nCorr x := fun h => hf ((anyFlag_iff _ _).2 h)
      obtain ⟨y, hy⟩ := Option.isSome_iff_exists.1 (hvals hb c hc)
      obtain ⟨z, hz⟩ := Option.isSome_iff_exists.1 hw2
      rw [hy, hw1]
      cases linear <;> simp [prepare, hz, mul]
  refine ⟨key _ ?_, ?_⟩
  · intro hb c hc
    cases hd : x.data c with
    | none => exact absurd ⟨c, hc, .inr (.inl hd)⟩ hb
    | some _ => rfl
  · intro l hl
    simp only [assignAndWeight, List.mem_map] at hl
    obtain ⟨m, hm, rfl⟩ := hl
    refine key _ ?_
    intro hb c hc
    cases hd : m c with
    | none => exact absurd ⟨c, hc, .inr (.inr ⟨m, hm, hd⟩)⟩ hb
    | some _ => rfl

end

/-- Square roots of small numbers, for the examples. -/
def exSqrt (w : Int) : Option Int := if w < 0 then none else some (w.toNat.sqrt : Int)

def exInput : Input Int :=
  { flags := fun _ => false, weights := fun c => some [4, 9, 16, 25][c]!,
    data := fun c => some (c + 1), models := [fun _ => some 1, fun c => some (c : Int)] }

example : assignAndWeight false exSqrt 4 exInput =
    ⟨[some 2, some 6, some 12, some 20],
      [[some 2, some 3, some 4, some 5], [some 0, some 3, some 8, some 15]]⟩ := by decide +kernel

/-- One model value that is not finite is enough. -/
example : assignAndWeight false exSqrt 4
    { exInput with models := [fun _ => some 1, fun c => if c = 2 then none else some 1] } =
    ⟨[some 0, some 0, some 0, some 0],
      [[some 0, some 0, some 0, some 0], [some 0, some 0, some 0, some 0]]⟩ := by decide +kernel

/-- The weights themselves are not looked at: an unflagged sample with a negative or non-finite
weight reaches the solver as a non-finite value. -/
theorem bad_weight :
    ∃ x : Input Int, ¬ Unusable 4 x ∧ none ∈ (assignAndWeight false exSqrt 4 x).data := by
  refine ⟨{ exInput with weights := fun c => if c = 1 then some (-1) else some 1 }, ?_,
    by decide +kernel⟩
  rintro ⟨c, -, h | h | ⟨m, hm, h⟩⟩
  · cases h
  · cases h
  · simp only [exInput, List.mem_cons, List.not_mem_nil, or_false] at hm
    rcases hm with rfl | rfl <;> cases h

end DP3.SolverTools
