import Verif.MsReader.Model
import Mathlib.Tactic.Linarith
import Mathlib.Tactic.NormNum
import Mathlib.Tactic.Ring
import Mathlib.Tactic.Push
import Mathlib.Tactic.FinCases
import Mathlib.Data.List.Chain
import Mathlib.Tactic.Positivity
import Mathlib.Tactic.FieldSimp
import Mathlib.Algebra.Order.Ring.Rat
import Mathlib.Algebra.Order.Ring.Abs
import Mathlib.Algebra.Order.Floor.Ring
import Mathlib.Algebra.Order.Floor.Semiring
import Mathlib.Data.Rat.Floor

/-!
C17, C18, C56, C57.
-/

namespace DP3.MsReader

set_option linter.unusedSectionVars false

variable {F R : Type} [Field F] [LinearOrder F] [IsStrictOrderedRing F]

/-! ### A measurement set whose slots are on the grid up to the tolerance -/

/-- The slots of the measurement set, each with its position on the time grid, are
within the tolerance of their grid times and in order. -/
structure OnGrid (c : Config F) (ks : List (Int × MsSlot F R)) : Prop where
  near : ∀ p ∈ ks, |p.2.time - (c.first + p.1 * c.interval)| ≤ c.tol
  sorted : ks.Pairwise fun p q => p.1 < q.1

/-- Sensible settings: a positive interval, tolerances and first time, the tolerance
less than half an interval. -/
structure Sane (c : Config F) : Prop where
  interval_pos : 0 < c.interval
  tol_nonneg : 0 ≤ c.tol
  endTol_nonneg : 0 ≤ c.endTol
  tol_lt : 2 * c.tol < c.interval
  first_pos : 0 < c.first

private theorem stop_iff {c : Config F} (hs : Sane c) {t : F} (ht : 0 < t) :
    ((t > c.last ∧ ¬ nearAbs t c.last c.endTol) ∨ t = 0) ↔ c.last + c.endTol < t := by
  have he := hs.endTol_nonneg
  unfold nearAbs
  constructor
  · rintro (⟨h1, h2⟩ | h)
    · by_contra hc
      apply h2
      rw [abs_le]
      constructor <;> linarith [not_lt.mp hc]
    · exact absurd h ht.ne'
  · intro h
    left
    refine ⟨by linarith, fun hc => ?_⟩
    rw [abs_le] at hc
    linarith [hc.1]

private theorem grid_gap {c : Config F} (hs : Sane c) {a b : Int} (h : a < b) :
    (a : F) * c.interval + c.interval ≤ (b : F) * c.interval := by
  have h1 : ((a + 1 : Int) : F) ≤ (b : F) := Int.cast_le.mpr h
  push_cast at h1
  have := mul_le_mul_of_nonneg_right h1 hs.interval_pos.le
  linarith [this, add_mul (a : F) 1 c.interval]

private theorem slot_near {c : Config F} (hs : Sane c) {k : Int} {p : Int × MsSlot F R}
    (hp : |p.2.time - (c.first + p.1 * c.interval)| ≤ c.tol) :
    nearAbs p.2.time (c.first + k * c.interval) c.tol ↔ p.1 = k := by
  have ht := hs.tol_lt
  unfold nearAbs
  rw [abs_le] at hp
  constructor
  · intro h
    rw [abs_le] at h
    rcases lt_trichotomy p.1 k with hk | hk | hk
    · have := grid_gap hs hk; linarith [h.1, h.2, hp.1, hp.2]
    · exact hk
    · have := grid_gap hs hk; linarith [h.1, h.2, hp.1, hp.2]
  · rintro rfl
    rw [abs_le]
    constructor <;> linarith [hp.1, hp.2]

private theorem slot_gt {c : Config F} (hs : Sane c) {k : Int} {p : Int × MsSlot F R}
    (hp : |p.2.time - (c.first + p.1 * c.interval)| ≤ c.tol) (hk : k < p.1) :
    c.first + k * c.interval + c.tol < p.2.time := by
  have ht := hs.tol_lt
  rw [abs_le] at hp
  have := grid_gap hs hk; linarith [hp.1]

private theorem slot_lt {c : Config F} (hs : Sane c) {k : Int} {p : Int × MsSlot F R}
    (hp : |p.2.time - (c.first + p.1 * c.interval)| ≤ c.tol) (hk : p.1 < k) :
    p.2.time + c.tol < c.first + k * c.interval := by
  have ht := hs.tol_lt
  rw [abs_le] at hp
  have := grid_gap hs hk; linarith [hp.2]

/-- Scanning a grid: slots before the wanted position are skipped (only possible at
position 0), then the slot is used when it is the wanted one. -/
private theorem scan_grid {c : Config F} (hs : Sane c) (k : Nat) :
    ∀ (ks : List (Int × MsSlot F R)) (prev : F), OnGrid c ks →
      (k = 0 ∨ ∀ p ∈ ks, (k : Int) ≤ p.1) → (∀ p ∈ ks, prev ≤ p.2.time) →
      ∃ prev', scan c c.first (c.first + k * c.interval) (ks.map (·.2)) prev
          = ((ks.dropWhile fun p => p.1 < (k : Int)).map (·.2), prev',
             if (ks.dropWhile fun p => p.1 < (k : Int)).head?.map (·.1) = some (k : Int)
             then some (c.first + k * c.interval) else none) ∧
        ∀ p ∈ ks.dropWhile fun p => p.1 < (k : Int), prev' ≤ p.2.time := by
  intro ks
  induction ks with
  | nil => intro prev _ _ _; exact ⟨prev, by simp [scan], by simp⟩
  | cons p ks ih =>
    intro prev hg hk hp
    have hn := hg.near p (by simp)
    have hg' : OnGrid c ks :=
      ⟨fun q hq => hg.near q (by simp [hq]), (List.pairwise_cons.mp hg.sorted).2⟩
    have hlt := (List.pairwise_cons.mp hg.sorted).1
    have hprev := hp p (by simp)
    have hcast : (c.first + (k : F) * c.interval) = c.first + ((k : Int) : F) * c.interval := by
      simp
    by_cases hlk : p.1 < (k : Int)
    · have hk0 : k = 0 := by
        rcases hk with h | h
        · exact h
        · exact absurd (h p (by simp)) (by omega)
      subst hk0
      have hmono : ∀ q ∈ ks, p.2.time ≤ q.2.time := fun q hq => by
        have h1 := slot_gt hs (hg'.near q hq) (hlt q hq)
        have h2 := (abs_le.mp hn).2
        linarith
      obtain ⟨prev', h1, h2⟩ := ih p.2.time hg' (.inl rfl) hmono
      refine ⟨prev', ?_, ?_⟩
      · have hnn : ¬ nearAbs p.2.time (c.first + ((0 : Nat) : F) * c.interval) c.tol := by
          rw [hcast, slot_near hs hn]; omega
        have hl := slot_lt hs hn hlk
        have ht := hs.tol_nonneg
        have h3 : ¬ (p.2.time > c.first ∧ p.2.time < c.first + ((0 : Nat) : F) * c.interval) := by
          rintro ⟨h, h'⟩; simp at h'; linarith
        have h4 : ¬ (p.2.time > c.first + ((0 : Nat) : F) * c.interval) := by
          simp at hl ⊢; linarith
        have hd : List.dropWhile (fun p : Int × MsSlot F R => decide (p.1 < ((0 : Nat) : Int))) (p :: ks)
            = ks.dropWhile fun p => decide (p.1 < ((0 : Nat) : Int)) := by
          rw [List.dropWhile_cons_of_pos (by simpa using hlk)]
        rw [hd]
        have : scan c c.first (c.first + ((0 : Nat) : F) * c.interval) ((p :: ks).map (·.2)) prev
            = scan c c.first (c.first + ((0 : Nat) : F) * c.interval) (ks.map (·.2)) p.2.time := by
          simp only [List.map_cons, scan]
          rw [if_neg (not_lt.mpr hprev), if_neg hnn, if_neg h3, if_neg h4]
        rw [this, h1]
      · rw [List.dropWhile_cons_of_pos (by simpa using hlk)]; exact h2
    · have hd : List.dropWhile (fun p : Int × MsSlot F R => decide (p.1 < (k : Int))) (p :: ks) = p :: ks := by
        rw [List.dropWhile_cons_of_neg (by simpa using hlk)]
      rw [hd]
      refine ⟨prev, ?_, hp⟩
      simp only [List.map_cons, scan, List.head?_cons, Option.map_some, Option.some.injEq]
      rw [if_neg (not_lt.mpr hprev), hcast]
      by_cases he : p.1 = (k : Int)
      · rw [if_pos ((slot_near hs hn).mpr he), if_pos he]
      · rw [if_neg (fun h => he ((slot_near hs hn).mp h)), if_neg he]
        have hgt := slot_gt hs hn (show (k : Int) < p.1 by omega)
        have ht := hs.tol_nonneg
        rw [if_neg (by rintro ⟨_, h⟩; linarith), if_pos (by linarith)]

/-- What is emitted at position `k` of the time grid. -/
def gridOut (c : Config F) (ks : List (Int × MsSlot F R)) (k : Nat) : Out F R :=
  ⟨c.first + k * c.interval, (ks.find? fun p => p.1 = (k : Int)).map fun p => p.2.rows⟩

private theorem find_dropWhile (ks : List (Int × MsSlot F R)) (k : Nat) (m : Nat) (hm : k ≤ m) :
    (ks.dropWhile fun p => p.1 < (k : Int)).find? (fun p => p.1 = (m : Int))
      = ks.find? fun p => p.1 = (m : Int) := by
  induction ks with
  | nil => rfl
  | cons p ks ih =>
    by_cases h : p.1 < (k : Int)
    · rw [List.dropWhile_cons_of_pos (by simpa using h), ih, List.find?_cons_of_neg]
      simp; omega
    · rw [List.dropWhile_cons_of_neg (by simpa using h)]

private theorem mem_dropWhile {α : Type} {p : α → Bool} {l : List α} {a : α}
    (h : a ∈ l.dropWhile p) : a ∈ l := (List.dropWhile_sublist p).subset h

private theorem dropWhile_ge {ks : List (Int × MsSlot F R)}
    (h : ks.Pairwise fun p q => p.1 < q.1) (k : Int) :
    ∀ p ∈ ks.dropWhile fun p => p.1 < (k : Int), k ≤ p.1 := by
  induction ks with
  | nil => simp
  | cons q ks ih =>
    by_cases hq : q.1 < k
    · rw [List.dropWhile_cons_of_pos (by simpa using hq)]
      exact ih (List.pairwise_cons.mp h).2
    · rw [List.dropWhile_cons_of_neg (by simpa using hq)]
      intro p hp
      rcases List.mem_cons.mp hp with rfl | hp
      · omega
      · have := (List.pairwise_cons.mp h).1 p hp; omega

/-- One call of `process` at position `k`. -/
private theorem process_grid {c : Config F} (hs : Sane c) (k : Nat)
    (ks : List (Int × MsSlot F R)) (prev : F) (hg : OnGrid c ks)
    (hk : k = 0 ∨ ∀ p ∈ ks, (k : Int) ≤ p.1) (hp : ∀ p ∈ ks, prev ≤ p.2.time) :
    (c.last + c.endTol < c.first + k * c.interval →
      process c ⟨ks.map (·.2), c.first + k * c.interval, prev, 0, k⟩ = none) ∧
    (c.first + k * c.interval ≤ c.last + c.endTol →
      ∃ (ks' : List (Int × MsSlot F R)) (prev' : F),
        process c ⟨ks.map (·.2), c.first + k * c.interval, prev, 0, k⟩
          = some (⟨ks'.map (·.2), c.first + ((k + 1 : Nat) : F) * c.interval, prev', 0, k + 1⟩,
              gridOut c ks k) ∧
        OnGrid c ks' ∧ (∀ p ∈ ks', ((k + 1 : Nat) : Int) ≤ p.1) ∧ (∀ p ∈ ks', prev' ≤ p.2.time) ∧
        ∀ m : Nat, k < m → gridOut c ks' m = gridOut c ks m) := by
  obtain ⟨prev', h1, h2⟩ := scan_grid hs k ks prev hg hk hp
  have hpos : 0 < c.first + (k : F) * c.interval :=
    add_pos_of_pos_of_nonneg hs.first_pos (mul_nonneg (Nat.cast_nonneg k) hs.interval_pos.le)
  set ds := ks.dropWhile fun p => p.1 < (k : Int) with hds
  have hdg : OnGrid c ds :=
    ⟨fun q hq => hg.near q (mem_dropWhile hq), hg.sorted.sublist (List.dropWhile_sublist _)⟩
  have hge : ∀ p ∈ ds, (k : Int) ≤ p.1 := dropWhile_ge hg.sorted k
  have hfind : ∀ m : Nat, k ≤ m → ds.find? (fun p => p.1 = (m : Int))
      = ks.find? fun p => p.1 = (m : Int) := fun m hm => find_dropWhile ks k m hm
  have hstop := stop_iff hs hpos
  have hscan : scan c (c.first + 0) (c.first + (k : F) * c.interval) (ks.map (·.2)) prev
      = (ds.map (·.2), prev', if ds.head?.map (·.1) = some (k : Int)
             then some (c.first + k * c.interval) else none) := by
    rw [add_zero]; exact h1
  cases hd : ds with
  | nil =>
    rw [hd] at hscan hfind
    simp at hscan
    constructor
    · intro h
      simp only [process]
      rw [add_zero, hscan]
      simp only
      rw [if_pos (hstop.mpr h)]
    · intro h
      refine ⟨[], prev', ?_, ⟨by simp, by simp⟩, by simp, by simp, fun m hm => ?_⟩
      · simp only [process]
        rw [add_zero, hscan]
        simp only
        rw [if_neg (fun hc => absurd (hstop.mp hc) (not_lt.mpr h))]
        have := hfind k le_rfl
        simp at this
        simp only [gridOut, List.map_nil]
        rw [← this]
        rfl
      · have := hfind m hm.le
        simp only [gridOut, this]
  | cons p ds' =>
    rw [hd] at hscan hfind hge hdg h2
    have hlt := (List.pairwise_cons.mp hdg.sorted).1
    have hn := hdg.near p (by simp)
    simp only [List.head?_cons, Option.map_some, Option.some.injEq, List.map_cons] at hscan
    by_cases he : p.1 = (k : Int)
    · rw [if_pos he] at hscan
      constructor
      · intro h
        simp only [process]
        rw [hscan]
        simp only
        rw [if_pos (hstop.mpr h)]
      · intro h
        refine ⟨ds', c.first + k * c.interval, ?_,
          ⟨fun q hq => hdg.near q (by simp [hq]), (List.pairwise_cons.mp hdg.sorted).2⟩,
          fun q hq => by have := hlt q hq; omega, fun q hq => ?_, fun m hm => ?_⟩
        · simp only [process]
          rw [hscan]
          simp only
          rw [if_neg (fun hc => absurd (hstop.mp hc) (not_lt.mpr h))]
          simp only [List.tail_cons, List.head?_cons, Option.map_some, sub_self, add_zero,
            gridOut]
          rw [← hfind k le_rfl, List.find?_cons_of_pos (by simpa using he)]
          rfl
        · have := slot_gt hs (hdg.near q (by simp [hq])) (he ▸ hlt q hq)
          have ht := hs.tol_nonneg
          have hc : ((k : Int) : F) = (k : F) := by simp
          rw [hc] at this
          linarith
        · simp only [gridOut]
          rw [← hfind m hm.le, List.find?_cons_of_neg (by simp; omega)]
    · rw [if_neg he] at hscan
      constructor
      · intro h
        simp only [process]
        rw [hscan]
        simp only
        rw [if_pos (hstop.mpr h)]
      · intro h
        have hgt : (k : Int) < p.1 := by have := hge p (by simp); omega
        refine ⟨p :: ds', prev', ?_, hdg, fun q hq => ?_, h2, fun m hm => ?_⟩
        · simp only [process]
          rw [hscan]
          simp only
          rw [if_neg (fun hc => absurd (hstop.mp hc) (not_lt.mpr h))]
          simp only [add_zero, gridOut, List.map_cons]
          rw [← hfind k le_rfl, List.find?_eq_none.mpr]
          · rfl
          · intro q hq
            rcases List.mem_cons.mp hq with rfl | hq
            · simp; omega
            · have := hlt q hq; simp; omega
        · rcases List.mem_cons.mp hq with rfl | hq
          · omega
          · have := hlt q hq; omega
        · simp only [gridOut]
          rw [hfind m hm.le]

private theorem run_grid {c : Config F} (hs : Sane c) (K : Nat)
    (hK : c.first + K * c.interval ≤ c.last + c.endTol)
    (hK1 : c.last + c.endTol < c.first + ((K + 1 : Nat) : F) * c.interval) :
    ∀ (n k : Nat) (ks : List (Int × MsSlot F R)) (prev : F), k + n = K + 1 → OnGrid c ks →
      (k = 0 ∨ ∀ p ∈ ks, (k : Int) ≤ p.1) → (∀ p ∈ ks, prev ≤ p.2.time) →
      ∀ fuel, n < fuel →
      run c fuel ⟨ks.map (·.2), c.first + k * c.interval, prev, 0, k⟩
        = ((List.range n).map fun i => gridOut c ks (k + i), true) := by
  intro n
  induction n with
  | zero =>
    intro k ks prev hn hg hk hp fuel hf
    obtain ⟨fuel, rfl⟩ : ∃ f, fuel = f + 1 := ⟨fuel - 1, by omega⟩
    have : k = K + 1 := by omega
    subst this
    simp only [run]
    rw [(process_grid hs (K + 1) ks prev hg hk hp).1 hK1]
    rfl
  | succ n ih =>
    intro k ks prev hn hg hk hp fuel hf
    obtain ⟨fuel, rfl⟩ : ∃ f, fuel = f + 1 := ⟨fuel - 1, by omega⟩
    have hle : c.first + (k : F) * c.interval ≤ c.last + c.endTol := by
      have : (k : F) ≤ (K : F) := by exact_mod_cast (show k ≤ K by omega)
      have := mul_le_mul_of_nonneg_right this hs.interval_pos.le
      linarith
    obtain ⟨ks', prev', h1, h2, h3, h4, h5⟩ := (process_grid hs k ks prev hg hk hp).2 hle
    have := ih (k + 1) ks' prev' (by omega) h2 (.inr h3) h4 fuel (by omega)
    simp only [run]
    rw [h1]
    simp only
    rw [this]
    simp only [Prod.mk.injEq, and_true]
    rw [List.range_succ_eq_map, List.map_cons, List.map_map]
    congr 1
    apply List.map_congr_left
    intro i _
    simp only [Function.comp]
    rw [h5 (k + 1 + i) (by omega)]
    congr 1
    omega

/-- C17: for a measurement set whose time slots lie on the time grid (up to the
tolerance), with any slots missing, the reader emits exactly one buffer for every
grid time from the first to the last time.  The buffer of a slot that exists holds
the rows of that slot; one that is missing is inserted.  Slots before the first time
are skipped. -/
theorem run_regular {c : Config F} (hs : Sane c) (K : Nat)
    (hK : c.first + K * c.interval ≤ c.last + c.endTol)
    (hK1 : c.last + c.endTol < c.first + (K + 1) * c.interval)
    (ks : List (Int × MsSlot F R)) (hg : OnGrid c ks) (prev : F)
    (hp : ∀ p ∈ ks, prev ≤ p.2.time) (fuel : Nat) (hf : K + 1 < fuel) :
    run c fuel (start c (ks.map (·.2)) prev)
      = ((List.range (K + 1)).map fun (k : Nat) =>
          ⟨c.first + k * c.interval, (ks.find? fun p => p.1 = (k : Int)).map fun p => p.2.rows⟩, true) := by
  have := run_grid hs K hK (by push_cast; exact hK1) (K + 1) 0 ks prev (by omega) hg (.inl rfl) hp
    fuel hf
  simp only [start]
  simp only [Nat.cast_zero, zero_mul, add_zero, Nat.zero_add] at this
  rw [this]
  rfl

/-- `run_regular` for slots at positions −1, 0, 2 and 3 of a grid of 10 s, one of them
5 ms late: position 1 is inserted. -/
example :
    run (R := String) (⟨100, 130, 10, 1/100, 0⟩ : Config ℚ) 5
      (start ⟨100, 130, 10, 1/100, 0⟩
        ([(-1, ⟨90, "z"⟩), (0, ⟨100, "a"⟩), (2, ⟨120 + 1/200, "b"⟩), (3, ⟨130, "c"⟩)].map
          (fun p : Int × MsSlot ℚ String => p.2)) 0)
      = ([⟨100, some "a"⟩, ⟨110, none⟩, ⟨120, some "b"⟩, ⟨130, some "c"⟩], true) := by
  rw [run_regular ⟨by norm_num, by norm_num, by norm_num, by norm_num, by norm_num⟩ 3
    (by norm_num) (by norm_num) _ ⟨?_, ?_⟩ 0 ?_ 5 (by norm_num)]
  · norm_num [List.range_succ, List.find?]
  · intro p hp
    fin_cases hp <;> norm_num [abs_le]
  · simp
  · intro p hp
    fin_cases hp <;> norm_num

/-! ### Arbitrary times -/

/-- The times of the slots increase by more than the tolerance. -/
def Spaced (c : Config F) (ms : List (MsSlot F R)) : Prop :=
  ms.Pairwise fun s t => s.time + c.tol < t.time

private structure Inv (c : Config F) (st : State F R) : Prop where
  spaced : Spaced c st.ms
  next : st.next = c.first + st.correction + st.count * c.interval
  zero : st.count = 0 → st.next = c.first
  corr : st.correction ≤ 0
  after : st.count ≠ 0 → ∀ s ∈ st.ms, st.next - c.interval < s.time
  low : st.count ≠ 0 → c.first ≤ st.next - c.interval
  prev : ∀ s ∈ st.ms, st.prev ≤ s.time

/-- Scanning with the invariant. -/
private theorem scan_spaced {c : Config F} (hs : Sane c) (cf next : F) (first : Bool)
    (hfirst : first = true → cf = next) :
    ∀ (ms : List (MsSlot F R)) (prev : F), Spaced c ms → (∀ s ∈ ms, prev ≤ s.time) →
      (first = false → ∀ s ∈ ms, cf < s.time) →
      ∃ (sk rest : List (MsSlot F R)) (prev' : F) (o : Option F),
        scan c cf next ms prev = (rest, prev', o) ∧ ms = sk ++ rest ∧
        (first = false → sk = []) ∧ (∀ s ∈ sk, s.time < next - c.tol) ∧
        (∀ s ∈ rest, prev' ≤ s.time) ∧
        ((o = none ∧ ∀ s ∈ rest, next + c.tol < s.time) ∨
         (∃ s rest', rest = s :: rest' ∧ o = some next ∧ |next - s.time| ≤ c.tol) ∨
         (∃ s rest', first = false ∧ rest = s :: rest' ∧ o = some s.time ∧ s.time < next)) := by
  have ht := hs.tol_nonneg
  intro ms
  induction ms with
  | nil =>
    intro prev _ _ _
    exact ⟨[], [], prev, none, by simp [scan], by simp, by simp, by simp, by simp, .inl ⟨rfl, by simp⟩⟩
  | cons s ms ih =>
    intro prev hsp hprev hcf
    have hsp1 := (List.pairwise_cons.mp hsp).1
    have hp := hprev s (by simp)
    simp only [scan]
    rw [if_neg (not_lt.mpr hp)]
    by_cases hn : nearAbs s.time next c.tol
    · rw [if_pos hn]
      exact ⟨[], s :: ms, prev, some next, rfl, rfl, by simp, by simp, hprev,
        .inr (.inl ⟨s, ms, rfl, rfl, hn⟩)⟩
    · rw [if_neg hn]
      by_cases hm : s.time > cf ∧ s.time < next
      · rw [if_pos hm]
        refine ⟨[], s :: ms, prev, some s.time, rfl, rfl, by simp, by simp, hprev,
          .inr (.inr ⟨s, ms, ?_, rfl, rfl, hm.2⟩)⟩
        cases hf : first with
        | false => rfl
        | true => rw [hfirst hf] at hm; exact absurd (hm.1.trans hm.2) (lt_irrefl _)
      · rw [if_neg hm]
        have hn' : next + c.tol < s.time ∨ s.time < next - c.tol := by
          unfold nearAbs at hn
          rw [abs_le] at hn
          by_contra hc
          push Not at hc
          exact hn ⟨by linarith [hc.1], by linarith [hc.2]⟩
        by_cases hg : s.time > next
        · rw [if_pos hg]
          refine ⟨[], s :: ms, prev, none, rfl, rfl, by simp, by simp, hprev, .inl ⟨rfl, ?_⟩⟩
          intro t hmem
          rcases List.mem_cons.mp hmem with rfl | hmem
          · rcases hn' with h | h
            · exact h
            · linarith
          · have := hsp1 t hmem; linarith
        · rw [if_neg hg]
          have hft : first = true := by
            cases hf : first with
            | true => rfl
            | false =>
              exfalso
              apply hm
              refine ⟨hcf hf s (by simp), lt_of_le_of_ne (not_lt.mp hg) ?_⟩
              rintro he
              apply hn
              unfold nearAbs
              rw [he, sub_self, abs_zero]
              exact ht
          obtain ⟨sk, rest, prev', o, h1, h2, h3, h4, h5, h6⟩ :=
            ih s.time (List.pairwise_cons.mp hsp).2
              (fun t hmem => by have := hsp1 t hmem; linarith) (by simp [hft])
          refine ⟨s :: sk, rest, prev', o, h1, by simp [h2], by simp [hft], ?_, h5, h6⟩
          intro t hmem
          rcases List.mem_cons.mp hmem with rfl | hmem
          · rcases hn' with h | h
            · linarith
            · exact h
          · exact h4 t hmem

private theorem process_spaced {c : Config F} (hs : Sane c) (st : State F R) (hi : Inv c st) :
    (process c st = none → ∀ s ∈ st.ms, c.first - c.tol ≤ s.time →
        c.last + c.endTol - c.tol < s.time) ∧
    ∀ st' o, process c st = some (st', o) →
      ∃ sk, (∀ s ∈ sk, s.time < c.first - c.tol) ∧
        ((∃ s, o.rows = some s.rows ∧ st.ms = sk ++ s :: st'.ms ∧ |o.time - s.time| ≤ c.tol) ∨
         (o.rows = none ∧ st.ms = sk ++ st'.ms ∧ o.time = st.next)) ∧
        o.time ≤ st.next ∧ (st.count = 0 → o.time = c.first) ∧
        (st.count ≠ 0 → st.next - c.interval < o.time) ∧ st'.next = o.time + c.interval ∧
        st'.count = st.count + 1 ∧ c.first ≤ o.time ∧ o.time ≤ c.last + c.endTol ∧ Inv c st' := by
  have ht := hs.tol_nonneg
  have hI := hs.interval_pos
  have hcf : (decide (st.count = 0)) = false → ∀ s ∈ st.ms, c.first + st.correction < s.time := by
    intro h s hmem
    have h0 : st.count ≠ 0 := by simpa using h
    have h1 := hi.after h0 s hmem
    have h2 := hi.low h0
    linarith [hi.corr]
  have hzero : (decide (st.count = 0)) = true → c.first + st.correction = st.next := by
    intro h
    have h0 : st.count = 0 := by simpa using h
    have := hi.next
    simp [h0] at this
    exact this.symm
  obtain ⟨sk, rest, prev', o, h1, h2, h3, h4, h5, h6⟩ :=
    scan_spaced hs (c.first + st.correction) st.next (decide (st.count = 0)) hzero st.ms st.prev
      hi.spaced hi.prev hcf
  have hfn : c.first ≤ st.next := by
    by_cases h0 : st.count = 0
    · rw [hi.zero h0]
    · linarith [hi.low h0]
  have hsk : ∀ s ∈ sk, s.time < c.first - c.tol := by
    intro s hmem
    by_cases h0 : st.count = 0
    · rw [← hi.zero h0]; exact h4 s hmem
    · rw [h3 (by simpa using h0)] at hmem; simp at hmem
  have hsprest : Spaced c rest := by
    have := hi.spaced
    rw [h2] at this
    exact (List.pairwise_append.mp this).2.1
  have hafter : st.count ≠ 0 → ∀ s ∈ rest, st.next - c.interval < s.time := fun h0 s hmem =>
    hi.after h0 s (by rw [h2]; simp [hmem])
  have hmemrest : ∀ s ∈ st.ms, c.first - c.tol ≤ s.time → s ∈ rest := by
    intro s hmem hge
    rw [h2] at hmem
    rcases List.mem_append.mp hmem with h | h
    · exact absurd (hsk s h) (not_lt.mpr hge)
    · exact h
  have hkey : (st.count + 1 : Nat) = ((st.count : F) + 1) := by push_cast; rfl
  rcases h6 with ⟨ho, hr⟩ | ⟨s, rest', hrs, ho, hn⟩ | ⟨s, rest', hf, hrs, ho, hlt⟩
  · -- inserted
    subst ho
    have hstop := stop_iff hs (show 0 < st.next by linarith [hs.first_pos])
    constructor
    · intro hnone s hmem hge
      have hmr := hmemrest s hmem hge
      simp only [process] at hnone
      rw [h1] at hnone
      simp only at hnone
      split at hnone
      · rename_i hst
        have := hstop.mp hst
        linarith [hr s hmr]
      · simp at hnone
    · intro st' o hsome
      simp only [process] at hsome
      rw [h1] at hsome
      simp only at hsome
      split at hsome
      · simp at hsome
      · rename_i hst
        have hle : st.next ≤ c.last + c.endTol := not_lt.mp (fun h => hst (hstop.mpr h))
        simp only [Option.some.injEq, Prod.mk.injEq] at hsome
        obtain ⟨rfl, rfl⟩ := hsome
        refine ⟨sk, hsk, .inr ⟨rfl, h2, rfl⟩, le_rfl, hi.zero, fun _ => by simp; exact hI, ?_, rfl, hfn,
          hle, ?_⟩
        · simp only; rw [hi.next]; push_cast; ring
        · constructor
          · exact hsprest
          · rfl
          · simp
          · exact hi.corr
          · intro _ s hmem
            simp only
            have := hr s hmem
            rw [hkey]
            linarith [hi.next]
          · intro _
            simp only
            rw [hkey]
            linarith [hi.next]
          · exact h5
  · -- near
    subst ho
    have hstop := stop_iff hs (show 0 < st.next by linarith [hs.first_pos])
    rw [abs_le] at hn
    constructor
    · intro hnone t hmem hge
      have hmr := hmemrest t hmem hge
      simp only [process] at hnone
      rw [h1] at hnone
      simp only at hnone
      split at hnone
      · rename_i hst
        have h7 := hstop.mp hst
        rw [hrs] at hmr
        rcases List.mem_cons.mp hmr with rfl | hmr
        · linarith [hn.2]
        · have := (List.pairwise_cons.mp (hrs ▸ hsprest)).1 t hmr
          linarith [hn.2]
      · simp at hnone
    · intro st' o hsome
      simp only [process] at hsome
      rw [h1] at hsome
      simp only at hsome
      split at hsome
      · simp at hsome
      · rename_i hst
        have hle : st.next ≤ c.last + c.endTol := not_lt.mp (fun h => hst (hstop.mpr h))
        simp only [Option.some.injEq, Prod.mk.injEq] at hsome
        obtain ⟨rfl, rfl⟩ := hsome
        have hsp' := List.pairwise_cons.mp (hrs ▸ hsprest)
        refine ⟨sk, hsk, .inl ⟨s, by simp [hrs], by simp [hrs, h2], abs_le.mpr hn⟩, le_rfl, hi.zero,
          fun _ => by simp; exact hI, ?_, rfl, hfn, hle, ?_⟩
        · simp only [sub_self, sub_zero]; rw [hi.next]; push_cast; ring
        · constructor
          · simp only [hrs, List.tail_cons]; exact hsp'.2
          · rfl
          · simp
          · simp only [sub_self, sub_zero]; exact hi.corr
          · intro _ t hmem
            simp only [hrs, List.tail_cons] at hmem
            simp only [sub_self, sub_zero]
            have := hsp'.1 t hmem
            rw [hkey]
            linarith [hi.next, hn.2]
          · intro _
            simp only [sub_self, sub_zero]
            rw [hkey]
            linarith [hi.next]
          · intro t hmem
            simp only [hrs, List.tail_cons] at hmem
            simp only
            have := hsp'.1 t hmem
            linarith [hn.2]
  · -- early
    subst ho
    have h0 : st.count ≠ 0 := by simpa using hf
    have haf : st.next - c.interval < s.time := hafter h0 s (by simp [hrs])
    have hlow := hi.low h0
    have hstop := stop_iff hs (show 0 < s.time by linarith [hs.first_pos])
    have hsp' := List.pairwise_cons.mp (hrs ▸ hsprest)
    constructor
    · intro hnone t hmem hge
      have hmr := hmemrest t hmem hge
      simp only [process] at hnone
      rw [h1] at hnone
      simp only at hnone
      split at hnone
      · rename_i hst
        have h7 := hstop.mp hst
        rw [hrs] at hmr
        rcases List.mem_cons.mp hmr with rfl | hmr
        · linarith
        · have := hsp'.1 t hmr
          linarith
      · simp at hnone
    · intro st' o hsome
      simp only [process] at hsome
      rw [h1] at hsome
      simp only at hsome
      split at hsome
      · simp at hsome
      · rename_i hst
        have hle : s.time ≤ c.last + c.endTol := not_lt.mp (fun h => hst (hstop.mpr h))
        simp only [Option.some.injEq, Prod.mk.injEq] at hsome
        obtain ⟨rfl, rfl⟩ := hsome
        refine ⟨sk, hsk, .inl ⟨s, by simp [hrs], by simp [hrs, h2], by simpa using ht⟩, hlt.le,
          fun h => absurd h h0, fun _ => haf, ?_, rfl, by simp only; linarith, hle, ?_⟩
        · simp only; rw [hi.next]; push_cast; ring
        · constructor
          · simp only [hrs, List.tail_cons]; exact hsp'.2
          · rfl
          · simp
          · simp only; linarith [hi.corr]
          · intro _ t hmem
            simp only [hrs, List.tail_cons] at hmem
            simp only
            have := hsp'.1 t hmem
            rw [hkey]
            linarith [hi.next]
          · intro _
            simp only
            rw [hkey]
            linarith [hi.next]
          · intro t hmem
            simp only [hrs, List.tail_cons] at hmem
            simp only
            have := hsp'.1 t hmem
            linarith

/-- A buffer holds the rows of a slot, at its time up to the tolerance. -/
def Holds (c : Config F) (o : Out F R) (s : MsSlot F R) : Prop :=
  o.rows = some s.rows ∧ |o.time - s.time| ≤ c.tol

private theorem run_spaced {c : Config F} (hs : Sane c) (fuel : Nat) :
    ∀ (st : State F R), Inv c st →
      ∃ used, used.Sublist st.ms ∧
        List.Forall₂ (Holds c) ((run c fuel st).1.filter fun o => o.rows.isSome) used ∧
        ((run c fuel st).2 = true → ∀ s ∈ st.ms, c.first - c.tol ≤ s.time →
          s.time ≤ c.last + c.endTol - c.tol → s ∈ used) ∧
        (∀ o ∈ (run c fuel st).1.head?, o.time ≤ st.next ∧ (st.count = 0 → o.time = c.first) ∧
          (st.count ≠ 0 → st.next - c.interval < o.time)) ∧
        (run c fuel st).1.IsChain (fun a b => a.time < b.time ∧ b.time ≤ a.time + c.interval) := by
  induction fuel with
  | zero => intro st _; exact ⟨[], by simp, by simp [run], by simp [run], by simp [run], by simp [run]⟩
  | succ fuel ih =>
    intro st hi
    obtain ⟨p1, p2⟩ := process_spaced hs st hi
    cases hp : process c st with
    | none =>
      have hr : run c (fuel + 1) st = ([], true) := by simp only [run]; rw [hp]
      rw [hr]
      refine ⟨[], by simp, by simp, ?_, by simp, by simp⟩
      intro _ s hmem h1 h2
      exact absurd h2 (not_le.mpr (p1 hp s hmem h1))
    | some r =>
      obtain ⟨st', o⟩ := r
      have hr : run c (fuel + 1) st = (o :: (run c fuel st').1, (run c fuel st').2) := by
        simp only [run]; rw [hp]
      obtain ⟨sk, hsk, hcase, hle, hz, hnz, hnext, hcount, hlow, hlast, hi'⟩ := p2 st' o hp
      obtain ⟨used, u1, u2, u3, u4, u5⟩ := ih st' hi'
      rw [hr]
      have hchain : (o :: (run c fuel st').1).IsChain
          (fun a b => a.time < b.time ∧ b.time ≤ a.time + c.interval) := by
        rw [List.isChain_cons]
        refine ⟨?_, u5⟩
        intro b hb
        obtain ⟨q1, _, q3⟩ := u4 b hb
        have := q3 (by omega)
        rw [hnext] at q1 this
        exact ⟨by linarith, q1⟩
      have hnsk : ∀ s ∈ sk, c.first - c.tol ≤ s.time → False := fun s h h' =>
        absurd (hsk s h) (not_lt.mpr h')
      rcases hcase with ⟨s, hs1, hs2, hs3⟩ | ⟨hn, hms, _⟩
      · refine ⟨s :: used, ?_, ?_, ?_, ?_, hchain⟩
        · rw [hs2]
          exact (List.Sublist.cons_cons s u1).trans (List.sublist_append_right sk _)
        · simp only [List.filter_cons, hs1, Option.isSome_some, if_true]
          exact .cons ⟨hs1, hs3⟩ u2
        · intro hfin t hmem h1 h2
          rw [hs2] at hmem
          rcases List.mem_append.mp hmem with h | h
          · exact (hnsk t h h1).elim
          · rcases List.mem_cons.mp h with rfl | h
            · simp
            · exact List.mem_cons_of_mem _ (u3 hfin t h h1 h2)
        · intro o' ho'
          simp at ho'
          subst ho'
          exact ⟨hle, hz, hnz⟩
      · refine ⟨used, ?_, ?_, ?_, ?_, hchain⟩
        · rw [hms]; exact u1.trans (List.sublist_append_right sk _)
        · simp only [List.filter_cons, hn, Option.isSome_none]
          exact u2
        · intro hfin t hmem h1 h2
          rw [hms] at hmem
          rcases List.mem_append.mp hmem with h | h
          · exact (hnsk t h h1).elim
          · exact u3 hfin t h h1 h2
        · intro o' ho'
          simp at ho'
          subst ho'
          exact ⟨hle, hz, hnz⟩

private theorem inv_start {c : Config F} (ms : List (MsSlot F R)) (prev : F) (hsp : Spaced c ms)
    (hp : ∀ s ∈ ms, prev ≤ s.time) : Inv c (start c ms prev) :=
  ⟨hsp, by simp [start], fun _ => rfl, le_rfl, fun h => absurd rfl h, fun h => absurd rfl h, hp⟩

/-- C17, whatever the times of the slots are, as long as they increase by more than
the tolerance: the buffers that are not inserted hold slots of the measurement set,
each at most once and in order, at their time up to the tolerance; consecutive buffers
are at increasing times at most one interval apart; the first buffer is at the first
time; and when reading is done, every slot has been emitted, except those before the
first time and those closer than the tolerance to the last time, or later. -/
theorem run_irregular {c : Config F} (hs : Sane c) (ms : List (MsSlot F R)) (hsp : Spaced c ms)
    (prev : F) (hp : ∀ s ∈ ms, prev ≤ s.time) (fuel : Nat) :
    ∃ used, used.Sublist ms ∧
      List.Forall₂ (fun (o : Out F R) (s : MsSlot F R) =>
          o.rows = some s.rows ∧ |o.time - s.time| ≤ c.tol)
        ((run c fuel (start c ms prev)).1.filter fun o => o.rows.isSome) used ∧
      ((run c fuel (start c ms prev)).2 = true → ∀ s ∈ ms, c.first - c.tol ≤ s.time →
        s.time ≤ c.last + c.endTol - c.tol → s ∈ used) ∧
      (∀ o ∈ (run c fuel (start c ms prev)).1.head?, o.time = c.first) ∧
      (run c fuel (start c ms prev)).1.IsChain
        (fun a b => a.time < b.time ∧ b.time ≤ a.time + c.interval) := by
  obtain ⟨used, h1, h2, h3, h4, h5⟩ := run_spaced hs fuel _ (inv_start ms prev hsp hp)
  exact ⟨used, h1, h2, h3, fun o ho => (h4 o ho).2.1 rfl, h5⟩

private theorem run_done {c : Config F} (hs : Sane c) :
    ∀ (fuel : Nat) (st : State F R) (N : Nat), Inv c st →
      c.last + c.endTol < st.next + N * c.interval → st.ms.length + N < fuel →
      (st.count = 0 → N ≠ 0 ∨ st.ms = []) →
      (run c fuel st).2 = true := by
  intro fuel
  induction fuel with
  | zero => intro st N _ _ h; omega
  | succ fuel ih =>
    intro st N hi hN hf h0
    cases hp : process c st with
    | none => simp only [run]; rw [hp]
    | some r =>
      obtain ⟨st', o⟩ := r
      have hr : run c (fuel + 1) st = (o :: (run c fuel st').1, (run c fuel st').2) := by
        simp only [run]; rw [hp]
      rw [hr]
      obtain ⟨sk, hsk, hcase, hle, hz, hnz, hnext, hcount, hlow, hlast, hi'⟩ :=
        (process_spaced hs st hi).2 st' o hp
      rcases hcase with ⟨s, hs1, hs2, hs3⟩ | ⟨hn, hms, hon⟩
      · by_cases hc : st.count = 0
        · have hn0 : N ≠ 0 := by
            rcases h0 hc with h | h
            · exact h
            · rw [h] at hs2; simp at hs2
          obtain ⟨M, rfl⟩ : ∃ M, N = M + 1 := ⟨N - 1, by omega⟩
          refine ih st' M hi' ?_ ?_ (by omega)
          · rw [hnext, hz hc]
            rw [hi.zero hc] at hN
            push_cast at hN
            linarith
          · have := congrArg List.length hs2
            simp at this
            omega
        · refine ih st' N hi' ?_ ?_ (by omega)
          · rw [hnext]
            linarith [hnz hc]
          · have := congrArg List.length hs2
            simp at this
            omega
      · rw [hon] at hlast hnext
        have hn0 : N ≠ 0 := by
          rintro rfl
          simp at hN
          linarith
        obtain ⟨M, rfl⟩ : ∃ M, N = M + 1 := ⟨N - 1, by omega⟩
        refine ih st' M hi' ?_ ?_ (by omega)
        · rw [hnext]
          push_cast at hN
          linarith
        · have := congrArg List.length hms
          simp at this
          omega

/-- Reading ends: after at most one call per slot of the measurement set plus one per
interval between the first and the last time, `process` returns false. -/
theorem run_ends {c : Config F} (hs : Sane c) (ms : List (MsSlot F R)) (hsp : Spaced c ms)
    (prev : F) (hp : ∀ s ∈ ms, prev ≤ s.time) (N : Nat)
    (hN : c.last + c.endTol < c.first + (N + 1) * c.interval) (fuel : Nat)
    (hf : ms.length + N + 1 < fuel) :
    (run c fuel (start c ms prev)).2 = true :=
  run_done hs fuel _ (N + 1) (inv_start ms prev hsp hp) (by simpa [start] using hN)
    (by simpa [start] using by omega) (by simp)

/-- An irregular measurement set: the slot at 117 comes 3 s early and shifts the
following times. -/
example :
    Sane (⟨100, 127, 10, 1/100, 0⟩ : Config ℚ) ∧
    Spaced (⟨100, 127, 10, 1/100, 0⟩ : Config ℚ)
      [⟨100, "a"⟩, ⟨117, "b"⟩, ⟨127, "c"⟩] ∧
    run (⟨100, 127, 10, 1/100, 0⟩ : Config ℚ) 6
      (start ⟨100, 127, 10, 1/100, 0⟩ [⟨100, "a"⟩, ⟨117, "b"⟩, ⟨127, "c"⟩] 0)
      = ([⟨100, some "a"⟩, ⟨110, none⟩, ⟨117, some "b"⟩, ⟨127, some "c"⟩], true) := by
  refine ⟨⟨by norm_num, by norm_num, by norm_num, by norm_num, by norm_num⟩, ?_, ?_⟩
  · norm_num [Spaced]
  · norm_num [run, process, scan, start, nearAbs, abs_le]

/-- `run_irregular` and `run_ends` do apply to this measurement set. -/
example : ∃ used : List (MsSlot ℚ String), used.Sublist [(⟨100, "a"⟩ : MsSlot ℚ String), ⟨117, "b"⟩, ⟨127, "c"⟩] ∧
    ⟨100, "a"⟩ ∈ used ∧ ⟨117, "b"⟩ ∈ used := by
  have hs : Sane (⟨100, 127, 10, 1/100, 0⟩ : Config ℚ) :=
    ⟨by norm_num, by norm_num, by norm_num, by norm_num, by norm_num⟩
  have hp : Spaced (⟨100, 127, 10, 1/100, 0⟩ : Config ℚ)
      [⟨100, "a"⟩, ⟨117, "b"⟩, ⟨127, "c"⟩] := by norm_num [Spaced]
  have hd := run_ends hs _ hp 0 (by norm_num) 2 (by norm_num) 7 (by simp)
  obtain ⟨used, h1, _, h3, _⟩ := run_irregular hs _ hp 0 (by norm_num) 7
  exact ⟨used, h1, h3 hd ⟨100, "a"⟩ (by simp) (by norm_num) (by norm_num),
    h3 hd ⟨117, "b"⟩ (by simp) (by norm_num) (by norm_num)⟩

/-- Near the last time a slot is lost that would be used elsewhere: when the last slot
of the measurement set is early by less than the tolerance, the last time, which is
the time of that slot, is before the next grid time, and reading stops before it. -/
theorem last_slot_lost :
    run (⟨100, 119 + 199/200, 10, 1/100, 1/1000000⟩ : Config ℚ) 5
      (start ⟨100, 119 + 199/200, 10, 1/100, 1/1000000⟩
        [⟨100, "a"⟩, ⟨110, "b"⟩, ⟨119 + 199/200, "c"⟩] 0)
      = ([⟨100, some "a"⟩, ⟨110, some "b"⟩], true) := by
  norm_num [run, process, scan, start, nearAbs, abs_le]

/-- The test on the order of the slots compares with the preceding slot even when that
one was skipped for being out of order.  After two slots that are out of order, time
runs backwards. -/
theorem time_goes_back :
    run (⟨100, 140, 10, 1/100, 0⟩ : Config ℚ) 6
      (start ⟨100, 140, 10, 1/100, 0⟩
        [⟨100, "a"⟩, ⟨110, "b"⟩, ⟨120, "c"⟩, ⟨103, "d"⟩, ⟨107, "e"⟩] 0)
      = ([⟨100, some "a"⟩, ⟨110, some "b"⟩, ⟨120, some "c"⟩, ⟨107, some "e"⟩, ⟨117, none⟩,
          ⟨127, none⟩], false) := by
  norm_num [run, process, scan, start, nearAbs, abs_le]

/-! ### Time selection -/

private theorem skip_spec [FloorRing F] (g I S : F) (hI : 0 < I) :
    ∀ (ks : List (Int × MsSlot F R)) (prev : F), (∀ p ∈ ks, p.2.time = g + p.1 * I) →
      (ks.Pairwise fun p q => p.1 < q.1) → (∀ p ∈ ks, prev ≤ p.2.time) →
      (skipFirstTimes I S (ks.map (·.2)) prev).2.2
          = (ks.dropWhile fun p => p.2.time < S).map (·.2) ∧
      (∀ p ∈ ks.dropWhile (fun p => p.2.time < S),
        (skipFirstTimes I S (ks.map (·.2)) prev).2.1 ≤ p.2.time) ∧
      ((ks.dropWhile fun p => p.2.time < S) ≠ [] →
        ∃ a : Int, (skipFirstTimes I S (ks.map (·.2)) prev).1 = g + a * I ∧
          S ≤ g + a * I ∧ g + (a - 1) * I < S) := by
  intro ks
  induction ks with
  | nil => intro prev _ _ _; simp [skipFirstTimes]
  | cons p ks ih =>
    intro prev hg hso hp
    have hp0 := hp p (by simp)
    have ht := hg p (by simp)
    have hso' := List.pairwise_cons.mp hso
    by_cases hlt : p.2.time < S
    · have hmono : ∀ q ∈ ks, p.2.time ≤ q.2.time := by
        intro q hq
        rw [ht, hg q (by simp [hq])]
        have : (p.1 : F) ≤ (q.1 : F) := by exact_mod_cast (hso'.1 q hq).le
        linarith [mul_le_mul_of_nonneg_right this hI.le]
      have hd : (p :: ks).dropWhile (fun p => decide (p.2.time < S))
          = ks.dropWhile (fun p => decide (p.2.time < S)) :=
        List.dropWhile_cons_of_pos (by simpa using hlt)
      have hstep : skipFirstTimes I S ((p :: ks).map (·.2)) prev
          = skipFirstTimes I S (ks.map (·.2)) p.2.time := by
        simp only [List.map_cons, skipFirstTimes]
        rw [if_neg (not_lt.mpr hp0), if_neg hlt.ne, if_neg (not_lt.mpr hlt.le)]
      rw [hd, hstep]
      exact ih p.2.time (fun q hq => hg q (by simp [hq])) hso'.2 hmono
    · have hd : (p :: ks).dropWhile (fun p => decide (p.2.time < S)) = p :: ks :=
        List.dropWhile_cons_of_neg (by simpa using hlt)
      rw [hd]
      simp only [List.map_cons, skipFirstTimes]
      rw [if_neg (not_lt.mpr hp0)]
      by_cases he : p.2.time = S
      · rw [if_pos he]
        refine ⟨rfl, hp, fun _ => ⟨p.1, ht, by rw [← ht, he], ?_⟩⟩
        rw [← he, ht]
        linarith [sub_mul (p.1 : F) 1 I]
      · have hgt : p.2.time > S := lt_of_le_of_ne (not_lt.mp hlt) (Ne.symm he)
        rw [if_neg he, if_pos hgt]
        have h1 := Int.floor_le ((p.2.time - S) / I)
        have h2 := Int.lt_floor_add_one ((p.2.time - S) / I)
        rw [le_div_iff₀ hI] at h1
        rw [div_lt_iff₀ hI] at h2
        refine ⟨rfl, hp, fun _ => ⟨p.1 - ⌊(p.2.time - S) / I⌋, ?_, ?_, ?_⟩⟩
        · simp only
          rw [if_neg]
          · rw [ht]; push_cast; ring
          · intro h
            nlinarith
        · push_cast
          rw [ht] at h1 ⊢
          nlinarith
        · push_cast
          rw [ht] at h2 ⊢
          nlinarith

/-- On a grid that ends at the last time, `n_times_` is the number of grid times. -/
theorem nTimes_grid [FloorRing F] (c : Config F) (hI : 0 < c.interval) (K : Nat)
    (hl : c.last = c.first + K * c.interval) : nTimes c = K + 1 := by
  unfold nTimes
  have : (c.last - c.first) / c.interval = (K : F) := by
    rw [hl]; field_simp; ring
  rw [this, Int.floor_eq_iff]
  push_cast
  constructor <;> linarith

private theorem find_shift (ks : List (Int × MsSlot F R)) (a b : Int) (S : F) (g I : F)
    (hg : ∀ p ∈ ks, p.2.time = g + p.1 * I) (hb : S ≤ g + b * I) :
    ((ks.dropWhile fun p => p.2.time < S).map fun p => (p.1 - a, p.2)).find?
        (fun p => p.1 = b - a)
      = (ks.find? fun p => p.1 = b).map fun p => (p.1 - a, p.2) := by
  induction ks with
  | nil => rfl
  | cons p ks ih =>
    by_cases h : p.2.time < S
    · rw [List.dropWhile_cons_of_pos (by simpa using h), ih (fun q hq => hg q (by simp [hq])),
        List.find?_cons_of_neg]
      simp only [decide_eq_true_eq]
      rintro rfl
      rw [hg p (by simp)] at h
      linarith
    · rw [List.dropWhile_cons_of_neg (by simpa using h), List.find?_map]
      congr 2
      funext q
      simp

/-- C57: selecting a start and an end time of a measurement set with slots on a regular
grid gives exactly the grid times between them (including both ends): `a` is the first
grid point at or after the start time and `a + n` the last one at or before the end
time.  The number of times announced to the other steps is the number of buffers. -/
theorem select_spec [FloorRing F] (g I tol endTol S E msFirst msLast : F) (hI : 0 < I)
    (htol : 0 ≤ tol) (htol2 : 2 * tol < I) (hend : 0 ≤ endTol) (hend1 : endTol < I) (hS : 0 < S)
    (ks : List (Int × MsSlot F R)) (hg : ∀ p ∈ ks, p.2.time = g + p.1 * I)
    (hpos : ∀ p ∈ ks, 0 ≤ p.2.time) (hso : ks.Pairwise fun p q => p.1 < q.1)
    (c : Config F) (st : State F R)
    (h : selectTimes msFirst msLast I tol endTol S E (ks.map (·.2)) = some (c, st)) :
    ∃ (a : Int) (n : Nat), S ≤ g + a * I ∧ g + (a - 1) * I < S ∧
      g + (a + n) * I ≤ E ∧ E < g + (a + n + 1) * I ∧ nTimes c = n + 1 ∧
      ∀ fuel, n + 1 < fuel → run c fuel st
        = ((List.range (n + 1)).map fun (i : Nat) =>
            ⟨g + (a + i) * I, (ks.find? fun p => p.1 = a + (i : Int)).map fun p => p.2.rows⟩,
           true) := by
  obtain ⟨h1, h2, h3⟩ := skip_spec g I S hI ks 0 hg hso hpos
  simp only [selectTimes] at h
  split at h
  · simp at h
  split at h
  · simp at h
  rename_i hne
  split at h
  · simp at h
  split at h
  · simp at h
  rename_i hlast
  simp only [Option.some.injEq, Prod.mk.injEq] at h
  obtain ⟨rfl, rfl⟩ := h
  rw [h1] at hne
  obtain ⟨a, ha, hS1, hS2⟩ := h3 (by intro he; rw [he] at hne; simp at hne)
  rw [ha] at hlast ⊢
  have hz : 0 ≤ ⌊(E - (g + a * I)) / I⌋ := by
    by_contra hc
    apply hlast
    have : ((⌊(E - (g + a * I)) / I⌋ : Int) : F) ≤ ((-1 : Int) : F) := Int.cast_le.mpr (by omega)
    push_cast at this
    nlinarith
  obtain ⟨n, hn⟩ := Int.eq_ofNat_of_zero_le hz
  have e1 := Int.floor_le ((E - (g + a * I)) / I)
  have e2 := Int.lt_floor_add_one ((E - (g + a * I)) / I)
  rw [le_div_iff₀ hI, hn] at e1
  rw [div_lt_iff₀ hI, hn] at e2
  push_cast at e1 e2
  rw [hn]
  refine ⟨a, n, hS1, hS2, by linarith [add_mul (a : F) n I],
    by linarith [add_mul (a : F) n I, add_mul ((a : F) + n) 1 I, add_mul (n : F) 1 I],
    nTimes_grid _ hI n (by simp), ?_⟩
  intro fuel hf
  have hs : Sane (⟨g + a * I, g + a * I + ((n : Int) : F) * I, I, tol, endTol⟩ : Config F) :=
    ⟨hI, htol, hend, htol2, by simp only; linarith⟩
  have hrun := run_regular hs n (by simp; exact hend)
    (by simp only; push_cast; linarith [add_mul (n : F) 1 I])
    ((ks.dropWhile fun p => p.2.time < S).map fun p => (p.1 - a, p.2))
    ⟨?_, ?_⟩ (hp := ?_) (fuel := fuel) (hf := hf) (prev := (skipFirstTimes I S (ks.map (·.2)) 0).2.1)
  · have hms : ((ks.dropWhile fun p => decide (p.2.time < S)).map fun p => (p.1 - a, p.2)).map (·.2)
        = (skipFirstTimes I S (ks.map (·.2)) 0).2.2 := by
      rw [h1, List.map_map]; rfl
    rw [hms] at hrun
    simp only [start] at hrun
    rw [hrun]
    congr 1
    apply List.map_congr_left
    intro i _
    have hb : S ≤ g + ((a + (i : Int) : Int) : F) * I := by
      push_cast
      have : 0 ≤ (i : F) * I := mul_nonneg (Nat.cast_nonneg i) hI.le
      linarith [add_mul (a : F) i I]
    have := find_shift ks a (a + i) S g I hg hb
    simp only [add_sub_cancel_left] at this
    rw [this, Option.map_map]
    simp only [Out.mk.injEq]
    exact ⟨by ring, rfl⟩
  · intro p hp
    rw [List.mem_map] at hp
    obtain ⟨q, hq, rfl⟩ := hp
    simp only
    rw [hg q (mem_dropWhile hq)]
    push_cast
    have : g + (q.1 : F) * I - (g + a * I + ((q.1 : F) - a) * I) = 0 := by ring
    rw [this, abs_zero]
    exact htol
  · rw [List.pairwise_map]
    exact (hso.sublist (List.dropWhile_sublist _)).imp fun h => by simp only; omega
  · intro p hp
    rw [List.mem_map] at hp
    obtain ⟨q, hq, rfl⟩ := hp
    exact h2 q hq

/-- A selection from 104 to 129 in a measurement set with slots at 100, 120, 130. -/
example : ∃ (c : Config ℚ) (st : State ℚ String),
    selectTimes 100 130 10 (1/100) 0 104 129 [⟨100, "a"⟩, ⟨120, "b"⟩, ⟨130, "c"⟩] = some (c, st) ∧
      nTimes c = 2 := by
  refine ⟨⟨110, 120, 10, 1/100, 0⟩, ⟨[⟨120, "b"⟩, ⟨130, "c"⟩], 110, 100, 0, 0⟩, ?_, ?_⟩
  · have h : ⌊(16 : ℚ) / 10⌋ = 1 := by rw [Int.floor_eq_iff]; norm_num
    have h2 : ⌊(19 : ℚ) / 10⌋ = 1 := by rw [Int.floor_eq_iff]; norm_num
    norm_num [selectTimes, skipFirstTimes, h, h2]
  · exact nTimes_grid _ (by norm_num) 1 (by norm_num)

/-! ### Invalid data -/

private theorem flagVisibility_flags (finite : Nat → Bool) (ncorr i : Nat) :
    ∀ (n j : Nat) (flags : Nat → Bool) (counts : Nat → Nat), i ≤ j → j + n = i + ncorr →
      (∀ m, i ≤ m → m < j → finite m = true ∧ flags m = false) → ∀ k,
      ((flagVisibility finite ncorr i n j (flags, counts)).1 k = true ↔
        (flags k = true ∨ (i ≤ k ∧ k < i + ncorr ∧
            ∃ m, i ≤ m ∧ m < i + ncorr ∧ (finite m = false ∨ flags m = true)))) := by
  intro n
  induction n with
  | zero =>
    intro j flags counts hij hj hc k
    have : ¬ (i ≤ k ∧ k < i + ncorr ∧
        ∃ m, i ≤ m ∧ m < i + ncorr ∧ (finite m = false ∨ flags m = true)) := by
      rintro ⟨_, _, m, h1, h2, h3⟩
      have := hc m h1 (by omega)
      rcases h3 with h | h <;> simp [this] at h
    simp only [flagVisibility, this, or_false]
  | succ n ih =>
    intro j flags counts hij hj hc k
    simp only [flagVisibility]
    split
    · rename_i hbad
      have hex : ∃ m, i ≤ m ∧ m < i + ncorr ∧ (finite m = false ∨ flags m = true) := by
        refine ⟨j, hij, by omega, ?_⟩
        simpa using hbad
      simp only [fillTrue]
      by_cases hk : i ≤ k ∧ k < i + ncorr
      · rw [if_pos hk]
        simp only [hk, hex, and_self, or_true]
      · rw [if_neg hk]
        constructor
        · exact .inl
        · rintro (h | ⟨a, b, _⟩)
          · exact h
          · exact absurd ⟨a, b⟩ hk
    · rename_i hbad
      apply ih (j + 1) flags _ (by omega) (by omega)
      intro m h1 h2
      by_cases hm : m = j
      · subst hm; simpa using hbad
      · exact hc m h1 (by omega)

private theorem flagVisibility_counts (finite : Nat → Bool) (ncorr i : Nat) :
    ∀ (n j : Nat) (flags : Nat → Bool) (counts : Nat → Nat), i ≤ j → ∀ q,
      (flagVisibility finite ncorr i n j (flags, counts)).2 q
        = counts q + if ((List.range' (j - i) n).find?
            fun q => !finite (i + q) || flags (i + q)) = some q ∧ finite (i + q) = false
          then 1 else 0 := by
  intro n
  induction n with
  | zero => intro j flags counts hij q; simp [flagVisibility]
  | succ n ih =>
    intro j flags counts hij q
    have hi : i + (j - i) = j := by omega
    simp only [flagVisibility, List.range'_succ]
    split
    · rename_i hbad
      rw [List.find?_cons_of_pos (by rw [hi]; exact hbad)]
      simp only [Option.some.injEq]
      by_cases hf : finite j = true
      · simp only [hf, Bool.not_true, Bool.false_eq_true, if_false]
        rw [if_neg]
        · rfl
        · rintro ⟨rfl, h⟩; rw [hi] at h; simp [hf] at h
      · have hf' : finite j = false := by simpa using hf
        simp only [hf', Bool.not_false, if_true]
        by_cases hq : q = j - i
        · subst hq; rw [if_pos rfl, if_pos ⟨rfl, by rw [hi]; exact hf'⟩]
        · rw [if_neg hq, if_neg (fun h => hq h.1.symm)]
          rfl
    · rename_i hbad
      rw [List.find?_cons_of_neg (by rw [hi]; exact hbad)]
      have hf : finite j = true := by
        cases h : finite j with
        | true => rfl
        | false => simp [h] at hbad
      rw [ih (j + 1) flags _ (by omega)]
      simp only [hf, Bool.not_true, Bool.false_eq_true, if_false]
      have : j + 1 - i = j - i + 1 := by omega
      rw [this]

private theorem vis_mem {ncorr v m : Nat} : (v * ncorr ≤ m ∧ m < v * ncorr + ncorr) ↔
    (0 < ncorr ∧ m / ncorr = v) := by
  constructor
  · rintro ⟨h1, h2⟩
    have h0 : 0 < ncorr := by omega
    refine ⟨h0, ?_⟩
    rw [Nat.div_eq_iff h0]
    omega
  · rintro ⟨h0, h⟩
    rw [Nat.div_eq_iff h0] at h
    omega

private theorem flagInfinityNan_succ (finite : Nat → Bool) (n ncorr : Nat) (flags : Nat → Bool)
    (counts : Nat → Nat) : flagInfinityNan finite (n + 1) ncorr flags counts
      = flagVisibility finite ncorr (n * ncorr) ncorr (n * ncorr)
          ((flagInfinityNan finite n ncorr flags counts).1,
           (flagInfinityNan finite n ncorr flags counts).2) := by
  simp only [flagInfinityNan, List.range_succ, List.foldl_append, List.foldl_cons, List.foldl_nil]

/-- C18: after `FlagInfinityNan`, a flag is set exactly when a correlation of the same
visibility was flagged or is not finite.  Nothing else changes. -/
theorem flagInfinityNan_flags (finite : Nat → Bool) (nvis ncorr : Nat) (flags : Nat → Bool)
    (counts : Nat → Nat) (v q : Nat) (hq : q < ncorr) :
    (flagInfinityNan finite nvis ncorr flags counts).1 (v * ncorr + q) = true ↔
      if v < nvis then ∃ r < ncorr, finite (v * ncorr + r) = false ∨ flags (v * ncorr + r) = true
      else flags (v * ncorr + q) = true := by
  have h0 : 0 < ncorr := by omega
  induction nvis generalizing v q with
  | zero => simp [flagInfinityNan]
  | succ n ih =>
    have hdiv : (v * ncorr + q) / ncorr = v := by
      rw [show v * ncorr + q = q + ncorr * v by rw [Nat.mul_comm, Nat.add_comm],
            Nat.add_mul_div_left _ _ h0, Nat.div_eq_of_lt hq]
      omega
    rw [flagInfinityNan_succ, flagVisibility_flags finite ncorr (n * ncorr) ncorr (n * ncorr) _ _
      le_rfl rfl (by intro m h1 h2; omega)]
    refine (or_congr_left (ih v q hq)).trans ?_
    by_cases hv : v = n
    · subst hv
      rw [if_neg (lt_irrefl v), if_pos (by omega)]
      constructor
      · rintro (h | ⟨_, _, m, h1, h2, h3⟩)
        · exact ⟨q, hq, .inr h⟩
        · refine ⟨m - v * ncorr, by omega, ?_⟩
          have := ih v (m - v * ncorr) (by omega)
          rw [if_neg (lt_irrefl v), show v * ncorr + (m - v * ncorr) = m by omega] at this
          rw [show v * ncorr + (m - v * ncorr) = m by omega]
          rcases h3 with h | h
          · exact .inl h
          · exact .inr (this.mp h)
      · rintro ⟨r, hr, h⟩
        refine .inr ⟨by omega, by omega, v * ncorr + r, by omega, by omega, ?_⟩
        have := ih v r hr
        rw [if_neg (lt_irrefl v)] at this
        exact h.imp_right this.mpr
    · have hnot : ¬ (n * ncorr ≤ v * ncorr + q ∧ v * ncorr + q < n * ncorr + ncorr) := by
        rw [vis_mem, hdiv]
        exact fun h => hv h.2
      have : ∀ P : Prop, (P ∨ (n * ncorr ≤ v * ncorr + q ∧ v * ncorr + q < n * ncorr + ncorr ∧
          ∃ m, n * ncorr ≤ m ∧ m < n * ncorr + ncorr ∧ (finite m = false ∨
            (flagInfinityNan finite n ncorr flags counts).1 m = true))) ↔ P := fun P =>
        ⟨fun h => h.elim id fun h => absurd ⟨h.1, h.2.1⟩ hnot, .inl⟩
      rw [this]
      by_cases hl : v < n
      · rw [if_pos hl, if_pos (by omega)]
      · rw [if_neg hl, if_neg (by omega)]

/-- C18: all correlations of a visibility end up with the same flag. -/
theorem flagInfinityNan_uniform (finite : Nat → Bool) (nvis ncorr : Nat) (flags : Nat → Bool)
    (counts : Nat → Nat) (v q r : Nat) (hv : v < nvis) (hq : q < ncorr) (hr : r < ncorr) :
    (flagInfinityNan finite nvis ncorr flags counts).1 (v * ncorr + q)
      = (flagInfinityNan finite nvis ncorr flags counts).1 (v * ncorr + r) := by
  rw [Bool.eq_iff_iff, flagInfinityNan_flags _ _ _ _ _ _ _ hq,
    flagInfinityNan_flags _ _ _ _ _ _ _ hr, if_pos hv, if_pos hv]

/-- C18: the counter of correlation `q` increases by the number of visibilities in
which `q` is the first correlation that is flagged or not finite, and is not finite. -/
theorem flagInfinityNan_counts (finite : Nat → Bool) (nvis ncorr : Nat) (flags : Nat → Bool)
    (counts : Nat → Nat) (q : Nat) :
    (flagInfinityNan finite nvis ncorr flags counts).2 q
      = counts q + (List.range nvis).countP fun v =>
          decide (((List.range ncorr).find? fun r =>
            !finite (v * ncorr + r) || flags (v * ncorr + r)) = some q) && !finite (v * ncorr + q) := by
  induction nvis with
  | zero => simp [flagInfinityNan]
  | succ n ih =>
    rw [flagInfinityNan_succ, flagVisibility_counts _ _ _ _ _ _ _ le_rfl, ih, List.range_succ, List.countP_append]
    have hfind : ((List.range' (n * ncorr - n * ncorr) ncorr).find? fun r =>
          !finite (n * ncorr + r) ||
            (flagInfinityNan finite n ncorr flags counts).1 (n * ncorr + r))
        = (List.range ncorr).find? fun r => !finite (n * ncorr + r) || flags (n * ncorr + r) := by
      rw [Nat.sub_self, ← List.range_eq_range']
      have : ∀ l : List Nat, (∀ r ∈ l, r < ncorr) →
          l.find? (fun r => !finite (n * ncorr + r) ||
            (flagInfinityNan finite n ncorr flags counts).1 (n * ncorr + r))
          = l.find? fun r => !finite (n * ncorr + r) || flags (n * ncorr + r) := by
        intro l
        induction l with
        | nil => intro _; rfl
        | cons r l ihl =>
          intro h
          have hr := flagInfinityNan_flags finite n ncorr flags counts n r (h r (by simp))
          rw [if_neg (lt_irrefl n), ← Bool.eq_iff_iff] at hr
          simp only [List.find?_cons, hr, ihl (fun x hx => h x (by simp [hx]))]
      exact this _ (by simp)
    rw [hfind]
    simp only [List.countP_cons, List.countP_nil, Bool.and_eq_true, decide_eq_true_eq,
      Bool.not_eq_true', Nat.zero_add]
    omega

/-- Two visibilities of two correlations: a NaN flags the whole visibility and is
counted. -/
example :
    let r := flagInfinityNan (fun k => k != 1) 2 2 (fun _ => false) (fun _ => 0)
    ((List.range 4).map r.1, (List.range 2).map r.2) = ([true, true, false, false], [0, 1]) := by
  decide

/-- When flags are read but no visibilities, nothing is done: the correlations of a
visibility may then have different flags. -/
theorem flags_without_data :
    (readFlags false (fun _ => true) 1 2 (fun k => k = 0) (fun _ => 0)).1 0 = true ∧
    (readFlags false (fun _ => true) 1 2 (fun k => k = 0) (fun _ => 0)).1 1 = false := by
  decide

/-! ### Channel selection -/

/-- C56: an accepted channel selection is not empty and inside the band. -/
theorem channels_in_band [FloorRing F] (startValue nValue : F) (nAll s n : Nat)
    (h : parseChannelSelection startValue nValue nAll = some (s, n)) : 0 < n ∧ s + n ≤ nAll := by
  simp only [parseChannelSelection] at h
  split at h
  · simp at h
  · simp only [Option.some.injEq, Prod.mk.injEq] at h
    obtain ⟨rfl, rfl⟩ := h
    split <;> omega

/-- C56: for whole numbers, the selection starts at the given channel and holds the
given number of channels, or as many as there are; it is rejected exactly when the start
is not in the band. -/
theorem channels_spec [FloorRing F] (s n nAll : Nat) :
    parseChannelSelection (s : F) (n : F) nAll
      = if s < nAll then some (s, if n = 0 ∨ nAll < s + n then nAll - s else n) else none := by
  have h1 : ⌊(s : F) + 1 / 1000⌋₊ = s := by
    rw [Nat.floor_eq_iff (by positivity)]; constructor <;> norm_num
  have h2 : ⌊(n : F) + 1 / 10000⌋₊ = n := by
    rw [Nat.floor_eq_iff (by positivity)]; constructor <;> norm_num
  simp only [parseChannelSelection, h1, h2]
  by_cases h : s < nAll
  · rw [if_neg (by omega), if_pos h]
    congr 2
    by_cases hn : n = 0
    · simp [hn]
    · simp only [hn, if_false, false_or]
      split <;> omega
  · rw [if_pos (by omega), if_neg h]

example : parseChannelSelection (2 : ℚ) 10 8 = some (2, 6) := by
  have := channels_spec (F := ℚ) 2 10 8
  norm_num at this
  exact this

end DP3.MsReader
