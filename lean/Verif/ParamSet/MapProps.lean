import Verif.ParamSet.Model
import Mathlib.Data.List.Lex
import Mathlib.Data.List.Induction
import Mathlib.Tactic.Tauto
import Mathlib.Tactic.SplitIfs

/-!
# C43, C44: subsets, adoption and unused keys
-/

namespace DP3.ParamSet

open DP3.StringTools

set_option linter.unusedSimpArgs false

/-! ## When two keys are the same key -/

/-- The same character: exactly, or up to case. -/
def SameChar (m : Mode) (a b : Char) : Prop :=
  a = b ∨ (m = .nocase ∧ ∃ i, i < 26 ∧
    ((a.toNat = 65 + i ∧ b.toNat = 97 + i) ∨ (a.toNat = 97 + i ∧ b.toNat = 65 + i)))

/-- The same key. -/
def SameKey (m : Mode) : List Char → List Char → Prop
  | [], [] => True
  | a :: as, b :: bs => SameChar m a b ∧ SameKey m as bs
  | _, _ => False

/-- The value of a key, as `get` gives it. -/
def value (s : PSet) (k : List Char) : Option (List Char) := (findKV k s).1

private def fold (m : Mode) : Nat → Nat :=
  match m with
  | .normal => id
  | .nocase => upper

private def norm (m : Mode) (k : List Char) : List Nat := (codes k).map (fold m)

private theorem sameChar_iff (m : Mode) (a b : Char) :
    SameChar m a b ↔ fold m a.toNat = fold m b.toNat := by
  unfold SameChar
  cases m with
  | normal =>
    simp only [reduceCtorEq, false_and, or_false, fold, id]
    exact ⟨fun h => by rw [h], fun h => by rw [← Char.ofNat_toNat a, ← Char.ofNat_toNat b, h]⟩
  | nocase =>
    simp only [true_and, fold, upper]
    constructor
    · rintro (rfl | ⟨i, hi, h | h⟩)
      · rfl
      · split_ifs <;> omega
      · split_ifs <;> omega
    · intro h
      by_cases hab : a.toNat = b.toNat
      · left
        rw [← Char.ofNat_toNat a, ← Char.ofNat_toNat b, hab]
      · right
        split_ifs at h
        · omega
        · exact ⟨a.toNat - 97, by omega, by omega⟩
        · exact ⟨b.toNat - 97, by omega, by omega⟩
        · omega

private theorem sameKey_iff (m : Mode) (a b : List Char) : SameKey m a b ↔ norm m a = norm m b := by
  induction a generalizing b with
  | nil => cases b <;> simp [SameKey, norm, codes]
  | cons x a ih =>
    cases b with
    | nil => simp [SameKey, norm, codes]
    | cons y b =>
      have := ih b
      simp only [norm, codes, List.map_cons, List.cons.injEq, SameKey, sameChar_iff] at this ⊢
      rw [this]

theorem SameKey.refl (m : Mode) (a : List Char) : SameKey m a a := (sameKey_iff m a a).mpr rfl

theorem sameKey_normal (a b : List Char) : SameKey .normal a b ↔ a = b := by
  induction a generalizing b with
  | nil => cases b <;> simp [SameKey]
  | cons x a ih => cases b <;> simp [SameKey, SameChar, ih]

private theorem norm_append (m : Mode) (a b : List Char) : norm m (a ++ b) = norm m a ++ norm m b := by
  simp [norm, codes]

private theorem norm_length (m : Mode) (a : List Char) : (norm m a).length = a.length := by
  simp [norm, codes]

private theorem lexLt_iff (f : Nat → Nat) (a b : List Nat) :
    lexLt f a b = true ↔ a.map f < b.map f := by
  induction a generalizing b with
  | nil =>
    cases b with
    | nil => simp [lexLt]
    | cons y b => simp [lexLt]
  | cons x a ih =>
    cases b with
    | nil => simp [lexLt]
    | cons y b =>
      rw [lexLt]
      simp only [List.map_cons, List.cons_lt_cons_iff]
      by_cases h1 : f x < f y
      · simp [h1]
      · by_cases h2 : f y < f x
        · simp [h1, h2]; omega
        · rw [if_neg h1, if_neg h2, ih b]
          have : f x = f y := by omega
          simp [this]

private theorem keyLt_iff (m : Mode) (a b : List Nat) :
    keyLt m a b = true ↔ a.map (fold m) < b.map (fold m) := by
  cases m <;> simp only [keyLt, fold, lexLt_iff]

private theorem lt_iff (m : Mode) (a b : List Char) :
    keyLt m (codes a) (codes b) = true ↔ norm m a < norm m b := keyLt_iff m _ _

private theorem not_lt_iff (m : Mode) (a b : List Char) :
    keyLt m (codes a) (codes b) = false ↔ norm m b ≤ norm m a := by
  rw [← not_lt, ← lt_iff]; simp

private theorem same_test (m : Mode) (a b : List Char) :
    (!keyLt m (codes a) (codes b) && !keyLt m (codes b) (codes a)) = true ↔ norm m a = norm m b := by
  simp only [Bool.and_eq_true, Bool.not_eq_true', not_lt_iff]
  exact ⟨fun h => le_antisymm h.2 h.1, fun h => ⟨h.ge, h.le⟩⟩

/-! ## Maps in order -/

/-- The keys are in ascending order. -/
def Sorted (m : Mode) (s : KV) : Prop :=
  s.Pairwise fun a b => keyLt m (codes a.1) (codes b.1) = true

private theorem find_iff (m : Mode) (k : List Char) (s : KV) (hs : Sorted m s) (e : List Char × List Char) :
    find m k s = some e ↔ e ∈ s ∧ norm m e.1 = norm m k := by
  induction s with
  | nil => simp [find]
  | cons x s ih =>
    obtain ⟨h1, h2⟩ := List.pairwise_cons.mp hs
    rw [find]
    by_cases h : norm m x.1 = norm m k
    · rw [if_pos ((same_test _ _ _).mpr h)]
      simp only [Option.some.injEq, List.mem_cons]
      constructor
      · rintro rfl; exact ⟨.inl rfl, h⟩
      · rintro ⟨rfl | he, hn⟩
        · rfl
        · have := (lt_iff _ _ _).mp (h1 e he)
          rw [h, hn] at this
          exact absurd this (lt_irrefl _)
    · rw [if_neg (by rw [same_test]; exact h), ih h2]
      simp only [List.mem_cons]
      constructor
      · rintro ⟨a, b⟩; exact ⟨.inr a, b⟩
      · rintro ⟨rfl | a, b⟩
        · exact absurd b h
        · exact ⟨a, b⟩

private theorem find_none (m : Mode) (k : List Char) (s : KV) :
    find m k s = none ↔ ∀ e ∈ s, norm m e.1 ≠ norm m k := by
  induction s with
  | nil => simp [find]
  | cons x s ih =>
    rw [find]
    by_cases h : norm m x.1 = norm m k
    · rw [if_pos ((same_test _ _ _).mpr h)]; simp [h]
    · rw [if_neg (by rw [same_test]; exact h), ih]; simp [h]

private theorem value_eq (s : PSet) (k : List Char) : value s k = (find s.mode k s.map).map Prod.snd := by
  unfold value findKV
  cases find s.mode k s.map <;> rfl

private theorem insert_mem (m : Mode) (k v : List Char) (s : KV) (e : List Char × List Char)
    (h : e ∈ insert m k v s) : e = (k, v) ∨ e ∈ s := by
  induction s with
  | nil => simpa [insert] using h
  | cons x s ih =>
    rw [insert] at h
    split_ifs at h
    · simpa using h
    · rcases List.mem_cons.mp h with rfl | h
      · simp
      · rcases ih h with h | h <;> simp [h]
    · exact .inr h

private theorem insert_sorted (m : Mode) (k v : List Char) (s : KV) (hs : Sorted m s) :
    Sorted m (insert m k v s) := by
  induction s with
  | nil => simp [insert, Sorted]
  | cons x s ih =>
    obtain ⟨h1, h2⟩ := List.pairwise_cons.mp hs
    rw [insert]
    split_ifs with h h'
    · refine List.pairwise_cons.mpr ⟨?_, hs⟩
      intro y hy
      rcases List.mem_cons.mp hy with rfl | hy
      · exact h
      · exact (lt_iff _ _ _).mpr (lt_trans ((lt_iff _ _ _).mp h) ((lt_iff _ _ _).mp (h1 y hy)))
    · refine List.pairwise_cons.mpr ⟨?_, ih h2⟩
      intro y hy
      rcases insert_mem m k v s y hy with rfl | hy
      · exact h'
      · exact h1 y hy
    · exact hs

/-- The keys of the map after an assignment. -/
private theorem replace_keys (m : Mode) (k v : List Char) (s : KV) (e : List Char × List Char)
    (h : e ∈ replace m k v s) : e.1 = k ∨ ∃ x ∈ s, x.1 = e.1 := by
  induction s with
  | nil => simp [replace] at h; simp [h]
  | cons x s ih =>
    rw [replace] at h
    split_ifs at h
    · rcases List.mem_cons.mp h with rfl | h
      · simp
      · exact .inr ⟨e, h, rfl⟩
    · rcases List.mem_cons.mp h with rfl | h
      · exact .inr ⟨e, by simp, rfl⟩
      · rcases ih h with h | ⟨y, hy, h⟩
        · exact .inl h
        · exact .inr ⟨y, by simp [hy], h⟩
    · rcases List.mem_cons.mp h with rfl | h
      · exact .inr ⟨x, by simp, rfl⟩
      · exact .inr ⟨e, by simp [h], rfl⟩

private theorem replace_sorted (m : Mode) (k v : List Char) (s : KV) (hs : Sorted m s) :
    Sorted m (replace m k v s) := by
  induction s with
  | nil => simp [replace, Sorted]
  | cons x s ih =>
    obtain ⟨h1, h2⟩ := List.pairwise_cons.mp hs
    rw [replace]
    split_ifs with h h'
    · refine List.pairwise_cons.mpr ⟨?_, hs⟩
      intro y hy
      rcases List.mem_cons.mp hy with rfl | hy
      · exact h
      · exact (lt_iff _ _ _).mpr (lt_trans ((lt_iff _ _ _).mp h) ((lt_iff _ _ _).mp (h1 y hy)))
    · refine List.pairwise_cons.mpr ⟨?_, ih h2⟩
      intro y hy
      rcases replace_keys m k v s y hy with hk | ⟨z, hz, hk⟩
      · rw [hk]; exact h'
      · rw [← hk]; exact h1 z hz
    · exact List.pairwise_cons.mpr ⟨h1, h2⟩

private theorem erase_sublist (m : Mode) (k : List Char) (s : KV) : (erase m k s).Sublist s := by
  induction s with
  | nil => simp [erase]
  | cons x s ih =>
    rw [erase]
    split_ifs
    · exact List.sublist_cons_self _ _
    · exact ih.cons_cons _

private theorem erase_sorted (m : Mode) (k : List Char) (s : KV) (hs : Sorted m s) :
    Sorted m (erase m k s) := hs.sublist (erase_sublist m k s)

private theorem find_replace (m : Mode) (k v k' : List Char) (s : KV) (hs : Sorted m s) :
    (find m k' (replace m k v s)).map Prod.snd =
      if norm m k' = norm m k then some v else (find m k' s).map Prod.snd := by
  induction s with
  | nil =>
    by_cases h : norm m k = norm m k'
    · simp only [replace, find]
      rw [if_pos ((same_test _ _ _).mpr h), if_pos h.symm]
      rfl
    · simp only [replace, find]
      rw [if_neg (by rw [same_test]; exact h), if_neg (Ne.symm h)]
  | cons x s ih =>
    obtain ⟨h1, h2⟩ := List.pairwise_cons.mp hs
    rw [replace]
    by_cases hk : norm m k' = norm m k
    · rw [if_pos hk]
      split_ifs with h h'
      · rw [find, if_pos ((same_test _ _ _).mpr hk.symm)]; rfl
      · rw [find, if_neg, ih h2, if_pos hk]
        rw [same_test]
        intro e
        have := (lt_iff _ _ _).mp h'
        rw [e, hk] at this
        exact absurd this (lt_irrefl _)
      · have hxk : norm m x.1 = norm m k :=
          le_antisymm ((not_lt_iff _ _ _).mp (by simpa using h))
            ((not_lt_iff _ _ _).mp (by simpa using h'))
        rw [find, if_pos ((same_test _ _ _).mpr (hxk.trans hk.symm))]; rfl
    · rw [if_neg hk]
      split_ifs with h h'
      · rw [find, if_neg (by rw [same_test]; exact fun e => hk e.symm)]
      · rw [find, find]
        split_ifs
        · rfl
        · rw [ih h2, if_neg hk]
      · have hxk : norm m x.1 = norm m k :=
          le_antisymm ((not_lt_iff _ _ _).mp (by simpa using h))
            ((not_lt_iff _ _ _).mp (by simpa using h'))
        have : ¬ norm m x.1 = norm m k' := fun e => hk (e.symm.trans hxk)
        rw [find, find, if_neg (by rw [same_test]; exact this), if_neg (by rw [same_test]; exact this)]

private theorem find_erase (m : Mode) (k k' : List Char) (s : KV) (hs : Sorted m s) :
    find m k' (erase m k s) = if norm m k' = norm m k then none else find m k' s := by
  induction s with
  | nil => simp [erase, find]
  | cons x s ih =>
    obtain ⟨h1, h2⟩ := List.pairwise_cons.mp hs
    rw [erase]
    by_cases hx : norm m x.1 = norm m k
    · rw [if_pos ((same_test _ _ _).mpr hx)]
      split_ifs with hk
      · rw [find_none]
        intro e he hn
        have := (lt_iff _ _ _).mp (h1 e he)
        rw [hx, hn, hk] at this
        exact absurd this (lt_irrefl _)
      · rw [find, if_neg]
        rw [same_test]
        exact fun e => hk (e.symm.trans hx)
    · rw [if_neg (by rw [same_test]; exact hx), find, find, ih h2]
      split_ifs with ha hb hb
      · rw [same_test] at ha
        exact absurd (ha.trans hb) hx
      · rfl
      · rfl
      · rfl

private theorem find_insert (m : Mode) (k v k' : List Char) (s : KV) (hs : Sorted m s)
    (hk : find m k s = none) :
    (find m k' (insert m k v s)).map Prod.snd =
      if norm m k' = norm m k then some v else (find m k' s).map Prod.snd := by
  have : insert m k v s = replace m k v s := by
    induction s with
    | nil => rfl
    | cons x s ih =>
      obtain ⟨h1, h2⟩ := List.pairwise_cons.mp hs
      rw [find_none] at hk
      rw [insert, replace]
      split_ifs with h h'
      · rfl
      · rw [ih h2 ((find_none _ _ _).mpr fun e he => hk e (by simp [he]))]
      · refine absurd ?_ (hk x (by simp))
        exact le_antisymm ((not_lt_iff _ _ _).mp (by simpa using h))
          ((not_lt_iff _ _ _).mp (by simpa using h'))
  rw [this, find_replace m k v k' s hs]

/-! ## Prefixes -/

/-- `b` is the start of `k`, and `r` is what follows. -/
def StartsWith (m : Mode) (b k r : List Char) : Prop := ∃ b', k = b' ++ r ∧ SameKey m b' b

private theorem lower_upper (a b : Nat) : lower a = lower b ↔ upper a = upper b := by
  unfold lower upper
  split_ifs <;> omega

private theorem map_lower (a b : List Nat) : a.map lower = b.map lower ↔ a.map upper = b.map upper := by
  induction a generalizing b with
  | nil => cases b <;> simp
  | cons x a ih => cases b <;> simp [ih, lower_upper]

private theorem isMatch_iff (m : Mode) (b k : List Char) :
    isMatch m (baseOf m b) k = true ↔ norm m b <+: norm m k := by
  cases m with
  | normal =>
    simp only [isMatch, baseOf, norm, fold, List.map_id, beq_iff_eq]
    rw [List.prefix_iff_eq_take]
    exact eq_comm
  | nocase =>
    simp only [isMatch, baseOf, norm, fold, beq_iff_eq, List.length_map]
    rw [List.prefix_iff_eq_take, ← List.map_take, map_lower, ← List.map_take, eq_comm]
    simp

private theorem norm_base (m : Mode) (b : List Char) : (baseOf m b).map (fold m) = norm m b := by
  cases m with
  | normal => rfl
  | nocase =>
    simp only [baseOf, norm, fold, List.map_map]
    refine List.map_congr_left fun x _ => ?_
    simp only [Function.comp, upper, lower]
    split_ifs <;> omega

private theorem lt_base (m : Mode) (b k : List Char) :
    keyLt m (codes k) (baseOf m b) = true ↔ norm m k < norm m b := by
  rw [keyLt_iff, norm_base]; rfl

private theorem prefix_le {a b : List Nat} (h : a <+: b) : a ≤ b := by
  obtain ⟨r, rfl⟩ := h
  induction a with
  | nil => exact not_lt.mp (by simp)
  | cons x a ih =>
    rw [List.cons_append, ← not_lt, List.cons_lt_cons_iff]
    simp only [lt_irrefl, true_and, false_or, not_lt]
    exact ih

private theorem prefix_between {b x y : List Nat} (h1 : b ≤ x) (h2 : x < y) (h : b <+: y) : b <+: x := by
  induction b generalizing x y with
  | nil => simp
  | cons c b ih =>
    obtain ⟨r, rfl⟩ := h
    cases x with
    | nil =>
      exact absurd h1 (not_le.mpr (by simp))
    | cons d x =>
      rw [← not_lt, List.cons_lt_cons_iff] at h1
      rw [List.cons_append, List.cons_lt_cons_iff] at h2
      have hdc : d = c := by omega
      subst hdc
      simp only [lt_irrefl, true_and, false_or, not_lt] at h1 h2
      exact List.cons_prefix_cons.mpr ⟨rfl, ih h1 h2 ⟨r, rfl⟩⟩

private theorem scan_eq (m : Mode) (b : List Char) (s : KV) (hs : Sorted m s) :
    matching m b s = s.filter (fun e => isMatch m (baseOf m b) e.1) ∧
    (s.takeWhile fun e => keyLt m (codes e.1) (baseOf m b)) ++
      (s.dropWhile fun e => keyLt m (codes e.1) (baseOf m b)).dropWhile
        (fun e => isMatch m (baseOf m b) e.1) =
      s.filter (fun e => !isMatch m (baseOf m b) e.1) := by
  have after : ∀ t : KV, Sorted m t → (∀ e ∈ t, norm m b ≤ norm m e.1) →
      (t.takeWhile fun e => isMatch m (baseOf m b) e.1) =
        t.filter (fun e => isMatch m (baseOf m b) e.1) ∧
      (t.dropWhile fun e => isMatch m (baseOf m b) e.1) =
        t.filter (fun e => !isMatch m (baseOf m b) e.1) := by
    intro t ht hb
    induction t with
    | nil => simp
    | cons x t ih =>
      obtain ⟨h1, h2⟩ := List.pairwise_cons.mp ht
      by_cases hx : isMatch m (baseOf m b) x.1 = true
      · have := ih h2 fun e he => hb e (by simp [he])
        simp [hx, this]
      · have hrest : ∀ e ∈ t, isMatch m (baseOf m b) e.1 = false := by
          intro e he
          by_cases h : isMatch m (baseOf m b) e.1 = true
          · rw [isMatch_iff] at h hx
            exact absurd (prefix_between (hb x (by simp)) ((lt_iff _ _ _).mp (h1 e he)) h) hx
          · simpa using h
        have hx : isMatch m (baseOf m b) x.1 = false := by simpa using hx
        refine ⟨?_, ?_⟩
        · rw [List.takeWhile_cons_of_neg (by simp [hx]), List.filter_cons_of_neg (by simp [hx])]
          exact (List.filter_eq_nil_iff.mpr fun e he => by simp [hrest e he]).symm
        · rw [List.dropWhile_cons_of_neg (by simp [hx]), List.filter_cons_of_pos (by simp [hx])]
          rw [List.filter_eq_self.mpr fun e he => by simp [hrest e he]]
  unfold matching
  induction s with
  | nil => simp
  | cons x s ih =>
    obtain ⟨h1, h2⟩ := List.pairwise_cons.mp hs
    by_cases hx : keyLt m (codes x.1) (baseOf m b) = true
    · have hm : isMatch m (baseOf m b) x.1 = false := by
        rw [lt_base] at hx
        by_cases h : isMatch m (baseOf m b) x.1 = true
        · rw [isMatch_iff] at h
          exact absurd hx (not_lt.mpr (prefix_le h))
        · simpa using h
      have := ih h2
      simp only [hx, List.dropWhile_cons_of_pos, List.takeWhile_cons_of_pos, hm, Bool.not_false,
        List.filter_cons_of_pos, List.cons_append, this.1, this.2]
      simp [hm]
    · have hb : ∀ e ∈ x :: s, norm m b ≤ norm m e.1 := by
        rw [lt_base] at hx
        intro e he
        rcases List.mem_cons.mp he with rfl | he
        · exact not_lt.mp hx
        · exact le_of_lt (lt_of_le_of_lt (not_lt.mp hx) ((lt_iff _ _ _).mp (h1 e he)))
      have := after (x :: s) hs hb
      have hx : keyLt m (codes x.1) (baseOf m b) = false := by simpa using hx
      simp only [List.dropWhile_cons, List.takeWhile_cons, hx, Bool.false_eq_true, if_false,
        List.nil_append] at this ⊢
      exact this

private theorem startsWith_iff (m : Mode) (b k : List Char) :
    norm m b <+: norm m k ↔ ∃ r, StartsWith m b k r := by
  constructor
  · intro h
    have hlen := h.length_le
    rw [norm_length, norm_length] at hlen
    refine ⟨k.drop b.length, k.take b.length, by simp, ?_⟩
    rw [sameKey_iff]
    rw [List.prefix_iff_eq_take, norm_length] at h
    rw [h]
    simp [norm, codes]
  · rintro ⟨r, b', rfl, h⟩
    rw [sameKey_iff] at h
    rw [norm_append, h]
    exact List.prefix_append _ _

private theorem startsWith_drop (m : Mode) (b k r : List Char) (h : StartsWith m b k r) :
    r = k.drop b.length ∧ norm m k = norm m b ++ norm m r := by
  obtain ⟨b', rfl, h⟩ := h
  rw [sameKey_iff] at h
  have hl : b'.length = b.length := by
    have := congrArg List.length h
    simpa [norm_length] using this
  exact ⟨by simp [← hl], by rw [norm_append, h]⟩

/-! ## The properties -/

private theorem value_some (s : PSet) (hs : Sorted s.mode s.map) (k v : List Char) :
    value s k = some v ↔ ∃ k', (k', v) ∈ s.map ∧ norm s.mode k' = norm s.mode k := by
  rw [value_eq]
  simp only [Option.map_eq_some_iff, find_iff _ _ _ hs]
  constructor
  · rintro ⟨e, h, rfl⟩; exact ⟨e.1, h⟩
  · rintro ⟨k', h⟩; exact ⟨_, h, rfl⟩

private theorem inserted (m : Mode) (es t : KV) (ht : Sorted m t)
    (hd : (es ++ t).Pairwise fun a b => norm m a.1 ≠ norm m b.1) :
    Sorted m (es.foldl (fun t e => insert m e.1 e.2 t) t) ∧
    ∀ e, e ∈ es.foldl (fun t e => insert m e.1 e.2 t) t ↔ e ∈ es ∨ e ∈ t := by
  induction es generalizing t with
  | nil => simp [ht]
  | cons x es ih =>
    rw [List.cons_append, List.pairwise_cons] at hd
    have hx : ∀ e ∈ t, norm m e.1 ≠ norm m x.1 := fun e he h => hd.1 e (by simp [he]) h.symm
    have hmem : ∀ e, e ∈ insert m x.1 x.2 t ↔ e = x ∨ e ∈ t := by
      intro e
      refine ⟨fun h => by simpa using insert_mem m x.1 x.2 t e h, ?_⟩
      clear ih hd
      induction t with
      | nil => simp [insert]
      | cons y t iht =>
        obtain ⟨h1, h2⟩ := List.pairwise_cons.mp ht
        have := iht h2 fun e he => hx e (by simp [he])
        rw [insert]
        split_ifs with h h'
        · intro hh; rcases hh with rfl | hh <;> simp_all
        · simp only [List.mem_cons]
          rintro (hh | hh | hh)
          · exact .inr (this (.inl hh))
          · exact .inl hh
          · exact .inr (this (.inr hh))
        · refine absurd ?_ (hx y (by simp))
          exact le_antisymm ((not_lt_iff _ _ _).mp (by simpa using h))
            ((not_lt_iff _ _ _).mp (by simpa using h'))
    rw [List.foldl_cons]
    obtain ⟨h1, h2⟩ := ih _ (insert_sorted m x.1 x.2 t ht) (by
      rw [List.pairwise_append] at hd ⊢
      refine ⟨hd.2.1, ?_, ?_⟩
      · refine (insert_sorted m x.1 x.2 t ht).imp ?_
        intro a b h
        exact ne_of_lt ((lt_iff _ _ _).mp h)
      · intro a ha c hc
        rcases (hmem c).mp hc with rfl | hc
        · exact fun h => hd.1 a (by simp [ha]) h.symm
        · exact hd.2.2.2 a ha c hc)
    refine ⟨h1, fun e => ?_⟩
    rw [h2, hmem]
    simp only [List.mem_cons]
    tauto

private theorem subset_map (b pfx : List Char) (s : PSet) (hs : Sorted s.mode s.map) :
    Sorted s.mode (makeSubset b pfx s).1.map ∧
    ∀ e, e ∈ (makeSubset b pfx s).1.map ↔ ∃ x ∈ s.map, isMatch s.mode (baseOf s.mode b) x.1 = true ∧
      e = (pfx ++ x.1.drop b.length, x.2) := by
  have e1 : (makeSubset b pfx s).1.map =
      ((s.map.filter fun e => isMatch s.mode (baseOf s.mode b) e.1).map fun e =>
        (pfx ++ e.1.drop b.length, e.2)).foldl (fun t e => insert s.mode e.1 e.2 t) [] := by
    unfold makeSubset
    simp only [(scan_eq s.mode b s.map hs).1, List.foldl_map]
  have key := inserted s.mode ((s.map.filter fun e => isMatch s.mode (baseOf s.mode b) e.1).map fun e =>
        (pfx ++ e.1.drop b.length, e.2)) [] (by simp [Sorted]) (by
    rw [List.append_nil, List.pairwise_map]
    have := (hs.filter fun e => isMatch s.mode (baseOf s.mode b) e.1)
    refine List.Pairwise.imp_of_mem ?_ this
    intro x y hx hy hlt heq
    have hx := (List.mem_filter.mp hx).2
    have hy := (List.mem_filter.mp hy).2
    rw [isMatch_iff, startsWith_iff] at hx hy
    obtain ⟨r, hr⟩ := hx
    obtain ⟨q, hq⟩ := hy
    obtain ⟨r1, r2⟩ := startsWith_drop _ _ _ _ hr
    obtain ⟨q1, q2⟩ := startsWith_drop _ _ _ _ hq
    simp only [← r1, ← q1, norm_append, List.append_cancel_left_eq] at heq
    rw [lt_iff, r2, q2, heq] at hlt
    exact absurd hlt (lt_irrefl _))
  rw [e1]
  refine ⟨key.1, fun e => ?_⟩
  rw [key.2]
  simp only [List.mem_map, List.mem_filter, List.not_mem_nil, or_false, and_assoc]
  constructor
  · rintro ⟨x, h1, h2, rfl⟩; exact ⟨x, h1, h2, rfl⟩
  · rintro ⟨x, h1, h2, rfl⟩; exact ⟨x, h1, h2, rfl⟩

/-- C43: a subset has a value at exactly those keys that are the new prefix followed by the rest of a
key with the base, and it is the value of that key. -/
theorem subset_value (b pfx : List Char) (s : PSet) (hs : Sorted s.mode s.map) (k v : List Char) :
    value (makeSubset b pfx s).1 k = some v ↔
      ∃ r, SameKey s.mode k (pfx ++ r) ∧ value s (b ++ r) = some v := by
  have hm : (makeSubset b pfx s).1.mode = s.mode := rfl
  obtain ⟨h1, h2⟩ := subset_map b pfx s hs
  rw [value_some _ (by rw [hm]; exact h1), hm]
  constructor
  · rintro ⟨k', hk', hn⟩
    obtain ⟨x, hx, hmt, e⟩ := (h2 _).mp hk'
    rw [isMatch_iff, startsWith_iff] at hmt
    obtain ⟨r, hr⟩ := hmt
    obtain ⟨r1, r2⟩ := startsWith_drop _ _ _ _ hr
    rw [← r1] at e
    simp only [Prod.mk.injEq] at e
    refine ⟨r, ?_, ?_⟩
    · rw [sameKey_iff, ← hn, e.1]
    · rw [value_some _ hs]
      exact ⟨x.1, by rw [e.2]; exact hx, by rw [r2, norm_append]⟩
  · rintro ⟨r, hr, hv⟩
    rw [value_some _ hs] at hv
    obtain ⟨k', hk', hn⟩ := hv
    rw [sameKey_iff] at hr
    have hst : norm s.mode b <+: norm s.mode k' := by
      rw [hn, norm_append]; exact List.prefix_append _ _
    refine ⟨pfx ++ k'.drop b.length, (h2 _).mpr ⟨_, hk', (isMatch_iff _ _ _).mpr hst, rfl⟩, ?_⟩
    obtain ⟨q, hq⟩ := (startsWith_iff _ _ _).mp hst
    obtain ⟨q1, q2⟩ := startsWith_drop _ _ _ _ hq
    rw [hr, ← q1, norm_append, norm_append]
    rw [hn, norm_append] at q2
    rw [List.append_cancel_left q2]

/-- C43: making a subset does not change any value. -/
theorem subset_keeps (b pfx : List Char) (s : PSet) (k : List Char) :
    value (makeSubset b pfx s).2 k = value s k := by
  rw [value_eq, value_eq]; rfl

/-- C43: subtracting a subset removes exactly the keys with the prefix. -/
theorem subtract_value (p : List Char) (s : PSet) (hs : Sorted s.mode s.map) (k v : List Char) :
    value (subtractSubset p s) k = some v ↔
      value s k = some v ∧ ¬ ∃ r, StartsWith s.mode p k r := by
  have hm : (subtractSubset p s).mode = s.mode := rfl
  have e : (subtractSubset p s).map = s.map.filter fun e => !isMatch s.mode (baseOf s.mode p) e.1 :=
    (scan_eq s.mode p s.map hs).2
  rw [value_some _ (by rw [hm, e]; exact hs.filter _), value_some _ hs, hm, e]
  simp only [List.mem_filter, Bool.not_eq_true']
  rw [← startsWith_iff]
  constructor
  · rintro ⟨k', ⟨h1, h2⟩, h3⟩
    refine ⟨⟨k', h1, h3⟩, fun h => ?_⟩
    rw [← h3, ← isMatch_iff, h2] at h
    simp at h
  · rintro ⟨⟨k', h1, h3⟩, h⟩
    refine ⟨k', ⟨h1, ?_⟩, h3⟩
    rw [← h3, ← isMatch_iff] at h
    simpa using h

/-- The value of the last assignment to a key, or the value from before. -/
def lastOr (m : Mode) (k : List Char) (d : Option (List Char)) (H : DecidablePred (SameKey m k)) :
    List (List Char × List Char) → Option (List Char)
  | [] => d
  | e :: r => lastOr m k (if SameKey m k e.1 then some e.2 else d) H r

instance (m : Mode) (k : List Char) : DecidablePred (SameKey m k) := fun a =>
  decidable_of_iff _ (sameKey_iff m k a).symm

private theorem replaced (m : Mode) (es t : KV) (ht : Sorted m t) (k : List Char) :
    Sorted m (es.foldl (fun t e => replace m e.1 e.2 t) t) ∧
    (find m k (es.foldl (fun t e => replace m e.1 e.2 t) t)).map Prod.snd =
      lastOr m k ((find m k t).map Prod.snd) inferInstance es := by
  induction es generalizing t with
  | nil => exact ⟨ht, rfl⟩
  | cons x es ih =>
    rw [List.foldl_cons]
    obtain ⟨h1, h2⟩ := ih _ (replace_sorted m x.1 x.2 t ht)
    refine ⟨h1, ?_⟩
    rw [h2, lastOr, find_replace m x.1 x.2 k t ht]
    congr 1
    by_cases h : SameKey m k x.1
    · rw [if_pos h, if_pos ((sameKey_iff _ _ _).mp h)]
    · rw [if_neg h, if_neg (fun e => h ((sameKey_iff _ _ _).mpr e))]

private theorem lastOr_unique (m : Mode) (k : List Char) (d : Option (List Char))
    (es : List (List Char × List Char))
    (hu : es.Pairwise fun a b => ¬ SameKey m a.1 b.1) :
    (∀ e ∈ es, SameKey m k e.1 → lastOr m k d inferInstance es = some e.2) ∧
    ((∀ e ∈ es, ¬ SameKey m k e.1) → lastOr m k d inferInstance es = d) := by
  induction es generalizing d with
  | nil => simp [lastOr]
  | cons x es ih =>
    obtain ⟨h1, h2⟩ := List.pairwise_cons.mp hu
    rw [lastOr]
    refine ⟨?_, ?_⟩
    · intro e he hk
      rcases List.mem_cons.mp he with rfl | he
      · rw [if_pos hk]
        refine (ih _ h2).2 fun y hy hky => h1 y hy ?_
        rw [sameKey_iff] at hk hky ⊢
        rw [← hk, hky]
      · exact (ih _ h2).1 e he hk
    · intro h
      rw [if_neg (h x (by simp))]
      exact (ih _ h2).2 fun y hy => h y (by simp [hy])

private theorem prefixed_unique (m : Mode) (pfx : List Char) (t : KV) (ht : Sorted m t) :
    (t.map fun e => (pfx ++ e.1, e.2)).Pairwise fun a b => ¬ SameKey m a.1 b.1 := by
  rw [List.pairwise_map]
  refine ht.imp ?_
  intro a b h hs
  rw [sameKey_iff, norm_append, norm_append, List.append_cancel_left_eq] at hs
  rw [lt_iff, hs] at h
  exact absurd h (lt_irrefl _)

/-- C43: after adopting a collection, each key that consists of the prefix and a key of the collection
has the value from the collection. -/
theorem adopt_value (t : PSet) (pfx : List Char) (s : PSet) (hs : Sorted s.mode s.map)
    (hm : t.mode = s.mode) (ht : Sorted t.mode t.map) (k : List Char) :
    (∀ r v, SameKey s.mode k (pfx ++ r) → value t r = some v →
      value (adoptCollection false t.map pfx s) k = some v) ∧
    ((∀ r v, SameKey s.mode k (pfx ++ r) → value t r ≠ some v) →
      value (adoptCollection false t.map pfx s) k = value s k) := by
  have e : (adoptCollection false t.map pfx s).map =
      (t.map.map fun e => (pfx ++ e.1, e.2)).foldl (fun t e => replace s.mode e.1 e.2 t) s.map := by
    simp [adoptCollection, List.foldl_map]
  have ht' : Sorted s.mode t.map := by rw [← hm]; exact ht
  have hl := lastOr_unique s.mode k (value s k) _ (prefixed_unique s.mode pfx t.map ht')
  have hv : value (adoptCollection false t.map pfx s) k =
      lastOr s.mode k (value s k) inferInstance (t.map.map fun e => (pfx ++ e.1, e.2)) := by
    rw [value_eq, value_eq, e]
    exact (replaced s.mode _ s.map hs k).2
  rw [hv]
  constructor
  · intro r v hr hv
    rw [value_some _ ht, hm] at hv
    obtain ⟨k', hk', hn⟩ := hv
    refine hl.1 (pfx ++ k', v) (List.mem_map.mpr ⟨(k', v), hk', rfl⟩) ?_
    rw [sameKey_iff] at hr ⊢
    rw [hr, norm_append, norm_append, hn]
  · intro h
    refine hl.2 ?_
    intro e he hk
    obtain ⟨x, hx, rfl⟩ := List.mem_map.mp he
    refine h x.1 x.2 hk ?_
    rw [value_some _ ht]
    exact ⟨x.1, hx, rfl⟩

/-- C43: a set that adopts itself under a prefix has the values of before under the prefix. Without a
prefix nothing changes. -/
theorem adopt_self (pfx : List Char) (s : PSet) (t : KV) :
    adoptCollection true t pfx s = if pfx = [] then s else adoptCollection false s.map pfx s := by
  by_cases h : pfx = [] <;> simp [adoptCollection, h]

/-- The assignments on a command line: the text before the first equal sign, and that after it without
surrounding whitespace. -/
def Assignment (arg k v : List Char) : Prop := ∃ w, arg = k ++ '=' :: w ∧ '=' ∉ k ∧ v = trim w

private theorem arg_spec (m : Mode) (t : KV) (arg : List Char) :
    (∀ k v, Assignment arg k v → adoptArgument m t arg = replace m k v t) ∧
    ('=' ∉ arg → adoptArgument m t arg = t) := by
  have key : ∀ k w : List Char, '=' ∉ k →
      (k ++ '=' :: w).dropWhile (· ≠ '=') = '=' :: w ∧ (k ++ '=' :: w).takeWhile (· ≠ '=') = k := by
    intro k w hk
    induction k with
    | nil => simp
    | cons c k ih =>
      have hc : c ≠ '=' := by rintro rfl; exact hk (by simp)
      have := ih fun h => hk (by simp [h])
      simp only [List.cons_append]
      rw [List.dropWhile_cons_of_pos (by simp [hc]), List.takeWhile_cons_of_pos (by simp [hc])]
      exact ⟨this.1, by rw [this.2]⟩
  constructor
  · rintro k v ⟨w, rfl, hk, rfl⟩
    unfold adoptArgument
    rw [(key k w hk).1, (key k w hk).2]
  · intro h
    have : arg.dropWhile (· ≠ '=') = [] := by
      clear key
      induction arg with
      | nil => rfl
      | cons c arg ih =>
        have hc : c ≠ '=' := by rintro rfl; exact h (by simp)
        rw [List.dropWhile_cons_of_pos (by simp [hc])]
        exact ih fun hm => h (by simp [hm])
    unfold adoptArgument
    rw [this]

private theorem first_occ (a : List Char) (h : '=' ∈ a) : ∃ x y, a = x ++ '=' :: y ∧ '=' ∉ x := by
  induction a with
  | nil => simp at h
  | cons c a ih =>
    by_cases hc : c = '='
    · exact ⟨[], a, by simp [hc], by simp⟩
    · obtain ⟨x, y, e, hx⟩ := ih (by simpa [Ne.symm hc] using h)
      exact ⟨c :: x, y, by simp [e], by simp [hx, Ne.symm hc]⟩

private theorem sorted_arg (m : Mode) (a : List Char) (t : KV) (ht : Sorted m t) :
    Sorted m (adoptArgument m t a) := by
  unfold adoptArgument
  split
  · exact ht
  · exact replace_sorted _ _ _ _ ht

private theorem sorted_args (m : Mode) (as : List (List Char)) (t : KV) (ht : Sorted m t) :
    Sorted m (as.foldl (adoptArgument m) t) := by
  induction as generalizing t with
  | nil => exact ht
  | cons a as ih => exact ih _ (sorted_arg m a t ht)

private theorem keep_args (m : Mode) (as : List (List Char)) (t : KV) (ht : Sorted m t)
    (k' : List Char) (h : ∀ a ∈ as, ∀ q w, Assignment a q w → ¬ SameKey m k' q) :
    (find m k' (as.foldl (adoptArgument m) t)).map Prod.snd = (find m k' t).map Prod.snd := by
  induction as generalizing t with
  | nil => rfl
  | cons a as ih =>
    rw [List.foldl_cons, ih _ (sorted_arg m a t ht) fun b hb => h b (by simp [hb])]
    by_cases hex : ∃ q w, Assignment a q w
    · obtain ⟨q, w, haq⟩ := hex
      rw [(arg_spec _ _ _).1 q w haq, find_replace _ _ _ _ _ ht, if_neg]
      rw [← sameKey_iff]
      exact h a (by simp) q w haq
    · rw [(arg_spec _ _ _).2]
      intro hmem
      obtain ⟨x, y, rfl, hx⟩ := first_occ _ hmem
      exact hex ⟨x, _, y, rfl, hx, rfl⟩

/-- C43: of the arguments that assign a value to a key the last one counts. -/
theorem arguments_last (pre post : List (List Char)) (arg k v : List Char) (s : PSet)
    (hs : Sorted s.mode s.map) (k' : List Char) (ha : Assignment arg k v) (hk : SameKey s.mode k' k)
    (hpost : ∀ a ∈ post, ∀ q w, Assignment a q w → ¬ SameKey s.mode k' q) :
    value (adoptArguments (pre ++ arg :: post) s) k' = some v := by
  rw [value_eq]
  show (find s.mode k' ((pre ++ arg :: post).foldl (adoptArgument s.mode) s.map)).map Prod.snd = _
  rw [List.foldl_append, List.foldl_cons,
    keep_args _ post _ (sorted_arg _ _ _ (sorted_args _ pre _ hs)) k' hpost, (arg_spec _ _ _).1 k v ha,
    find_replace _ _ _ _ _ (sorted_args _ pre _ hs), if_pos ((sameKey_iff _ _ _).mp hk)]

/-- C43: keys to which no argument assigns keep their value. -/
theorem arguments_other (args : List (List Char)) (s : PSet) (hs : Sorted s.mode s.map)
    (k : List Char) (h : ∀ a ∈ args, ∀ q w, Assignment a q w → ¬ SameKey s.mode k q) :
    value (adoptArguments args s) k = value s k := by
  rw [value_eq, value_eq]
  exact keep_args _ args _ hs k h

/-- C43: a key that is removed has no value; the others keep theirs. -/
theorem remove_value (k : List Char) (s : PSet) (hs : Sorted s.mode s.map) (k' : List Char) :
    value (remove k s) k' = if SameKey s.mode k' k then none else value s k' := by
  rw [value_eq, value_eq]
  show (find s.mode k' (erase s.mode k s.map)).map Prod.snd = _
  rw [find_erase _ _ _ _ hs]
  by_cases h : SameKey s.mode k' k
  · rw [if_pos h, if_pos ((sameKey_iff _ _ _).mp h)]; rfl
  · rw [if_neg h, if_neg (by rw [← sameKey_iff]; exact h)]

/-- C43: adding a key works exactly when it has no value yet, and then gives it the value. -/
theorem add_value (k v : List Char) (s s' : PSet) (hs : Sorted s.mode s.map) :
    (add k v s = .error .throws ↔ value s k ≠ none) ∧
    (add k v s = .ok s' → ∀ k', value s' k' = if SameKey s.mode k' k then some v else value s k') := by
  unfold add
  have hv := value_eq s k
  cases h : find s.mode k s.map with
  | none =>
    rw [h] at hv
    refine ⟨by simp [hv], ?_⟩
    simp only [Except.ok.injEq]
    rintro rfl k'
    rw [value_eq, value_eq]
    show (find s.mode k' (insert s.mode k v s.map)).map Prod.snd = _
    rw [find_insert _ _ _ _ _ hs h]
    by_cases h : SameKey s.mode k' k
    · rw [if_pos h, if_pos ((sameKey_iff _ _ _).mp h)]
    · rw [if_neg h, if_neg (by rw [← sameKey_iff]; exact h)]
  | some e =>
    rw [h] at hv
    simp [hv]

/-! ## Histories -/

/-- A use of a parameter set. -/
inductive Op where
  /-- All `get` functions, with and without a default. -/
  | get (k : List Char)
  | subset (b pfx : List Char)
  | replace (k v : List Char)
  | add (k v : List Char)
  | remove (k : List Char)
  | subtract (p : List Char)
  | adopt (t : KV) (pfx : List Char)
  | adoptSelf (pfx : List Char)
  | arguments (args : List (List Char))

/-- The parameter set after a use. A call that throws leaves it as it was. -/
def step (s : PSet) : Op → PSet
  | .get k => (findKV k s).2
  | .subset b pfx => (makeSubset b pfx s).2
  | .replace k v => { s with map := ParamSet.replace s.mode k v s.map }
  | .add k v => match ParamSet.add k v s with | .ok s' => s' | .error _ => s
  | .remove k => ParamSet.remove k s
  | .subtract p => subtractSubset p s
  | .adopt t pfx => adoptCollection false t pfx s
  | .adoptSelf pfx => adoptCollection true [] pfx s
  | .arguments args => adoptArguments args s

/-- The parameter set after a history. -/
def run (s : PSet) (ops : List Op) : PSet := ops.foldl step s

private theorem step_mode (s : PSet) (o : Op) : (step s o).mode = s.mode := by
  cases o with
  | get k => simp only [step, findKV]; split <;> rfl
  | add k v =>
    simp only [step, ParamSet.add]
    cases find s.mode k s.map <;> rfl
  | adopt t pfx => simp [step, adoptCollection]
  | adoptSelf pfx => simp only [step, adoptCollection]; split_ifs <;> rfl
  | _ => rfl

private theorem step_sorted (s : PSet) (o : Op) (hs : Sorted s.mode s.map) :
    Sorted s.mode (step s o).map := by
  have prefixed : ∀ (t : KV) (pfx : List Char) (u : KV), Sorted s.mode u →
      Sorted s.mode (t.foldl (fun m e => ParamSet.replace s.mode (pfx ++ e.1) e.2 m) u) := by
    intro t pfx
    induction t with
    | nil => intro u hu; exact hu
    | cons x t ih => intro u hu; exact ih _ (replace_sorted _ _ _ _ hu)
  cases o with
  | get k => simp only [step, findKV]; split <;> exact hs
  | subset b pfx => exact hs
  | replace k v => exact replace_sorted _ _ _ _ hs
  | add k v =>
    simp only [step, ParamSet.add]
    cases find s.mode k s.map with
    | none => exact insert_sorted _ _ _ _ hs
    | some e => exact hs
  | remove k => exact erase_sorted _ _ _ hs
  | subtract p =>
    show Sorted s.mode (subtractSubset p s).map
    have e : (subtractSubset p s).map = _ := (scan_eq s.mode p s.map hs).2
    rw [e]
    exact hs.filter _
  | adopt t pfx =>
    simp only [step, adoptCollection, Bool.not_false, if_true]
    exact prefixed _ _ _ hs
  | adoptSelf pfx =>
    simp only [step, adoptCollection, Bool.not_true, Bool.false_eq_true, if_false]
    split_ifs
    · exact prefixed _ _ _ hs
    · exact hs
  | arguments args => exact sorted_args _ args _ hs

/-- C43: the keys are in order after every history, as the other theorems need. -/
theorem run_sorted (m : Mode) (ops : List Op) :
    (run ⟨m, [], []⟩ ops).mode = m ∧ Sorted m (run ⟨m, [], []⟩ ops).map := by
  have key : ∀ s : PSet, Sorted s.mode s.map →
      (run s ops).mode = s.mode ∧ Sorted s.mode (run s ops).map := by
    induction ops with
    | nil => intro s hs; exact ⟨rfl, hs⟩
    | cons o ops ih =>
      intro s hs
      have := ih (step s o) (by rw [step_mode]; exact step_sorted s o hs)
      rw [step_mode] at this
      exact this
  exact key ⟨m, [], []⟩ (by simp [Sorted])

/-- The keys of a set. -/
def keys (s : PSet) : List (List Char) := s.map.map Prod.fst

/-- A use asks for a key that is there: it gets its value, or makes a subset with it. -/
def Asks (s : PSet) (o : Op) (k : List Char) : Prop :=
  k ∈ keys s ∧ (o = .get k ∨ ∃ b pfx, o = .subset b pfx ∧ b <+: k)

private theorem foldl_cons_mem (es : KV) (a : List (List Char)) (k : List Char) :
    k ∈ es.foldl (fun a e => e.1 :: a) a ↔ k ∈ a ∨ k ∈ es.map Prod.fst := by
  induction es generalizing a with
  | nil => simp
  | cons x es ih => rw [List.foldl_cons, ih]; simp; tauto

private theorem norm_normal (a b : List Char) : norm .normal a = norm .normal b ↔ a = b := by
  rw [← sameKey_iff, sameKey_normal]

private theorem step_asked (s : PSet) (o : Op) (hm : s.mode = .normal) (hs : Sorted s.mode s.map)
    (k : List Char) : k ∈ (step s o).asked ↔ k ∈ s.asked ∨ Asks s o k := by
  cases o with
  | get q =>
    simp only [step, findKV, Asks, keys, Op.get.injEq, reduceCtorEq, false_and, exists_false, or_false]
    cases h : find s.mode q s.map with
    | none =>
      rw [find_none] at h
      simp only
      constructor
      · exact .inl
      · rintro (h' | ⟨h1, rfl⟩)
        · exact h'
        · obtain ⟨e, he, rfl⟩ := List.mem_map.mp h1
          exact absurd rfl (h e he)
    | some e =>
      rw [find_iff _ _ _ hs] at h
      have hq : e.1 = q := by
        have := h.2
        rw [hm] at this
        exact (norm_normal _ _).mp this
      simp only [List.mem_cons]
      constructor
      · rintro (rfl | h')
        · exact .inr ⟨List.mem_map.mpr ⟨e, h.1, hq⟩, rfl⟩
        · exact .inl h'
      · rintro (h' | ⟨_, rfl⟩)
        · exact .inr h'
        · exact .inl rfl
  | subset b pfx =>
    simp only [step, makeSubset, Asks, keys]
    rw [foldl_cons_mem, (scan_eq s.mode b s.map hs).1]
    simp only [List.mem_map, List.mem_filter, reduceCtorEq, false_or, Op.subset.injEq]
    have hp : ∀ x : List Char, isMatch s.mode (baseOf s.mode b) x = true ↔ b <+: x := by
      intro x
      rw [isMatch_iff, startsWith_iff, hm]
      constructor
      · rintro ⟨r, b', rfl, hb⟩
        rw [sameKey_normal] at hb
        subst hb
        exact List.prefix_append _ _
      · rintro ⟨r, rfl⟩
        exact ⟨r, b, rfl, SameKey.refl _ _⟩
    constructor
    · rintro (h | ⟨e, ⟨h1, h2⟩, rfl⟩)
      · exact .inl h
      · exact .inr ⟨⟨e, h1, rfl⟩, b, pfx, ⟨rfl, rfl⟩, (hp _).mp h2⟩
    · rintro (h | ⟨⟨e, h1, rfl⟩, b', pfx', ⟨rfl, rfl⟩, h2⟩)
      · exact .inl h
      · exact .inr ⟨e, ⟨h1, (hp _).mpr h2⟩, rfl⟩
  | add q v =>
    simp only [step, ParamSet.add, Asks]
    cases find s.mode q s.map <;> simp
  | adopt t pfx => simp [step, adoptCollection, Asks]
  | adoptSelf pfx => simp only [step, adoptCollection]; split_ifs <;> simp [Asks]
  | _ => simp [step, Asks, ParamSet.remove, subtractSubset, adoptArguments]

/-- C44 (case-sensitive mode; see `unused_nocase` for the other): the unused keys are, after every history, exactly the keys
that were never asked for while they were there. -/
theorem unused_spec_partial (ops : List Op) (k : List Char) :
    k ∈ unusedKeys (run ⟨.normal, [], []⟩ ops) ↔
      k ∈ keys (run ⟨.normal, [], []⟩ ops) ∧
      ¬ ∃ pre o post, ops = pre ++ o :: post ∧ Asks (run ⟨.normal, [], []⟩ pre) o k := by
  have key : ∀ ops : List Op, k ∈ (run ⟨.normal, [], []⟩ ops).asked ↔
      ∃ pre o post, ops = pre ++ o :: post ∧ Asks (run ⟨.normal, [], []⟩ pre) o k := by
    intro ops
    induction ops using List.reverseRecOn with
    | nil => simp [run]
    | append_singleton ops o ih =>
      obtain ⟨hm, hs⟩ := run_sorted .normal ops
      have e : run ⟨.normal, [], []⟩ (ops ++ [o]) = step (run ⟨.normal, [], []⟩ ops) o := by
        simp [run]
      rw [e, step_asked _ _ hm (by rw [hm]; exact hs), ih]
      constructor
      · rintro (⟨pre, o', post, rfl, h⟩ | h)
        · exact ⟨pre, o', post ++ [o], by simp, h⟩
        · exact ⟨ops, o, [], rfl, h⟩
      · rintro ⟨pre, o', post, h1, h⟩
        rcases List.eq_nil_or_concat post with rfl | ⟨post', x, rfl⟩
        · have := List.append_inj' h1 (by simp)
          obtain ⟨rfl, h2⟩ := this
          simp at h2
          subst h2
          exact .inr h
        · rw [List.concat_eq_append] at h1
          have e2 : pre ++ o' :: (post' ++ [x]) = (pre ++ o' :: post') ++ [x] := by simp
          rw [e2] at h1
          exact .inl ⟨pre, o', post', (List.append_inj' h1 (by simp)).1, h⟩
  unfold unusedKeys
  rw [List.mem_filter]
  rw [← key]
  simp [keys]

/-- C44: when cases do not matter, a key that was asked for in another case is reported as unused. -/
theorem unused_nocase :
    let s := run ⟨.nocase, [], []⟩ [.add "msin".toList "a.ms".toList, .get "MSIN".toList]
    value s "MSIN".toList = some "a.ms".toList ∧ unusedKeys s = ["msin".toList] := by
  decide +kernel

/-! ## For the reading of text -/

theorem addMerge_sorted (m : Mode) (k v : List Char) (t : KV) (ht : Sorted m t) :
    Sorted m (addMerge m k v t) := insert_sorted _ _ _ _ (erase_sorted _ _ _ ht)

theorem addMerge_value (s : PSet) (hs : Sorted s.mode s.map) (k v k' : List Char) :
    value { s with map := addMerge s.mode k v s.map } k' =
      if SameKey s.mode k' k then some (trim v) else value s k' := by
  have hn : find s.mode k (erase s.mode k s.map) = none := by
    rw [find_erase _ _ _ _ hs, if_pos rfl]
  rw [value_eq, value_eq]
  show (find s.mode k' (insert s.mode k (trim v) (erase s.mode k s.map))).map Prod.snd = _
  rw [find_insert _ _ _ _ _ (erase_sorted _ _ _ hs) hn, find_erase _ _ _ _ hs]
  by_cases h : SameKey s.mode k' k
  · rw [if_pos h, if_pos ((sameKey_iff _ _ _).mp h)]
  · rw [if_neg h, if_neg (by rw [← sameKey_iff]; exact h), if_neg (by rw [← sameKey_iff]; exact h)]

private theorem erase_above (m : Mode) (k : List Char) (t : KV)
    (h : ∀ e ∈ t, keyLt m (codes e.1) (codes k) = true) : erase m k t = t := by
  induction t with
  | nil => rfl
  | cons x t ih =>
    rw [erase, if_neg (by simp [h x (by simp)]), ih fun e he => h e (by simp [he])]

private theorem insert_above (m : Mode) (k v : List Char) (t : KV)
    (h : ∀ e ∈ t, keyLt m (codes e.1) (codes k) = true) : insert m k v t = t ++ [(k, v)] := by
  induction t with
  | nil => rfl
  | cons x t ih =>
    have hx := h x (by simp)
    have : ¬ keyLt m (codes k) (codes x.1) = true := by
      rw [lt_iff] at hx ⊢
      exact not_lt.mpr (le_of_lt hx)
    rw [insert, if_neg this, if_pos hx, ih fun e he => h e (by simp [he])]
    rfl

/-- Adding the entries of a map one after another gives the map. -/
theorem addMerge_rebuild (m : Mode) (s : KV) (hs : Sorted m s) (ht : ∀ e ∈ s, trim e.2 = e.2) :
    s.foldl (fun t e => addMerge m e.1 e.2 t) [] = s := by
  have key : ∀ (s t : KV), Sorted m (t ++ s) → (∀ e ∈ s, trim e.2 = e.2) →
      s.foldl (fun t e => addMerge m e.1 e.2 t) t = t ++ s := by
    intro s
    induction s with
    | nil => simp
    | cons x s ih =>
      intro t hs ht
      rw [List.foldl_cons]
      have habove : ∀ e ∈ t, keyLt m (codes e.1) (codes x.1) = true := fun e he =>
        (List.pairwise_append.mp hs).2.2 e he x (by simp)
      have : addMerge m x.1 x.2 t = t ++ [x] := by
        unfold addMerge
        rw [erase_above _ _ _ habove, insert_above _ _ _ _ habove, ht x (by simp)]
      rw [this, ih _ (by simpa using hs) fun e he => ht e (by simp [he])]
      simp
  simpa using key s [] (by simpa using hs) ht

/-! ## Examples -/

/-- A history that makes a set with three keys. -/
def sampleOps : List Op :=
  [.arguments ["a.x=1".toList, "b=2".toList, "noise".toList, "a.y= 3 ".toList, "a.x=4=5".toList]]

example : (run ⟨.normal, [], []⟩ sampleOps).map =
    [("a.x".toList, "4=5".toList), ("a.y".toList, "3".toList), ("b".toList, "2".toList)] := by
  decide +kernel
example : (makeSubset "a.".toList "c".toList (run ⟨.normal, [], []⟩ sampleOps)).1.map =
    [("cx".toList, "4=5".toList), ("cy".toList, "3".toList)] := by decide +kernel
example : unusedKeys (run ⟨.normal, [], []⟩ (sampleOps ++ [.get "b".toList, .subset "a.x".toList []])) =
    ["a.y".toList] := by decide +kernel
example : Assignment "a.x=4=5".toList "a.x".toList "4=5".toList :=
  ⟨"4=5".toList, by decide, by decide, by decide +kernel⟩
example : Sorted .nocase (run ⟨.nocase, [], []⟩ sampleOps).map := (run_sorted .nocase sampleOps).2
example : (subtractSubset "A.".toList (run ⟨.nocase, [], []⟩ sampleOps)).map =
    [("b".toList, "2".toList)] := by decide +kernel
example : StartsWith .nocase "A.".toList "a.y".toList "y".toList :=
  ⟨"a.".toList, by decide, .inr ⟨rfl, 0, by decide, by decide⟩, .inl rfl, trivial⟩

end DP3.ParamSet
