import Verif.InitialSol.Model
import Mathlib.Tactic.Ring

namespace DP3.InitialSol

set_option linter.unusedSimpArgs false
set_option linter.unusedSectionVars false

variable {K : Type} [CommRing K]

/-! ### Lemmas -/

theorem two_lt {m n r c : Nat} (hr : r < m) (h : c < n) : r * n + c < m * n := by
  calc r * n + c < r * n + n := by omega
    _ = (r + 1) * n := by rw [Nat.add_mul, Nat.one_mul]
    _ ≤ m * n := Nat.mul_le_mul_right _ hr

theorem two_div {n r c : Nat} (h : c < n) : (r * n + c) / n = r := by
  rw [Nat.mul_comm, Nat.mul_add_div (by omega), Nat.div_eq_of_lt h, Nat.add_zero]

theorem two_mod {n r c : Nat} (h : c < n) : (r * n + c) % n = c := by
  rw [Nat.mul_comm, Nat.mul_add_mod, Nat.mod_eq_of_lt h]

theorem rowMajor_in {nFreq nAnt n : Nat} (f : Nat → Nat → Nat → Cx K) {ch ant p : Nat}
    (hc : ch < nFreq) (ha : ant < nAnt) (hp : p < n) :
    rowMajor nFreq nAnt n f ch ant p = some (f ch ant p) := by
  have h := two_lt (two_lt hc ha) hp
  simp only [rowMajor, h, if_true, two_div hp, two_mod hp, two_div ha, two_mod ha]

/-- The direction of a sub-solution. -/
def dirOf : List Nat → Nat → Nat
  | [], _ => 0
  | n :: l, s => if s < n then 0 else dirOf l (s - n) + 1

theorem dirOf_spec : ∀ (l : List Nat) (d k : Nat), d < l.length → k < l.getD d 0 →
    dirOf l ((l.take d).sum + k) = d
  | [], d, k, h, _ => by simp at h
  | n :: l, 0, k, _, hk => by
    simp only [List.getD_cons_zero] at hk
    simp [dirOf, hk]
  | n :: l, d + 1, k, h, hk => by
    have ih := dirOf_spec l d k (by simpa using h) (by simpa using hk)
    have e : ((n :: l).take (d + 1)).sum + k = n + ((l.take d).sum + k) := by
      simp only [List.take_succ_cons, List.sum_cons]; omega
    rw [e, dirOf, if_neg (by omega), show n + ((l.take d).sum + k) - n = (l.take d).sum + k by omega, ih]

theorem take_succ_sum (l : List Nat) (d : Nat) (h : d < l.length) :
    (l.take (d + 1)).sum = (l.take d).sum + l.getD d 0 := by
  rw [List.take_add_one, List.getElem?_eq_getElem h]
  simp [List.getD_eq_getElem?_getD, h]

theorem take_sum_le (l : List Nat) (d : Nat) : (l.take d).sum ≤ l.sum := by
  conv_rhs => rw [← List.take_append_drop d l]
  rw [List.sum_append]; omega

theorem sub_lt (l : List Nat) {d k : Nat} (h : d < l.length) (hk : k < l.getD d 0) :
    (l.take d).sum + k < l.sum := by
  have h1 := take_succ_sum l d h
  have h2 := take_sum_le l (d + 1)
  omega

theorem sub_exists : ∀ (l : List Nat) (s : Nat), s < l.sum →
    ∃ d k : Nat, d < l.length ∧ k < l.getD d 0 ∧ s = (l.take d).sum + k
  | [], s, h => by simp at h
  | n :: l, s, h => by
    by_cases hs : s < n
    · exact ⟨0, s, by simp, by simpa using hs, by simp⟩
    · simp only [List.sum_cons] at h
      obtain ⟨d, k, h1, h2, h3⟩ := sub_exists l (s - n) (by omega)
      exact ⟨d + 1, k, by simpa using h1, by simpa using h2, by
        simp only [List.take_succ_cons, List.sum_cons]; omega⟩

/-- A step that writes what belongs at each place. -/
def Writes (E : Nat → Cx K) (S : Nat → Prop) (m : Nat → Cx K) (r : Except Err (Nat → Cx K)) : Prop :=
  ∃ m', r = .ok m' ∧ (∀ i, m i = E i → m' i = E i) ∧ ∀ i, S i → m' i = E i

theorem writes_fold {E : Nat → Cx K} (f : (Nat → Cx K) → Nat → Except Err (Nat → Cx K))
    (S : Nat → Nat → Prop) (n : Nat) (hf : ∀ k < n, ∀ m, Writes E (S k) m (f m k)) (m : Nat → Cx K) :
    Writes E (fun i => ∃ k < n, S k i) m ((List.range n).foldlM f m) := by
  induction n with
  | zero => exact ⟨m, rfl, fun _ h => h, by rintro i ⟨k, hk, _⟩; omega⟩
  | succ n ih =>
    obtain ⟨m1, h1, h2, h3⟩ := ih (fun k hk => hf k (by omega))
    obtain ⟨m2, g1, g2, g3⟩ := hf n (by omega) m1
    refine ⟨m2, ?_, fun i hi => g2 i (h2 i hi), ?_⟩
    · rw [List.range_succ, List.foldlM_append, h1]
      show (List.foldlM f m1 [n]) = _
      rw [List.foldlM_cons, g1]; rfl
    · rintro i ⟨k, hk, hs⟩
      rcases Nat.lt_succ_iff_lt_or_eq.1 hk with hk' | rfl
      · exact g2 i (h3 i ⟨k, hk', hs⟩)
      · exact g3 i hs

/-- The expected value at an index. -/
def expect (c : Cfg K) (v : Nat → Nat → Nat → Cx K) (i : Nat) : Cx K :=
  v (dirOf c.subs (i / c.nPol % nSub c)) (i / c.nPol / nSub c) (i % c.nPol)

theorem expect_at (c : Cfg K) (v : Nat → Nat → Nat → Cx K) {ant d k p : Nat}
    (hd : d < c.subs.length) (hk : k < c.subs.getD d 0) (hp : p < c.nPol) :
    expect c v ((ant * nSub c + ((c.subs.take d).sum + k)) * c.nPol + p) = v d ant p := by
  have h := sub_lt c.subs hd hk
  simp only [expect, two_div hp, two_mod hp, nSub, two_div h, two_mod h, dirOf_spec _ _ _ hd hk]

theorem writeAnt_ok (c : Cfg K) (ch ant : Nat) (ha : ant < c.nAnt) (v : Nat → Nat → Nat → Cx K)
    (hv : ∀ d p, p < c.nPol → jones c d ch ant p = some (v d ant p)) (m : Nat → Cx K) :
    Writes (expect c v) (fun i => ∃ d k p : Nat, d < c.subs.length ∧ k < c.subs.getD d 0 ∧ p < c.nPol ∧
      i = (ant * nSub c + ((c.subs.take d).sum + k)) * c.nPol + p) m (writeAnt c ch ant m) := by
  have hsub : ∀ d k, d < c.subs.length → k < c.subs.getD d 0 → ∀ m,
      Writes (expect c v) (fun i => ∃ p < c.nPol,
        i = (ant * nSub c + ((c.subs.take d).sum + k)) * c.nPol + p) m
        (writeSub c ch ant d ((c.subs.take d).sum + k) m) := by
    intro d k hd hk m
    refine writes_fold _ (fun p i => i = (ant * nSub c + ((c.subs.take d).sum + k)) * c.nPol + p) _ ?_ m
    intro p hp m
    have h := sub_lt c.subs hd hk
    have hlt : (ant * nSub c + ((c.subs.take d).sum + k)) * c.nPol + p < nSub c * c.nAnt * c.nPol := by
      rw [Nat.mul_comm (nSub c)]
      exact two_lt (two_lt ha h) hp
    have he : ant * nSub c * c.nPol + ((c.subs.take d).sum + k) * c.nPol + p =
        (ant * nSub c + ((c.subs.take d).sum + k)) * c.nPol + p := by ring
    refine ⟨fun i => if i = (ant * nSub c + ((c.subs.take d).sum + k)) * c.nPol + p then v d ant p else m i,
      by simp only [put, hv d p hp, he, hlt, if_true], ?_, ?_⟩
    · intro i hi
      dsimp only
      split_ifs with h'
      · rw [h', expect_at c v hd hk hp]
      · exact hi
    · rintro i rfl
      simp [expect_at c v hd hk hp]
  have hdirs : ∀ n, n ≤ c.subs.length → ∃ m', (List.range n).foldlM (dirStep c ch ant) (0, m) =
      .ok ((c.subs.take n).sum, m') ∧ (∀ i, m i = expect c v i → m' i = expect c v i) ∧
      ∀ i, (∃ d k p : Nat, d < n ∧ k < c.subs.getD d 0 ∧ p < c.nPol ∧
      i = (ant * nSub c + ((c.subs.take d).sum + k)) * c.nPol + p) → m' i = expect c v i := by
    intro n
    induction n with
    | zero => intro _; exact ⟨m, by simp; rfl, fun _ h => h, by rintro i ⟨d, k, p, h, _⟩; omega⟩
    | succ n ih =>
      intro hn
      obtain ⟨m1, h1, h2, h3⟩ := ih (by omega)
      obtain ⟨m2, g1, g2, g3⟩ := writes_fold (E := expect c v)
        (fun m k => writeSub c ch ant n ((c.subs.take n).sum + k) m) (fun k i => ∃ p < c.nPol,
        i = (ant * nSub c + ((c.subs.take n).sum + k)) * c.nPol + p) (c.subs.getD n 0)
        (fun k hk m => hsub n k (by omega) hk m) m1
      refine ⟨m2, ?_, fun i hi => g2 i (h2 i hi), ?_⟩
      · rw [List.range_succ, List.foldlM_append, h1]
        show (List.foldlM (dirStep c ch ant) _ [n]) = _
        have : dirStep c ch ant ((c.subs.take n).sum, m1) n = .ok ((c.subs.take (n + 1)).sum, m2) := by
          simp only [dirStep, writeDir, g1, take_succ_sum _ _ hn]
        rw [List.foldlM_cons, this]; rfl
      · rintro i ⟨d, k, p, hd, hk, hp, rfl⟩
        rcases Nat.lt_succ_iff_lt_or_eq.1 hd with hd' | rfl
        · exact g2 _ (h3 _ ⟨d, k, p, hd', hk, hp, rfl⟩)
        · exact g3 _ ⟨k, hk, p, hp, rfl⟩
  obtain ⟨m', h1, h2, h3⟩ := hdirs _ (Nat.le_refl _)
  exact ⟨m', by simp only [writeAnt, h1], h2, h3⟩

theorem read_ok (c : Cfg K) (ch : Nat) (hr : ¬ (c.fullJones ∧ c.nPol ≠ 4 ∧ c.subs ≠ []))
    (v : Nat → Nat → Nat → Cx K)
    (hv : ∀ ant < c.nAnt, ∀ d p, p < c.nPol → jones c d ch ant p = some (v d ant p)) (old : Nat → Cx K) :
    ∃ sol, read c ch old = .ok sol ∧ ∀ ant d k p, ant < c.nAnt → d < c.subs.length →
      k < c.subs.getD d 0 → p < c.nPol →
      sol ((ant * nSub c + ((c.subs.take d).sum + k)) * c.nPol + p) = v d ant p := by
  obtain ⟨m', h1, _, h3⟩ := writes_fold (E := expect c v) (fun m ant => writeAnt c ch ant m) _ c.nAnt
    (fun ant ha m => writeAnt_ok c ch ant ha v (hv ant ha) m) old
  refine ⟨m', by simp only [read, hr, if_false, h1], fun ant d k p ha hd hk hp => ?_⟩
  rw [h3 _ ⟨ant, ha, d, k, p, hd, hk, hp, rfl⟩, expect_at c v hd hk hp]

/-! ### C160: initial solutions -/

/-- **C160 (`_partial`)** With initial solutions from a file of diagonal or scalar solutions and a mode with
one or two values per solution, every sub-solution of every direction gets the product of the values of
the solution tables for its own direction, channel block, antenna and polarization; the places of the
sub-solutions are all places of the vector. With full Jones solutions in the file and a full Jones mode
it gets the matrix from the file.

What is missing for the full statement: the same for a full Jones mode with a file of diagonal solutions,
where it is false (`diagonal_shifted`, `diagonal_outside`). -/
theorem read_right_partial (c : Cfg K) (ch : Nat) (hch : ch < c.nFreq) (old : Nat → Cx K)
    (h : if c.fullJones then c.nPol = 4 else c.nPol ≤ 2) :
    (∃ sol, read c ch old = .ok sol ∧ ∀ ant d k p, ant < c.nAnt → d < c.subs.length →
      k < c.subs.getD d 0 → p < c.nPol →
      sol ((ant * c.subs.sum + ((c.subs.take d).sum + k)) * c.nPol + p) =
        if c.fullJones then c.full d ch ant p
        else ((List.range c.nSoltab).map fun s => c.value s d ch ant p).prod) ∧
    ∀ i < c.nAnt * c.subs.sum * c.nPol, ∃ ant d k p, ant < c.nAnt ∧ d < c.subs.length ∧
      k < c.subs.getD d 0 ∧ p < c.nPol ∧
      i = (ant * c.subs.sum + ((c.subs.take d).sum + k)) * c.nPol + p := by
  constructor
  · refine read_ok c ch ?_ (fun d ant p => if c.fullJones then c.full d ch ant p
        else ((List.range c.nSoltab).map fun s => c.value s d ch ant p).prod) ?_ old
    · rintro ⟨h1, h2, _⟩
      rw [if_pos h1] at h
      exact h2 h
    · intro ant ha d p hp
      cases hf : c.fullJones
      · simp only [hf, if_false, Bool.false_eq_true] at h
        simp only [jones, hf, if_false, Bool.false_eq_true,
          rowMajor_in _ hch ha (show p < 2 by omega), product]
      · simp only [hf, if_true] at h
        simp only [jones, hf, if_true, rowMajor_in _ hch ha (show p < 4 by omega)]
  · intro i hi
    have hn : 0 < c.nPol := Nat.pos_of_ne_zero fun e => by simp [e] at hi
    have hq : i / c.nPol < c.nAnt * c.subs.sum := Nat.div_lt_of_lt_mul (by rw [Nat.mul_comm]; exact hi)
    have hs : 0 < c.subs.sum := Nat.pos_of_ne_zero fun e => by simp [e] at hq
    obtain ⟨d, k, h1, h2, h3⟩ := sub_exists c.subs (i / c.nPol % c.subs.sum) (Nat.mod_lt _ hs)
    refine ⟨i / c.nPol / c.subs.sum, d, k, i % c.nPol,
      Nat.div_lt_of_lt_mul (by rw [Nat.mul_comm]; exact hq), h1, h2, Nat.mod_lt _ hn, ?_⟩
    rw [← h3, Nat.mul_comm (i / c.nPol / c.subs.sum), Nat.div_add_mod, Nat.mul_comm, Nat.div_add_mod]

theorem jones_over (c : Cfg K) (hf : c.fullJones = false) (d ch ant q : Nat) (hq : q < 2) :
    jones c d ch ant (2 + q) = if ch * c.nAnt + ant + 1 < c.nFreq * c.nAnt then
      some (product c d ((ch * c.nAnt + ant + 1) / c.nAnt) ((ch * c.nAnt + ant + 1) % c.nAnt) q)
      else none := by
  have e : (ch * c.nAnt + ant) * 2 + (2 + q) = (ch * c.nAnt + ant + 1) * 2 + q := by ring
  simp only [jones, hf, if_false, Bool.false_eq_true, rowMajor, e, two_div hq, two_mod hq]
  by_cases h : ch * c.nAnt + ant + 1 < c.nFreq * c.nAnt
  · rw [if_pos h, if_pos (two_lt h hq)]
  · rw [if_neg h, if_neg (by omega)]

/-- **C160 (violated)** A full Jones mode with a file of diagonal solutions: in every channel block but the
last the four values of antenna `ant` are the two of that antenna and the two of the next one (for the
last antenna: of the first antenna in the next channel block). They should be a diagonal matrix. -/
theorem diagonal_shifted (c : Cfg K) (hf : c.fullJones = false) (hn : c.nPol = 4) (ch : Nat)
    (hch : ch + 1 < c.nFreq) (old : Nat → Cx K) :
    ∃ sol, read c ch old = .ok sol ∧ ∀ ant d k q, ant < c.nAnt → d < c.subs.length →
      k < c.subs.getD d 0 → q < 2 →
      sol ((ant * c.subs.sum + ((c.subs.take d).sum + k)) * 4 + q) =
        ((List.range c.nSoltab).map fun s => c.value s d ch ant q).prod ∧
      sol ((ant * c.subs.sum + ((c.subs.take d).sum + k)) * 4 + (2 + q)) =
        if ant + 1 < c.nAnt then ((List.range c.nSoltab).map fun s => c.value s d ch (ant + 1) q).prod
        else ((List.range c.nSoltab).map fun s => c.value s d (ch + 1) 0 q).prod := by
  obtain ⟨sol, h1, h2⟩ := read_ok c ch (by simp [hf]) (fun d ant p => if p < 2 then product c d ch ant p
    else if ant + 1 < c.nAnt then product c d ch (ant + 1) (p - 2) else product c d (ch + 1) 0 (p - 2)) (by
      intro ant ha d p hp
      have hlt : ch * c.nAnt + ant + 1 < c.nFreq * c.nAnt := by
        calc ch * c.nAnt + ant + 1 ≤ (ch + 1) * c.nAnt + 0 := by rw [Nat.add_mul]; omega
          _ < c.nFreq * c.nAnt := two_lt hch (by omega)
      by_cases h2 : p < 2
      · simp only [jones, hf, if_false, Bool.false_eq_true, h2, if_true,
          rowMajor_in _ (show ch < c.nFreq by omega) ha h2]
      · obtain ⟨q, rfl⟩ : ∃ q, p = 2 + q := ⟨p - 2, by omega⟩
        rw [jones_over c hf d ch ant q (by omega), if_pos hlt, if_neg h2,
          show 2 + q - 2 = q by omega]
        by_cases h3 : ant + 1 < c.nAnt
        · rw [if_pos h3, Nat.add_assoc, two_div h3, two_mod h3]
        · have e : ch * c.nAnt + ant + 1 = (ch + 1) * c.nAnt := by rw [Nat.add_mul]; omega
          rw [if_neg h3, e, Nat.mul_div_cancel _ (by omega), Nat.mul_mod_left]) old
  refine ⟨sol, h1, fun ant d k q ha hd hk hq => ⟨?_, ?_⟩⟩
  · have := h2 ant d k q ha hd hk (by omega)
    rw [hn] at this
    rw [if_pos hq] at this
    exact this
  · have := h2 ant d k (2 + q) ha hd hk (by omega)
    rw [hn] at this
    rw [if_neg (by omega), show 2 + q - 2 = q by omega] at this
    exact this

theorem fold_err {A : Type} (f : A → Nat → Except Err A) (e : Err) :
    ∀ (l : List Nat) (m : A) (k : Nat), k ∈ l → (∀ m, ∃ e', f m k = .error e') →
      (∀ m j e', f m j = .error e' → e' = e) → l.foldlM f m = .error e
  | [], _, _, h, _, _ => by simp at h
  | j :: l, m, k, h, hk, hu => by
    rw [List.foldlM_cons]
    cases hj : f m j with
    | error e' => rw [hu m j e' hj]; rfl
    | ok m' =>
      have hne : k ≠ j := by
        rintro rfl
        obtain ⟨e', he⟩ := hk m
        rw [he] at hj; cases hj
      exact fold_err f e l m' k ((List.mem_cons.1 h).resolve_left hne) hk hu

theorem fold_err_ub {A : Type} (f : A → Nat → Except Err A) (hu : ∀ m j e', f m j = .error e' → e' = .ub) :
    ∀ (l : List Nat) (m : A) (e' : Err), l.foldlM f m = .error e' → e' = .ub
  | [], _, _, h => by cases h
  | j :: l, m, e', h => by
    rw [List.foldlM_cons] at h
    cases hj : f m j with
    | error e2 => rw [hj] at h; cases h; exact hu m j _ hj
    | ok m' => rw [hj] at h; exact fold_err_ub f hu l m' e' h

theorem put_ub (n : Nat) (m : Nat → Cx K) (i : Nat) (v : Option (Cx K)) (e' : Err)
    (h : put n m i v = .error e') : e' = .ub := by
  cases v with
  | none => cases h; rfl
  | some x =>
    simp only [put] at h
    split_ifs at h
    cases h; rfl

theorem writeSub_ub (c : Cfg K) (ch ant d s : Nat) (m : Nat → Cx K) (e' : Err)
    (h : writeSub c ch ant d s m = .error e') : e' = .ub :=
  fold_err_ub _ (fun _ _ _ h => put_ub _ _ _ _ _ h) _ _ _ h

theorem dirStep_ub (c : Cfg K) (ch ant : Nat) (s : Nat × (Nat → Cx K)) (d : Nat) (e' : Err)
    (h : dirStep c ch ant s d = .error e') : e' = .ub := by
  simp only [dirStep] at h
  split at h
  · cases h
  · rename_i e he
    cases h
    exact fold_err_ub _ (fun _ _ _ h => writeSub_ub _ _ _ _ _ _ _ h) _ _ _ he

theorem writeAnt_ub (c : Cfg K) (ch ant : Nat) (m : Nat → Cx K) (e' : Err)
    (h : writeAnt c ch ant m = .error e') : e' = .ub := by
  simp only [writeAnt] at h
  split at h
  · cases h
  · rename_i e he
    cases h
    exact fold_err_ub _ (fun _ _ _ h => dirStep_ub _ _ _ _ _ _ h) _ _ _ he

/-- **C160 (violated)** A full Jones mode with a file of diagonal solutions always reads outside of memory,
for the last antenna of the last channel block. -/
theorem diagonal_outside (c : Cfg K) (hf : c.fullJones = false) (hn : c.nPol = 4) (ch : Nat)
    (hch : ch + 1 = c.nFreq) (ha : 0 < c.nAnt) (hs : 0 < c.subs.sum) (old : Nat → Cx K) :
    read c ch old = .error .ub := by
  have hr : ¬ (c.fullJones ∧ c.nPol ≠ 4 ∧ c.subs ≠ []) := by simp [hf]
  obtain ⟨d, k, hd, hk, _⟩ := sub_exists c.subs 0 hs
  have hsub : ∀ s m, writeSub c ch (c.nAnt - 1) d s m = .error .ub := by
    intro s m
    refine fold_err _ .ub _ _ 2 (by simp [hn]) ?_ (fun _ _ _ h => put_ub _ _ _ _ _ h)
    intro m
    have e : ch * c.nAnt + (c.nAnt - 1) + 1 = c.nFreq * c.nAnt := by
      rw [← hch, Nat.add_mul]; omega
    have := jones_over c hf d ch (c.nAnt - 1) 0 (by omega)
    rw [e, if_neg (Nat.lt_irrefl _)] at this
    exact ⟨.ub, by rw [this]; rfl⟩
  have hdir : ∀ s, dirStep c ch (c.nAnt - 1) s d = .error .ub := by
    intro s
    have : writeDir c ch (c.nAnt - 1) d s.1 (c.subs.getD d 0) s.2 = .error .ub :=
      fold_err _ .ub _ _ k (by simpa using hk) (fun m => ⟨.ub, hsub _ m⟩)
        (fun _ _ _ h => writeSub_ub _ _ _ _ _ _ _ h)
    simp only [dirStep, this]
  have hant : ∀ m, writeAnt c ch (c.nAnt - 1) m = .error .ub := by
    intro m
    have : (List.range c.subs.length).foldlM (dirStep c ch (c.nAnt - 1)) (0, m) = .error .ub :=
      fold_err _ .ub _ _ d (by simpa using hd) (fun s => ⟨.ub, hdir s⟩)
        (fun _ _ _ h => dirStep_ub _ _ _ _ _ _ h)
    simp only [writeAnt, this]
  simp only [read, hr, if_false]
  exact fold_err _ .ub _ _ (c.nAnt - 1) (by simp; omega) (fun m => ⟨.ub, hant m⟩)
    (fun _ _ _ h => writeAnt_ub _ _ _ _ _ h)

/-- A file with full Jones solutions is refused for a mode with fewer values, and only then. -/
theorem full_refused (c : Cfg K) (ch : Nat) (old : Nat → Cx K) :
    read c ch old = .error .refused ↔ c.fullJones = true ∧ c.nPol ≠ 4 ∧ c.subs ≠ [] := by
  constructor
  · intro h
    by_contra hr
    simp only [read, hr, if_false] at h
    have := fold_err_ub _ (fun _ _ _ h => writeAnt_ub _ _ _ _ _ h) _ _ _ h
    cases this
  · intro h
    simp only [read, h, and_self, if_true, not_false_eq_true, ne_eq]

/-! Examples: two directions with one and two sub-solutions, two antennas, two channel blocks. -/

/-- A configuration with distinct values. -/
def ex (nPol : Nat) (fullJones : Bool) : Cfg ℤ :=
  { nPol := nPol, nAnt := 2, nFreq := 2, nSoltab := 2, subs := [1, 2], fullJones := fullJones
    value := fun s d ch ant p => ⟨(1000 * s + 100 * d + 50 * ch + 10 * ant + p + 1 : Nat), 0⟩
    full := fun d ch ant p => ⟨(100 * d + 50 * ch + 10 * ant + p : Nat), 1⟩ }

example := read_right_partial (ex 2 false) 1 (by decide) (fun _ => 0) (by simp [ex])
example := read_right_partial (ex 4 true) 1 (by decide) (fun _ => 0) (by simp [ex])
example := diagonal_shifted (ex 4 false) rfl rfl 0 (by decide) (fun _ => 0)
example := diagonal_outside (ex 4 false) rfl rfl 1 rfl (by decide) (by decide) (fun _ => 0)
example : read (ex 2 true) 0 (fun _ => 0) = .error .refused :=
  (full_refused _ _ _).2 ⟨rfl, by decide, by decide⟩
example : ((read (ex 2 false) 1 (fun _ => 0)).toOption.map fun sol => (List.range 12).map fun i => (sol i).re) =
    some [51 * 1051, 52 * 1052, 151 * 1151, 152 * 1152, 151 * 1151, 152 * 1152,
      61 * 1061, 62 * 1062, 161 * 1161, 162 * 1162, 161 * 1161, 162 * 1162] := by decide +kernel

/-! ### C161: names of modes -/

/-- **C161 (`_partial`)** The name that DP3 shows for a mode is accepted and means that mode, for all modes
but Faraday rotation; different modes have different names.

What is missing for the full statement: Faraday rotation (`faraday_refused`). -/
theorem name_partial (t : CalType) (h : t ≠ .faradayRotation) : stringToCalType (toStr t) = some t := by
  cases t <;> first | rfl | exact absurd rfl h

/-- Different modes are shown with different names. -/
theorem name_inj (t u : CalType) (h : toStr t = toStr u) : t = u := by
  revert h
  cases t <;> cases u <;> first | (intro _; rfl) | (intro h; exact absurd h (by decide))

/-- **C161 (violated)** The name that is shown for Faraday rotation is not accepted. -/
theorem faraday_refused : stringToCalType (toStr .faradayRotation) = none := rfl

/-- Every mode can be asked for. -/
theorem name_exists (t : CalType) : ∃ s, stringToCalType s = some t := by
  by_cases h : t = .faradayRotation
  · exact ⟨"faradayrotation", by rw [h]; rfl⟩
  · exact ⟨_, name_partial t h⟩

example : stringToCalType (toStr .scalar) = some .scalar := name_partial _ (by decide)
example : toStr .tec ≠ toStr .tecAndPhase := fun h => absurd (name_inj _ _ h) (by decide)

end DP3.InitialSol
