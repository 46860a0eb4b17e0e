import Verif.MsOutput.Model
import Mathlib.Tactic.Linarith
import Mathlib.Data.Nat.Digits.Lemmas

/-!
# C203-C205: chunks, their names, and writing in a thread
-/

namespace DP3.MsOutput

set_option linter.unusedSimpArgs false
set_option linter.unusedSectionVars false

variable {F B : Type} [Field F] [LinearOrder F] [IsStrictOrderedRing F]

/-! ## C203: chunks -/

/-- A chunk: its first time and the times of all its buffers less than the duration later. -/
def Within (time : B → F) (d : F) (start : F) (c : List B) : Prop :=
  (∃ b rest, c = b :: rest ∧ time b = start) ∧ ∀ b ∈ c, time b - start < d

/-- Consecutive chunks: each starts at least the duration after the start of the previous one. -/
def Split (time : B → F) (d : F) : List (List B) → Prop
  | [] => True
  | [c] => ∃ s, Within time d s c
  | c :: c' :: rest => (∃ s s', Within time d s c ∧ Within time d s' c' ∧ d ≤ s' - s) ∧ Split time d (c' :: rest)

private theorem split_snoc (time : B → F) (d : F) (l : List (List B)) (c c' : List B) (s' : F)
    (h : Split time d (l ++ [c])) (hc' : Within time d s' c') (hd : ∀ s, Within time d s c → d ≤ s' - s) :
    Split time d (l ++ [c, c']) := by
  induction l with
  | nil =>
    obtain ⟨s, hs⟩ := h
    exact ⟨⟨s, s', hs, hc', hd s hs⟩, s', hc'⟩
  | cons a l ih =>
    cases l with
    | nil =>
      obtain ⟨h1, h2⟩ := h
      exact ⟨h1, ih h2⟩
    | cons a' l =>
      obtain ⟨h1, h2⟩ := h
      exact ⟨h1, ih h2⟩

private theorem split_last (time : B → F) (d : F) (l : List (List B)) (c c' : List B) (s : F)
    (h : Split time d (l ++ [c])) (hc : Within time d s c) (hc' : Within time d s c') : Split time d (l ++ [c']) := by
  have huniq : ∀ s0, Within time d s0 c → s0 = s := by
    rintro s0 ⟨⟨b, rest, e1, e2⟩, -⟩
    obtain ⟨⟨b', rest', e3, e4⟩, -⟩ := hc
    rw [e1] at e3
    have := (List.cons.inj e3).1
    rw [← e2, this, e4]
  induction l with
  | nil => exact ⟨s, hc'⟩
  | cons a l ih =>
    cases l with
    | nil =>
      obtain ⟨⟨s1, s2, h1, h2, h3⟩, h4⟩ := h
      rw [huniq s2 h2] at h3
      exact ⟨⟨s1, s, h1, hc', h3⟩, ih h4⟩
    | cons a' l =>
      obtain ⟨h1, h2⟩ := h
      exact ⟨h1, ih h2⟩

/-- C203: with a positive duration, and times that are not 0 and do not decrease, every buffer is in one chunk, in
order; all buffers of a chunk are within the duration from its first one, and the next chunk starts with the first
buffer that is not. -/
theorem chunks_split (time : B → F) (d : F) (hd : 0 < d) (bs : List B) (hne : bs ≠ []) (hz : ∀ b ∈ bs, time b ≠ 0)
    (hmono : bs.Pairwise fun a b => time a ≤ time b) :
    (chunks time d bs).flatten = bs ∧ Split time d (chunks time d bs) := by
  have key : ∀ (bs : List B) (done : List (List B)) (cur : List B) (start : F), start ≠ 0 →
      Within time d start cur → Split time d (done ++ [cur]) → (∀ b ∈ bs, time b ≠ 0) →
      (∀ b ∈ bs, start ≤ time b) → (bs.Pairwise fun a b => time a ≤ time b) →
      ((bs.foldl (chunkStep time d) ⟨done, cur, start⟩).done ++
        [(bs.foldl (chunkStep time d) ⟨done, cur, start⟩).cur]).flatten = (done ++ [cur]).flatten ++ bs ∧
      Split time d ((bs.foldl (chunkStep time d) ⟨done, cur, start⟩).done ++
        [(bs.foldl (chunkStep time d) ⟨done, cur, start⟩).cur]) := by
    intro bs
    induction bs with
    | nil =>
      intro done cur start _ _ hs _ _ _
      exact ⟨by simp, hs⟩
    | cons b bs ih =>
      intro done cur start h0 hw hs hz hle hm
      rw [List.pairwise_cons] at hm
      have hb0 := hz b (by simp)
      simp only [List.foldl_cons]
      by_cases hc : d ≤ time b - start
      · have hstep : chunkStep time d ⟨done, cur, start⟩ b = ⟨done ++ [cur], [b], time b⟩ := by
          unfold chunkStep
          simp only
          rw [if_neg h0, if_pos ⟨hd.ne', hc⟩]
        rw [hstep]
        have hwb : Within time d (time b) [b] := by
          refine ⟨⟨b, [], rfl, rfl⟩, ?_⟩
          intro x hx
          rw [List.mem_singleton.mp hx]; linarith
        have hs' : Split time d ((done ++ [cur]) ++ [[b]]) := by
          rw [List.append_assoc]
          refine split_snoc time d done cur [b] (time b) hs hwb ?_
          rintro s ⟨⟨x, rest, e1, e2⟩, -⟩
          obtain ⟨⟨y, rest', e3, e4⟩, -⟩ := hw
          rw [e1] at e3
          have := (List.cons.inj e3).1
          rw [← e2, this, e4]; exact hc
        obtain ⟨g1, g2⟩ := ih (done ++ [cur]) [b] (time b) hb0 hwb hs' (fun x hx => hz x (List.mem_cons_of_mem _ hx))
          hm.1 hm.2
        refine ⟨?_, g2⟩
        rw [g1]
        simp
      · have hstep : chunkStep time d ⟨done, cur, start⟩ b = ⟨done, cur ++ [b], start⟩ := by
          unfold chunkStep
          simp only
          rw [if_neg h0, if_neg (by rintro ⟨-, h⟩; exact hc h)]
        rw [hstep]
        have hw' : Within time d start (cur ++ [b]) := by
          obtain ⟨⟨y, rest, e1, e2⟩, h2⟩ := hw
          refine ⟨⟨y, rest ++ [b], by rw [e1]; rfl, e2⟩, ?_⟩
          intro x hx
          rcases List.mem_append.mp hx with hx | hx
          · exact h2 x hx
          · rw [List.mem_singleton.mp hx]; linarith [lt_of_not_ge hc]
        obtain ⟨g1, g2⟩ := ih done (cur ++ [b]) start h0 hw' (split_last time d done cur _ start hs hw hw')
          (fun x hx => hz x (List.mem_cons_of_mem _ hx)) (fun x hx => hle x (List.mem_cons_of_mem _ hx)) hm.2
        refine ⟨?_, g2⟩
        rw [g1]
        simp
  cases bs with
  | nil => exact absurd rfl hne
  | cons b bs =>
    rw [List.pairwise_cons] at hmono
    have hb0 := hz b (by simp)
    have hstep : chunkStep time d ⟨[], [], 0⟩ b = ⟨[], [b], time b⟩ := by
      unfold chunkStep
      simp only
      rw [if_pos trivial, if_neg]
      · rfl
      · rintro ⟨-, h⟩
        rw [sub_self] at h
        exact absurd h (not_le.mpr hd)
    have hwb : Within time d (time b) [b] := by
      refine ⟨⟨b, [], rfl, rfl⟩, ?_⟩
      intro x hx
      rw [List.mem_singleton.mp hx]; linarith
    obtain ⟨g1, g2⟩ := key bs [] [b] (time b) hb0 hwb ⟨_, hwb⟩ (fun x hx => hz x (List.mem_cons_of_mem _ hx)) hmono.1
      hmono.2
    unfold chunks
    simp only [List.foldl_cons, hstep]
    refine ⟨?_, g2⟩
    rw [g1]
    simp

/-- C203: without a duration there is one measurement set with all buffers. -/
theorem chunks_none (time : B → F) (bs : List B) : chunks time 0 bs = [bs] := by
  have key : ∀ (bs cur : List B) (start : F), ∃ s, bs.foldl (chunkStep time 0) ⟨[], cur, start⟩ = ⟨[], cur ++ bs, s⟩ := by
    intro bs
    induction bs with
    | nil => intro cur start; exact ⟨start, by simp⟩
    | cons b bs ih =>
      intro cur start
      simp only [List.foldl_cons]
      have : chunkStep time 0 ⟨[], cur, start⟩ b = ⟨[], cur ++ [b], if start = 0 then time b else start⟩ := by
        unfold chunkStep
        simp only
        rw [if_neg]
        rintro ⟨h, -⟩
        exact h rfl
      rw [this]
      obtain ⟨s, hs⟩ := ih (cur ++ [b]) (if start = 0 then time b else start)
      exact ⟨s, by rw [hs]; simp⟩
  obtain ⟨s, hs⟩ := key bs [] 0
  unfold chunks
  rw [hs]
  simp

example : chunks (id : ℚ → ℚ) 10 [100, 104, 108, 112, 131, 134] = [[100, 104, 108], [112], [131, 134]] := by
  decide +kernel

example : (∀ b ∈ ([100, 104, 108, 112, 131, 134] : List ℚ), id b ≠ 0) ∧
    ([100, 104, 108, 112, 131, 134] : List ℚ).Pairwise fun a b => id a ≤ id b := by decide +kernel

/-! ## C204: names of chunks -/

private theorem digitChar_inj : ∀ a < 10, ∀ b < 10, Nat.digitChar a = Nat.digitChar b → a = b := by decide

private theorem map_digitChar_inj : ∀ l l' : List Nat, (∀ d ∈ l, d < 10) → (∀ d ∈ l', d < 10) →
    l.map Nat.digitChar = l'.map Nat.digitChar → l = l' := by
  intro l
  induction l with
  | nil =>
    intro l' _ _ h
    cases l' with
    | nil => rfl
    | cons a l' => simp at h
  | cons a l ih =>
    intro l' h1 h2 h
    cases l' with
    | nil => simp at h
    | cons b l' =>
      simp only [List.map_cons, List.cons.injEq] at h
      rw [digitChar_inj a (h1 a (by simp)) b (h2 b (by simp)) h.1,
        ih l' (fun d hd => h1 d (List.mem_cons_of_mem _ hd)) (fun d hd => h2 d (List.mem_cons_of_mem _ hd)) h.2]

/-- The number is read back from its digits, also with zeros before them. -/
private theorem padded_digits (n : Nat) : ∃ l : List Nat, padded n = (l.map Nat.digitChar).reverse ∧
    (∀ d ∈ l, d < 10) ∧ Nat.ofDigits 10 l = n := by
  have hdec : ∃ l : List Nat, toDec n = (l.map Nat.digitChar).reverse ∧ (∀ d ∈ l, d < 10) ∧ Nat.ofDigits 10 l = n := by
    unfold toDec
    by_cases h : n = 0
    · rw [if_pos h]
      refine ⟨[0], rfl, by decide, ?_⟩
      rw [h]; rfl
    · rw [if_neg h]
      exact ⟨Nat.digits 10 n, rfl, fun d hd => Nat.digits_lt_base (by decide) hd, Nat.ofDigits_digits 10 n⟩
  obtain ⟨l, h1, h2, h3⟩ := hdec
  unfold padded
  split_ifs
  · refine ⟨l ++ [0, 0], ?_, ?_, ?_⟩
    · rw [h1]; simp [Nat.digitChar]
    · intro d hd
      rcases List.mem_append.mp hd with hd | hd
      · exact h2 d hd
      · have : d = 0 := by simpa using hd
        omega
    · rw [Nat.ofDigits_append, h3]; simp [Nat.ofDigits]
  · refine ⟨l ++ [0], ?_, ?_, ?_⟩
    · rw [h1]; simp [Nat.digitChar]
    · intro d hd
      rcases List.mem_append.mp hd with hd | hd
      · exact h2 d hd
      · have : d = 0 := by simpa using hd
        omega
    · rw [Nat.ofDigits_append, h3]; simp [Nat.ofDigits]
  · exact ⟨l, h1, h2, h3⟩

/-- C204: different chunks have different names. -/
theorem chunk_names_differ (name : List Char) (m n : Nat) (h : insertNumber name m = insertNumber name n) : m = n := by
  unfold insertNumber at h
  have h1 := List.append_cancel_right h
  have h2 := List.append_cancel_left h1
  have h3 : padded m = padded n := (List.cons.inj h2).2
  obtain ⟨l, a1, a2, a3⟩ := padded_digits m
  obtain ⟨l', b1, b2, b3⟩ := padded_digits n
  rw [a1, b1] at h3
  have := map_digitChar_inj l l' a2 b2 (List.reverse_injective h3)
  rw [← a3, ← b3, this]

private theorem stem_of_dot (dir base ext : List Char) (he : '.' ∉ ext) :
    stem (dir ++ base ++ '.' :: ext) = dir ++ base := by
  unfold stem
  rw [if_pos (by simp)]
  have hrev : (dir ++ base ++ '.' :: ext).reverse = ext.reverse ++ '.' :: (dir ++ base).reverse := by simp
  rw [hrev, List.dropWhile_append_of_pos (by
    intro c hc
    simp only [decide_eq_true_eq]
    rintro rfl
    exact he (List.mem_reverse.mp hc)), List.dropWhile_cons_of_neg (by simp)]
  simp

/-- C204 (see `chunk_name_directory`): the number is put before the extension, in the same directory, if the name has an
extension, or no dot at all. -/
theorem chunk_name_partial (dir base ext : List Char) (n : Nat) (he : '.' ∉ ext) :
    insertNumber (dir ++ base ++ '.' :: ext) n = dir ++ (base ++ '-' :: padded n ++ '.' :: ext) ∧
    ('.' ∉ dir ++ base → insertNumber (dir ++ base) n = dir ++ (base ++ '-' :: padded n)) := by
  constructor
  · unfold insertNumber extension
    rw [stem_of_dot dir base ext he, List.drop_left]
    simp
  · intro h
    have hs : stem (dir ++ base) = dir ++ base := by
      unfold stem
      rw [if_neg h]
    unfold insertNumber extension
    rw [hs, List.drop_length]
    simp

/-- C204: a number has at least three digits. -/
theorem padded_length (n : Nat) : 3 ≤ (padded n).length := by
  unfold padded toDec
  by_cases h0 : n = 0
  · subst h0; decide
  · rw [if_neg h0]
    have hlen : ∀ k, 10 ^ k ≤ n → k < (Nat.digits 10 n).length := fun k hk => Nat.lt_digits_length_iff (by decide) n |>.mpr hk
    split_ifs with h1 h2
    · have := hlen 0 (by rw [pow_zero]; exact Nat.pos_of_ne_zero h0)
      simp; omega
    · have := hlen 1 (by omega)
      simp; omega
    · have := hlen 2 (by omega)
      simp; omega

example : insertNumber "/d.x/my.ms".toList 7 = "/d.x/my-007.ms".toList ∧ insertNumber "my".toList 12 = "my-012".toList ∧
    '.' ∉ "ms".toList := by decide +kernel

/-- C204: without an extension, a dot in the name of the directory is taken for that of the extension, so that the
chunk is in another directory. -/
theorem chunk_name_directory : insertNumber "./my".toList 0 = "-000./my".toList ∧
    insertNumber "/d.x/my".toList 1 = "/d-001.x/my".toList := by decide +kernel

/-! ## C205: the thread -/

variable {B : Type}

/-- The measurement sets when the operations are done one after the other. -/
def sequential : List (Op B) → List (List B) → List B → List (List B) × List B
  | [], done, cur => (done, cur)
  | .write b :: ops, done, cur => sequential ops done (cur ++ [b])
  | .next :: ops, done, cur => sequential ops (done ++ [cur]) []

/-- What is between the threads. -/
def Threads.pending (s : Threads B) : List B := s.busy.toList ++ s.queue

private theorem step_invariant (s t : Threads B) (h : Step s t) :
    sequential t.todo t.done (t.cur ++ t.pending) = sequential s.todo s.done (s.cur ++ s.pending) := by
  cases h with
  | push b todo queue busy done cur h => simp [sequential, Threads.pending]
  | take todo b queue done cur => simp [Threads.pending]
  | put todo queue b done cur => simp [Threads.pending]
  | next todo done cur => simp [sequential, Threads.pending]

/-- C205: whatever the order of the steps of both threads is, the measurement sets are the same as without a thread when
all is done. -/
theorem thread_result (ops : List (Op B)) (s : Threads B) (h : Steps ⟨ops, [], none, [], []⟩ s) (hf : s.final) :
    (s.done, s.cur) = sequential ops [] [] := by
  have inv : ∀ s t : Threads B, Steps s t →
      sequential t.todo t.done (t.cur ++ t.pending) = sequential s.todo s.done (s.cur ++ s.pending) := by
    intro s t h
    induction h with
    | refl => rfl
    | step _ hs ih => rw [step_invariant _ _ hs, ih]
  have := inv _ _ h
  obtain ⟨f1, f2, f3⟩ := hf
  simp only [Threads.pending, f1, f2, f3, sequential, Option.toList_none, List.append_nil, List.nil_append] at this
  exact this

/-- C205: at any moment the current measurement set has a first part of its buffers, in order, and the finished ones are
complete. -/
theorem thread_prefix (ops : List (Op B)) (s : Threads B) (h : Steps ⟨ops, [], none, [], []⟩ s) :
    ∃ rest, sequential ops [] [] = sequential s.todo s.done (s.cur ++ rest) := by
  have inv : ∀ s t : Threads B, Steps s t →
      sequential t.todo t.done (t.cur ++ t.pending) = sequential s.todo s.done (s.cur ++ s.pending) := by
    intro s t h
    induction h with
    | refl => rfl
    | step _ hs ih => rw [step_invariant _ _ hs, ih]
  exact ⟨s.pending, by simpa [Threads.pending] using (inv _ _ h).symm⟩

/-- C205: the threads never wait for each other: unless all is done, one of them can go on. -/
theorem thread_progress (s : Threads B) (h : ¬ s.final) : ∃ t, Step s t := by
  obtain ⟨todo, queue, busy, done, cur⟩ := s
  cases busy with
  | some b => exact ⟨_, Step.put todo queue b done cur⟩
  | none =>
    cases queue with
    | cons b queue => exact ⟨_, Step.take todo b queue done cur⟩
    | nil =>
      cases todo with
      | nil => exact absurd ⟨rfl, rfl, rfl⟩ h
      | cons op todo =>
        cases op with
        | write b => exact ⟨_, Step.push b todo [] none done cur (by simp [capacity])⟩
        | next => exact ⟨_, Step.next todo done cur⟩

/-- The number of steps that remain. -/
def Threads.work (s : Threads B) : Nat :=
  3 * s.todo.length + 2 * s.queue.length + s.busy.toList.length

/-- C205: and all is done after a limited number of steps. -/
theorem thread_ends (s t : Threads B) (h : Step s t) : t.work < s.work := by
  cases h <;> simp [Threads.work] <;> omega

example : sequential [.write 1, .write 2, .next, .write 3] [] [] = ([[1, 2]], [3]) := rfl

example : ∃ s : Threads ℕ, Steps ⟨[.write 1, .write 2], [], none, [], []⟩ s ∧ s.final ∧ s.cur = [1, 2] := by
  refine ⟨⟨[], [], none, [], [1, 2]⟩, ?_, ⟨rfl, rfl, rfl⟩, rfl⟩
  refine .step (.step (.step (.step (.step (.step (.refl _) (.push 1 _ _ _ _ _ (by decide))) (.take _ _ _ _ _))
    (.push 2 _ _ _ _ _ (by decide))) (.put _ _ _ _ _)) (.take _ _ _ _ _)) (.put _ _ _ _ _)

end DP3.MsOutput
