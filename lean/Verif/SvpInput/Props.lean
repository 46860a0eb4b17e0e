import Verif.SvpInput.Model
import Mathlib.Tactic.Ring
import Mathlib.Tactic.Linarith
import Mathlib.Algebra.Field.Rat
import Mathlib.Algebra.Order.Ring.Rat
import Mathlib.Data.List.Nodup

/-! Properties of the input from a socket, steps/SVPInput.cc. -/

namespace DP3.SvpInput
set_option linter.unusedSimpArgs false
set_option linter.unusedSectionVars false

/-! ## C249: messages do not depend on how the stream is cut into chunks -/

section Receive
variable {α : Type}

theorem receive_append (m s : List α) (n : Nat) (hn : m.length = n) (h0 : n ≠ 0) : receive n (m ++ s) = (some m, s) := by
  subst hn
  simp [receive, h0]

theorem receive_chunks (n : Nat) (chunks : List (List α)) (hc : ∀ c ∈ chunks, c ≠ []) :
    (receiveLoop n chunks).1 = (receive n chunks.flatten).1 ∧
    (receiveLoop n chunks).2.flatten = (receive n chunks.flatten).2 ∧ ∀ c ∈ (receiveLoop n chunks).2, c ≠ [] := by
  induction chunks generalizing n with
  | nil => cases n <;> simp [receiveLoop, receive]
  | cons c cs ih =>
    have hcs : ∀ c ∈ cs, c ≠ [] := fun x hx => hc x (by simp [hx])
    have hc0 : c ≠ [] := hc c (by simp)
    have hl : 0 < c.length := List.length_pos_iff.2 hc0
    cases n with
    | zero => simpa [receiveLoop, receive] using hc
    | succ left =>
      simp only [receiveLoop]
      by_cases h1 : left + 1 ≤ c.length
      · rw [if_pos h1]
        have h2 : left + 1 ≤ (c :: cs).flatten.length := by simp; omega
        simp only [receive, if_neg (Nat.succ_ne_zero left), if_pos h2]
        refine ⟨?_, ?_, ?_⟩
        · simp [List.take_append_of_le_length h1]
        · by_cases h3 : c.length = left + 1
          · rw [if_pos h3]
            rw [← h3]
            simp
          · rw [if_neg h3]
            simp [List.drop_append_of_le_length h1]
        · by_cases h3 : c.length = left + 1
          · rw [if_pos h3]; exact hcs
          · rw [if_neg h3]
            intro x hx
            rcases List.mem_cons.1 hx with rfl | hx
            · intro hnil
              have := congrArg List.length hnil
              simp at this
              omega
            · exact hcs x hx
      · rw [if_neg h1, if_neg (by omega)]
        obtain ⟨i1, i2, i3⟩ := ih (left + 1 - c.length) hcs
        refine ⟨?_, ?_, i3⟩
        · simp only [i1]
          by_cases h2 : left + 1 ≤ (c :: cs).flatten.length
          · have h3 : left + 1 - c.length ≤ cs.flatten.length := by
              simp only [List.flatten_cons, List.length_append] at h2; omega
            simp only [receive, if_neg (Nat.succ_ne_zero left), if_pos h2, if_neg (show left + 1 - c.length ≠ 0 by omega), if_pos h3]
            simp only [List.flatten_cons, Option.map_some, Option.some.injEq]
            rw [List.take_append, List.take_of_length_le (l := c) (by omega)]
          · have h3 : ¬ left + 1 - c.length ≤ cs.flatten.length := by
              simp only [List.flatten_cons, List.length_append] at h2; omega
            simp only [receive, if_neg (Nat.succ_ne_zero left), if_neg h2, if_neg (show left + 1 - c.length ≠ 0 by omega), if_neg h3,
              Option.map_none]
        · simp only [i2]
          by_cases h2 : left + 1 ≤ (c :: cs).flatten.length
          · have h3 : left + 1 - c.length ≤ cs.flatten.length := by
              simp only [List.flatten_cons, List.length_append] at h2; omega
            simp only [receive, if_neg (Nat.succ_ne_zero left), if_pos h2, if_neg (show left + 1 - c.length ≠ 0 by omega), if_pos h3]
            simp only [List.flatten_cons]
            rw [List.drop_append, List.drop_of_length_le (l := c) (by omega), List.nil_append]
          · have h3 : ¬ left + 1 - c.length ≤ cs.flatten.length := by
              simp only [List.flatten_cons, List.length_append] at h2; omega
            simp only [receive, if_neg (Nat.succ_ne_zero left), if_neg h2, if_neg (show left + 1 - c.length ≠ 0 by omega), if_neg h3]

/-- Receiving messages of the given sizes one after the other (a specification: the calls that the functions make). -/
def receiveMany : List Nat → List (List α) → List (Option (List α)) × List (List α)
  | [], chunks => ([], chunks)
  | n :: ns, chunks =>
    let r := receiveLoop n chunks
    let q := receiveMany ns r.2
    (r.1 :: q.1, q.2)

/-- C249: however the bytes that a sender writes are cut into chunks, the receiver gets exactly the messages, and the bytes behind
the last message stay in the stream. -/
theorem messages_received (ms : List (List α)) (tail : List α) (chunks : List (List α)) (hm : ∀ m ∈ ms, m ≠ [])
    (hc : ∀ c ∈ chunks, c ≠ []) (hs : chunks.flatten = ms.flatten ++ tail) :
    (receiveMany (ms.map List.length) chunks).1 = ms.map some ∧
    (receiveMany (ms.map List.length) chunks).2.flatten = tail := by
  induction ms generalizing chunks with
  | nil => simpa [receiveMany] using hs
  | cons m ms ih =>
    obtain ⟨i1, i2, i3⟩ := receive_chunks m.length chunks hc
    have hm0 : m.length ≠ 0 := by simpa using hm m (by simp)
    have hr : receive m.length chunks.flatten = (some m, ms.flatten ++ tail) := by
      rw [hs, List.flatten_cons, List.append_assoc]
      exact receive_append _ _ _ rfl hm0
    rw [hr] at i1 i2
    obtain ⟨j1, j2⟩ := ih (receiveLoop m.length chunks).2 (fun x hx => hm x (by simp [hx])) i3 i2
    simp only [List.map_cons, receiveMany]
    exact ⟨by rw [i1, j1], j2⟩

/-- C249: a message that is not complete when the stream ends is an error, and so is every message after it. -/
theorem message_incomplete (n k : Nat) (chunks : List (List α)) (hc : ∀ c ∈ chunks, c ≠ []) (hn : chunks.flatten.length < n) :
    (receiveLoop n chunks).1 = none ∧ (receiveLoop k (receiveLoop n chunks).2).1 = none := by
  obtain ⟨i1, i2, i3⟩ := receive_chunks n chunks hc
  have hr : receive n chunks.flatten = (none, []) := by
    simp only [receive, if_neg (show n ≠ 0 by omega), if_neg (Nat.not_le.2 hn)]
  rw [hr] at i1 i2
  refine ⟨i1, ?_⟩
  rw [(receive_chunks k _ i3).1, i2]
  by_cases hk : k = 0 <;> simp [receive, hk]

example : receiveMany [3, 2] [[1], [2, 3, 4], [5, 6]] = ([some [1, 2, 3], some [4, 5]], [[6]]) := by decide

/-- C249: an empty message is always an error, although all of its bytes are there. -/
theorem empty_message_error (chunks : List (List α)) : (receiveLoop 0 chunks).1 = none := by
  cases chunks <;> rfl

end Receive

/-! ## C250: flags that are sent -/

section Flags
variable {α K : Type} [Field K]

theorem processAlma_ok {d : Dec α K} {scale : K} {ncr pixels : Nat} {arr : List (K × K)} {s : List α} {b : Buf K} {rest : List α}
    (h : processAlma d scale ncr pixels arr s = .ok b rest) :
    b.flags = List.replicate (pixels * ncr) false ∧ b.weights = List.replicate (pixels * ncr) 1 := by
  simp only [processAlma] at h
  split at h
  · cases h
  · split at h
    · cases h
    · cases h
    · split at h
      · cases h
      · cases h
      · cases h
        exact ⟨rfl, rfl⟩

/-- C250 is violated: whatever flags are sent, no buffer that is made has a flag. -/
theorem alma_flags_lost (d : Dec α K) (scale : K) (ncr pixels : Nat) (arr : List (K × K)) (s : List α) (b : Buf K) (rest : List α)
    (h : processAlma d scale ncr pixels arr s = .ok b rest) : ∀ f ∈ b.flags, f = false := by
  rw [(processAlma_ok h).1]
  intro f hf
  exact (List.mem_replicate.1 hf).2

/-- The message of one time slot of ALMA: the header, the flags and the data. -/
def almaMessage (centroid duration flagSize dataSize bits flags data : List α) : List α :=
  centroid ++ (duration ++ (flagSize ++ (dataSize ++ (bits ++ (flags ++ data)))))

/-- C250, C251: what `process` does with a complete message: it takes the time, the exposure, the flags and the data from it. -/
theorem alma_message (d : Dec α K) (scale : K) (ncr pixels : Nat) (arr : List (K × K))
    (centroid duration flagSize dataSize bits flags data : List α) (h1 : centroid.length = 8) (h2 : duration.length = 8)
    (h3 : flagSize.length = 8) (h4 : dataSize.length = 8) (h5 : bits.length = 4) (h6 : flags.length = d.size flagSize * 4)
    (h7 : d.size flagSize = 0 ∨ pixels ≤ d.size flagSize) (l : List (K × K)) (rest : List α)
    (hd : receiveData d scale ncr pixels (d.int bits).toNat arr data = .ok (l, rest)) :
    processAlma d scale ncr pixels arr (almaMessage centroid duration flagSize dataSize bits flags data) =
      .ok ⟨d.double centroid, d.double duration, l, List.replicate (pixels * ncr) false, List.replicate (pixels * ncr) 1⟩ rest := by
  have hf : ∃ copy, receiveFlags d ncr pixels (d.size flagSize) (flags ++ data) = .ok (copy, data) := by
    by_cases h0 : d.size flagSize = 0
    · have : flags = [] := List.length_eq_zero_iff.1 (by omega)
      exact ⟨[], by simp [receiveFlags, h0, this]⟩
    · refine ⟨(List.range (pixels * ncr)).map fun (i : Nat) =>
        decide (i % ncr ∈ correlations ncr) && decide ((d.ints32 flags).getD (i / ncr) 0 ≠ 0), ?_⟩
      simp only [receiveFlags, if_neg h0, receive_append flags data _ h6 (by omega),
        if_neg (show ¬ d.size flagSize < pixels by omega)]
  obtain ⟨copy, hf⟩ := hf
  simp only [processAlma, almaMessage, receive_append centroid _ 8 h1 (by omega), receive_append duration _ 8 h2 (by omega),
    receive_append flagSize _ 8 h3 (by omega), receive_append dataSize _ 8 h4 (by omega), receive_append bits _ 4 h5 (by omega),
    Option.map_some, Option.getD_some, hf, hd]

end Flags

/-! ## C251: the values of the visibilities -/

section Data
variable {α K : Type} [Field K]

theorem writePixel_spec {β : Type} (ncr : Nat) (f : Nat → β) (arr : List β) (p : Nat)
    (hin : ∀ o ∈ correlations ncr, p * ncr + o < arr.length) :
    ∃ l, writePixel ncr f arr p = some l ∧ l.length = arr.length ∧
      ∀ i : Nat, l[i]? = if ∃ o ∈ correlations ncr, i = p * ncr + o then (if i < arr.length then some (f i) else none) else arr[i]? := by
  unfold writePixel
  generalize correlations ncr = os at *
  induction os generalizing arr with
  | nil => exact ⟨arr, rfl, rfl, by simp⟩
  | cons o os ih =>
    have h0 := hin o (by simp)
    simp only [List.foldl_cons, Option.bind_some, if_pos h0]
    obtain ⟨l, e1, e2, e3⟩ := ih (arr.set (p * ncr + o) (f (p * ncr + o))) (by
      intro x hx; rw [List.length_set]; exact hin x (by simp [hx]))
    refine ⟨l, e1, by rw [e2, List.length_set], fun i => ?_⟩
    rw [e3 i]
    by_cases ha : ∃ o ∈ os, i = p * ncr + o
    · have hb : ∃ x ∈ o :: os, i = p * ncr + x := by
        obtain ⟨x, hx, hi⟩ := ha
        exact ⟨x, by simp [hx], hi⟩
      rw [if_pos ha, if_pos hb, List.length_set]
    · rw [if_neg ha]
      by_cases hi : i = p * ncr + o
      · have hb : ∃ x ∈ o :: os, i = p * ncr + x := ⟨o, by simp, hi⟩
        rw [if_pos hb, hi, List.getElem?_set_self h0, if_pos h0]
      · have hb : ¬ ∃ x ∈ o :: os, i = p * ncr + x := by
          rintro ⟨x, hx, hxi⟩
          rcases List.mem_cons.1 hx with rfl | hx
          · exact hi hxi
          · exact ha ⟨x, hx, hxi⟩
        rw [if_neg hb, List.getElem?_set_ne (Ne.symm hi)]

theorem writeAll_spec {β : Type} (ncr : Nat) (f : Nat → β) (pixels : Nat) (arr : List β)
    (hin : ∀ p < pixels, ∀ o ∈ correlations ncr, p * ncr + o < arr.length) :
    ∃ l, writeAll ncr pixels f arr = some l ∧ l.length = arr.length ∧
      ∀ i : Nat, l[i]? = if ∃ p < pixels, ∃ o ∈ correlations ncr, i = p * ncr + o then
        (if i < arr.length then some (f i) else none) else arr[i]? := by
  induction pixels with
  | zero => exact ⟨arr, rfl, rfl, by simp⟩
  | succ k ih =>
    obtain ⟨l, e1, e2, e3⟩ := ih (fun p hp => hin p (by omega))
    obtain ⟨l', g1, g2, g3⟩ := writePixel_spec ncr f l k (by rw [e2]; exact hin k (by omega))
    refine ⟨l', ?_, by rw [g2, e2], fun i => ?_⟩
    · unfold writeAll at e1 ⊢
      rw [List.range_succ, List.foldl_append, e1]
      exact g1
    · rw [g3 i, e3 i, e2]
      by_cases ha : ∃ o ∈ correlations ncr, i = k * ncr + o
      · rw [if_pos ha, if_pos (c := ∃ p < k + 1, ∃ o ∈ correlations ncr, i = p * ncr + o) ⟨k, by omega, ha⟩]
      · rw [if_neg ha]
        by_cases hb : ∃ p < k, ∃ o ∈ correlations ncr, i = p * ncr + o
        · obtain ⟨p, hp, ho⟩ := hb
          rw [if_pos (c := ∃ p < k, ∃ o ∈ correlations ncr, i = p * ncr + o) ⟨p, hp, ho⟩,
            if_pos (c := ∃ p < k + 1, ∃ o ∈ correlations ncr, i = p * ncr + o) ⟨p, by omega, ho⟩]
        · rw [if_neg hb, if_neg]
          rintro ⟨p, hp, ho⟩
          rcases Nat.lt_succ_iff_lt_or_eq.1 hp with hp | rfl
          · exact hb ⟨p, hp, ho⟩
          · exact ha ho

theorem correlations_lt {ncr : Nat} (h : 2 ≤ ncr) : ∀ o ∈ correlations ncr, o < ncr := by
  intro o ho
  unfold correlations at ho
  by_cases h4 : ncr = 4
  · rw [if_pos h4] at ho
    simp only [List.mem_cons, List.not_mem_nil, or_false] at ho
    omega
  · rw [if_neg h4] at ho
    simp only [List.mem_cons, List.not_mem_nil, or_false] at ho
    omega

theorem pixel_lt {p o ncr pixels : Nat} (hp : p < pixels) (ho : o < ncr) : p * ncr + o < pixels * ncr := by
  have : (p + 1) * ncr ≤ pixels * ncr := Nat.mul_le_mul_right _ hp
  have e : (p + 1) * ncr = p * ncr + ncr := by ring
  omega

/-- The number of bytes of an integer of the stream. -/
def wordSize (bits : Nat) : Nat := if bits = 16 then 2 else 4

/-- The integers of a message. -/
def words (d : Dec α K) (bits : Nat) (m : List α) : List Int := if bits = 16 then d.ints16 m else d.ints32 m

theorem receiveData_eq (d : Dec α K) (scale : K) (ncr pixels bits : Nat) (arr : List (K × K)) (m rest : List α)
    (hb : bits = 16 ∨ bits = 32) (hm : m.length = 2 * (pixels * ncr) * wordSize bits) (h0 : 0 < pixels * ncr)
    (l : List (K × K)) (hw : writeAll ncr pixels (convert scale (words d bits m)) arr = some l) :
    receiveData d scale ncr pixels bits arr (m ++ rest) = .ok (l, rest) := by
  rcases hb with rfl | rfl
  · simp only [wordSize, if_true, reduceIte] at hm
    simp only [words, if_true, reduceIte] at hw
    simp only [receiveData, if_true, reduceIte, receive_append m rest _ hm (by omega), hw]
  · simp only [wordSize, if_neg (show ¬ (32 : Nat) = 16 by omega)] at hm
    simp only [words, if_neg (show ¬ (32 : Nat) = 16 by omega)] at hw
    simp only [receiveData, if_neg (show ¬ (32 : Nat) = 16 by omega), if_true, reduceIte, receive_append m rest _ hm (by omega), hw]

/-- C251 for two or four correlations: of a complete message, the visibility of a baseline, channel and correlation is the pair of
integers at that place, divided by the scale factor. -/
theorem data_values (d : Dec α K) (scale : K) (ncr nbl nch bits : Nat) (arr : List (K × K)) (m rest : List α)
    (hn : ncr = 2 ∨ ncr = 4) (hbl : 0 < nbl) (hch : 0 < nch) (hb : bits = 16 ∨ bits = 32) (ha : arr.length = nbl * nch * ncr)
    (hm : m.length = 2 * (nbl * nch * ncr) * wordSize bits) :
    ∃ l, receiveData d scale ncr (nbl * nch) bits arr (m ++ rest) = .ok (l, rest) ∧ l.length = nbl * nch * ncr ∧
      ∀ bl < nbl, ∀ ch < nch, ∀ c < ncr, l[(bl * nch + ch) * ncr + c]? =
        some (((words d bits m).getD (2 * ((bl * nch + ch) * ncr + c)) 0 : K) / scale,
          ((words d bits m).getD (2 * ((bl * nch + ch) * ncr + c) + 1) 0 : K) / scale) := by
  have h2 : 2 ≤ ncr := by omega
  have hpix : 0 < nbl * nch := Nat.mul_pos hbl hch
  obtain ⟨l, e1, e2, e3⟩ := writeAll_spec ncr (convert scale (words d bits m)) (nbl * nch) arr (by
    intro p hp o ho
    rw [ha]
    exact pixel_lt hp (correlations_lt h2 o ho))
  refine ⟨l, receiveData_eq d scale ncr _ bits arr m rest hb hm (Nat.mul_pos hpix (by omega)) l e1, by rw [e2, ha], ?_⟩
  intro bl hbl' ch hch' c hc
  have hp : bl * nch + ch < nbl * nch := pixel_lt hbl' hch'
  have hcm : c ∈ correlations ncr := by
    rcases hn with rfl | rfl
    · simp only [correlations, if_neg (show ¬ (2 : Nat) = 4 by omega), List.mem_cons, List.not_mem_nil, or_false]; omega
    · simp only [correlations, if_true, reduceIte, List.mem_cons, List.not_mem_nil, or_false]; omega
  rw [e3, if_pos ⟨_, hp, c, hcm, rfl⟩, ha, if_pos (pixel_lt hp hc)]
  simp only [convert, div_eq_mul_inv, one_mul]

/-- C251 is violated for three correlations: the third one keeps what was in the buffer. -/
theorem data_three (d : Dec α K) (scale : K) (nbl nch bits : Nat) (arr : List (K × K)) (m rest : List α)
    (hbl : 0 < nbl) (hch : 0 < nch) (hb : bits = 16 ∨ bits = 32) (ha : arr.length = nbl * nch * 3)
    (hm : m.length = 2 * (nbl * nch * 3) * wordSize bits) :
    ∃ l, receiveData d scale 3 (nbl * nch) bits arr (m ++ rest) = .ok (l, rest) ∧
      ∀ bl < nbl, ∀ ch < nch, l[(bl * nch + ch) * 3 + 2]? = arr[(bl * nch + ch) * 3 + 2]? := by
  have hpix : 0 < nbl * nch := Nat.mul_pos hbl hch
  obtain ⟨l, e1, e2, e3⟩ := writeAll_spec 3 (convert scale (words d bits m)) (nbl * nch) arr (by
    intro p hp o ho
    rw [ha]
    exact pixel_lt hp (correlations_lt (by omega) o ho))
  refine ⟨l, receiveData_eq d scale 3 _ bits arr m rest hb hm (Nat.mul_pos hpix (by omega)) l e1, ?_⟩
  intro bl _ ch _
  rw [e3, if_neg]
  rintro ⟨p, _, o, ho, hi⟩
  simp only [correlations, if_neg (show ¬ (3 : Nat) = 4 by omega), List.mem_cons, List.not_mem_nil, or_false] at ho
  omega

theorem foldl_bind_none {β γ : Type} (f : γ → β → Option β) (l : List γ) :
    l.foldl (fun acc x => acc.bind fun b => f x b) (none : Option β) = none := by
  induction l with
  | nil => rfl
  | cons x xs ih => simpa using ih

/-- C251 is violated for one correlation: the last visibility is written behind the end of the data. -/
theorem data_one (d : Dec α K) (scale : K) (nbl nch bits : Nat) (arr : List (K × K)) (m rest : List α)
    (hbl : 0 < nbl) (hch : 0 < nch) (hb : bits = 16 ∨ bits = 32) (ha : arr.length = nbl * nch)
    (hm : m.length = 2 * (nbl * nch * 1) * wordSize bits) :
    receiveData d scale 1 (nbl * nch) bits arr (m ++ rest) = .error .ub := by
  have hpix : 0 < nbl * nch := Nat.mul_pos hbl hch
  have hw : ∀ f : Nat → K × K, writeAll 1 (nbl * nch) f arr = none := by
    intro f
    obtain ⟨k, hk⟩ : ∃ k, nbl * nch = k + 1 := ⟨nbl * nch - 1, by omega⟩
    have hc : correlations 1 = [0, 1] := rfl
    obtain ⟨l, e1, e2, _⟩ := writeAll_spec 1 f k arr (by
      intro p hp o ho
      rw [hc] at ho
      simp only [List.mem_cons, List.not_mem_nil, or_false] at ho
      omega)
    unfold writeAll at e1 ⊢
    rw [hk, List.range_succ, List.foldl_append, e1]
    simp only [List.foldl_cons, List.foldl_nil, Option.bind_some, writePixel, hc]
    rw [if_pos (show k * 1 + 0 < l.length by omega)]
    simp only [Option.bind_some, List.length_set]
    rw [if_neg (show ¬ k * 1 + 1 < l.length by omega)]
  rcases hb with rfl | rfl
  · simp only [wordSize, if_true, reduceIte] at hm
    simp only [receiveData, if_true, reduceIte, receive_append m rest _ hm (by omega), hw]
  · simp only [wordSize, if_neg (show ¬ (32 : Nat) = 16 by omega)] at hm
    simp only [receiveData, if_neg (show ¬ (32 : Nat) = 16 by omega), if_true, reduceIte, receive_append m rest _ hm (by omega), hw]

/-- C251 is violated for other numbers of bits (in builds without assertions): nothing is received and the buffer keeps its contents. -/
theorem data_other_bits (d : Dec α K) (scale : K) (ncr pixels bits : Nat) (arr : List (K × K)) (s : List α)
    (h16 : bits ≠ 16) (h32 : bits ≠ 32) : receiveData d scale ncr pixels bits arr s = .ok (arr, s) := by
  simp only [receiveData, if_neg h16, if_neg h32]

/-- C251: data that are not complete are refused. -/
theorem data_incomplete (d : Dec α K) (scale : K) (ncr pixels bits : Nat) (arr : List (K × K)) (s : List α)
    (hb : bits = 16 ∨ bits = 32) (hs : s.length < 2 * (pixels * ncr) * wordSize bits) :
    receiveData d scale ncr pixels bits arr s = .error .refused := by
  rcases hb with rfl | rfl
  · simp only [wordSize, if_true, reduceIte] at hs
    have hr : receive (2 * (pixels * ncr) * 2) s = (none, []) := by
      simp only [receive, if_neg (show 2 * (pixels * ncr) * 2 ≠ 0 by omega), if_neg (Nat.not_le.2 hs)]
    simp only [receiveData, if_true, reduceIte, hr]
  · simp only [wordSize, if_neg (show ¬ (32 : Nat) = 16 by omega)] at hs
    have hr : receive (2 * (pixels * ncr) * 4) s = (none, []) := by
      simp only [receive, if_neg (show 2 * (pixels * ncr) * 4 ≠ 0 by omega), if_neg (Nat.not_le.2 hs)]
    simp only [receiveData, if_neg (show ¬ (32 : Nat) = 16 by omega), if_true, reduceIte, hr]

end Data

/-! Examples: every element of a list stands for a byte, and an item is decoded as its first byte. -/

/-- A decoder for the examples: the first byte, or the first of each two or four bytes. -/
def exDec : Dec Int ℚ where
  int l := l.headD 0
  size l := (l.headD 0).toNat
  double l := (l.headD 0 : Int)
  doubles l := ((List.range (l.length / 8)).map fun (i : Nat) => ((l.getD (8 * i) 0 : Int) : ℚ))
  text l := String.ofList (l.map fun i => Char.ofNat i.toNat)
  ints16 l := (List.range (l.length / 2)).map fun (i : Nat) => l.getD (2 * i) 0
  ints32 l := (List.range (l.length / 4)).map fun (i : Nat) => l.getD (4 * i) 0

/-- An item for the examples. -/
def exItem (n : Nat) (v : Int) : List Int := v :: List.replicate (n - 1) 0

/-- The sent flag is one, the flags of the buffer are false, and the values are divided by two. -/
example :
    (match processAlma exDec 2 2 1 [(9, 9), (9, 9)]
        (almaMessage (exItem 8 5) (exItem 8 3) (exItem 8 1) (exItem 8 8) (exItem 4 16) (exItem 4 1)
          (exItem 2 4 ++ exItem 2 6 ++ exItem 2 (-2) ++ exItem 2 8 ++ [7])) with
      | .ok b rest => decide (b.time = 5 ∧ b.exposure = 3 ∧ b.data = [(2, 3), (-1, 4)] ∧ b.flags = [false, false] ∧ rest = [7])
      | _ => false) = true := by decide +kernel

end DP3.SvpInput
