import Verif.SvpInput.Props
import Mathlib.Algebra.BigOperators.Group.List.Basic
import Mathlib.Data.List.Basic

/-! Properties of the meta data, the end of the stream and the baselines of the input from a socket, steps/SVPInput.cc. -/

namespace DP3.SvpInput
set_option linter.unusedSimpArgs false
set_option linter.unusedSectionVars false

/-! ## C252: meta data -/

section Meta
variable {α K : Type}

/-- The messages of the meta data, in the order of steps/SVPInput.cc:242-323. A text has a length and characters. -/
structure Parts (α : Type) where
  telescope : List α × List α
  channels : List α
  antennas : List α
  polarizations : List α
  scale : List α
  start : List α
  interval : List α
  times : List α
  source : List α × List α
  ra : List α
  dec : List α
  frame : List α × List α
  positions : List α
  diameters : List α
  frequencies : List α
  widths : List α

/-- All bytes, followed by `rest`. -/
def Parts.bytes (p : Parts α) (rest : List α) : List α :=
  p.telescope.1 ++ (p.telescope.2 ++ (p.channels ++ (p.antennas ++ (p.polarizations ++ (p.scale ++ (p.start ++ (p.interval ++
  (p.times ++ (p.source.1 ++ (p.source.2 ++ (p.ra ++ (p.dec ++ (p.frame.1 ++ (p.frame.2 ++ (p.positions ++ (p.diameters ++
  (p.frequencies ++ (p.widths ++ rest))))))))))))))))))

/-- A text that is sent properly: the length is that of the characters. -/
def TextOk (d : Dec α K) (t : List α × List α) : Prop := t.1.length = 4 ∧ d.int t.1 = (t.2.length : Int)

/-- The text, or nothing when there are no characters. -/
def textOf (d : Dec α K) (t : List α × List α) : Option String := if t.2.length = 0 then none else some (d.text t.2)

/-- Meta data that are sent properly, of an observation with at least one channel and antenna. -/
structure Parts.Ok (d : Dec α K) (p : Parts α) : Prop where
  telescope : TextOk d p.telescope
  channels : p.channels.length = 8
  antennas : p.antennas.length = 8
  polarizations : p.polarizations.length = 4
  scale : p.scale.length = 8
  start : p.start.length = 8
  interval : p.interval.length = 8
  times : p.times.length = 8
  source : TextOk d p.source
  ra : p.ra.length = 8
  dec : p.dec.length = 8
  frame : TextOk d p.frame
  positions : p.positions.length = 3 * d.size p.antennas * 8
  diameters : p.diameters.length = d.size p.antennas * 8
  frequencies : p.frequencies.length = d.size p.channels * 8
  widths : p.widths.length = d.size p.channels * 8
  someChannels : d.size p.channels ≠ 0
  someAntennas : d.size p.antennas ≠ 0

/-- The meta data that the messages stand for. -/
def Parts.value (d : Dec α K) (p : Parts α) (t : Telescope) : Meta K where
  telescope := t
  channels := d.size p.channels
  antennas := d.size p.antennas
  polarizations := d.int p.polarizations
  scale := d.double p.scale
  startTime := d.double p.start
  interval := d.double p.interval
  times := d.size p.times
  sourceName := (textOf d p.source).getD "TEST"
  ra := d.double p.ra
  dec := d.double p.dec
  frameName := (textOf d p.frame).getD "J2000"
  positions := d.doubles p.positions
  diameters := d.doubles p.diameters
  frequencies := d.doubles p.frequencies
  widths := d.doubles p.widths

theorem receiveText_append (d : Dec α K) (t : List α × List α) (h : TextOk d t) (s : List α) :
    receiveText d (t.1 ++ (t.2 ++ s)) = .ok (textOf d t, s) := by
  obtain ⟨h1, h2⟩ := h
  simp only [receiveText, receive_append t.1 _ 4 h1 (by omega), Option.map_some, Option.getD_some, h2]
  by_cases h0 : t.2.length = 0
  · have : t.2 = [] := List.length_eq_zero_iff.1 h0
    simp [textOf, this]
  · rw [if_neg (by omega), if_neg (by omega)]
    simp only [Int.toNat_natCast, receive_append t.2 s _ rfl h0, Option.map_some, Option.getD_some, textOf, if_neg h0]

/-- C252: meta data that are sent properly are received as they were sent, and nothing behind them is taken from the stream. -/
theorem meta_received (d : Dec α K) (zero one : K) (p : Parts α) (hp : p.Ok d) (t : Telescope)
    (ht : telescopeOf (textOf d p.telescope) = .ok t) (rest : List α) :
    initializeInfo d zero one (p.bytes rest) = .ok (p.value d t, rest) := by
  have e : receiveMeta d zero one (p.bytes rest) = .ok (p.value d t, rest) := by
    have hc := hp.someChannels
    have ha := hp.someAntennas
    simp only [receiveMeta, Parts.bytes, receiveText_append d _ hp.telescope, ht, receiveText_append d _ hp.source,
      receiveText_append d _ hp.frame, receive_append _ _ 8 hp.channels (by omega), receive_append _ _ 8 hp.antennas (by omega),
      receive_append _ _ 4 hp.polarizations (by omega), receive_append _ _ 8 hp.scale (by omega),
      receive_append _ _ 8 hp.start (by omega), receive_append _ _ 8 hp.interval (by omega),
      receive_append _ _ 8 hp.times (by omega), receive_append _ _ 8 hp.ra (by omega), receive_append _ _ 8 hp.dec (by omega),
      receive_append _ _ _ hp.positions (by omega), receive_append _ _ _ hp.diameters (by omega),
      receive_append _ _ _ hp.frequencies (by omega), receive_append _ _ _ hp.widths (by omega), bind, Except.bind,
      Option.map_some, Option.getD_some]
    rfl
  simp only [initializeInfo, e, bind, Except.bind]
  rw [if_neg]
  exact hp.someAntennas

theorem receive_nil (n : Nat) : receive n ([] : List α) = (none, []) := by
  by_cases h : n = 0 <;> simp [receive, h]

/-- When something is left after a message that is not empty, the message was received. -/
theorem receive_left {n : Nat} {s s' : List α} {r : Option (List α)} (h : receive n s = (r, s')) (h0 : n ≠ 0) (hs : s' ≠ []) :
    ∃ m, r = some m ∧ m.length = n ∧ s = m ++ s' := by
  unfold receive at h
  rw [if_neg h0] at h
  by_cases hl : n ≤ s.length
  · rw [if_pos hl] at h
    cases h
    exact ⟨_, rfl, by simp [hl], by simp⟩
  · rw [if_neg hl] at h
    cases h
    exact absurd rfl hs

theorem receive_some {n : Nat} {s s' m : List α} (h : receive n s = (some m, s')) : m.length = n ∧ s = m ++ s' ∧ n ≠ 0 := by
  unfold receive at h
  by_cases h0 : n = 0
  · rw [if_pos h0] at h; cases h
  · rw [if_neg h0] at h
    by_cases hl : n ≤ s.length
    · rw [if_pos hl] at h
      cases h
      exact ⟨by simp [hl], by simp, h0⟩
    · rw [if_neg hl] at h; cases h

theorem receiveText_left {d : Dec α K} {s s' : List α} {r : Option String} (h : receiveText d s = .ok (r, s')) (hs : s' ≠ []) :
    ∃ t, TextOk d t ∧ r = textOf d t ∧ s = t.1 ++ (t.2 ++ s') := by
  unfold receiveText at h
  generalize hq : receive 4 s = q at h
  obtain ⟨n, s1⟩ := q
  dsimp only at h
  by_cases h0 : (n.map d.int).getD 0 = 0
  · rw [if_pos h0] at h
    cases h
    obtain ⟨m, rfl, hm, rfl⟩ := receive_left hq (by omega) hs
    simp only [Option.map_some, Option.getD_some] at h0
    exact ⟨(m, []), ⟨hm, by simpa using h0⟩, by simp [textOf], by simp⟩
  · rw [if_neg h0] at h
    by_cases h1 : (n.map d.int).getD 0 < 0
    · rw [if_pos h1] at h; cases h
    · rw [if_neg h1] at h
      generalize hq2 : receive ((n.map d.int).getD 0).toNat s1 = q at h
      obtain ⟨tx, s2⟩ := q
      simp only [Except.ok.injEq, Prod.mk.injEq] at h
      obtain ⟨rfl, rfl⟩ := h
      obtain ⟨x, rfl, hx, rfl⟩ := receive_left hq2 (by omega) hs
      have hne : x ++ s2 ≠ [] := by simp [hs]
      obtain ⟨m, rfl, hm, rfl⟩ := receive_left hq (by omega) hne
      simp only [Option.map_some, Option.getD_some] at h0 h1 hx
      refine ⟨(m, x), ⟨hm, ?_⟩, ?_, rfl⟩
      · dsimp only; omega
      · dsimp only [textOf]
        rw [if_neg (by omega)]
        rfl

theorem append_ne_nil {m s : List α} (h : s ≠ []) : m ++ s ≠ [] := by simp [h]

/-- C252: only complete meta data are accepted. -/
theorem meta_accepted (d : Dec α K) (zero one : K) (s rest : List α) (v : Meta K)
    (h : initializeInfo d zero one s = .ok (v, rest)) :
    ∃ p : Parts α, p.Ok d ∧ s = p.bytes rest ∧ telescopeOf (textOf d p.telescope) = .ok v.telescope ∧ v = p.value d v.telescope := by
  have hm : receiveMeta d zero one s = .ok (v, rest) ∧ v.antennas ≠ 0 := by
    simp only [initializeInfo, bind, Except.bind] at h
    cases hr : receiveMeta d zero one s with
    | error e => rw [hr] at h; cases h
    | ok q =>
      rw [hr] at h
      by_cases ha : q.1.antennas = 0
      · simp only [ha, if_pos rfl] at h; cases h
      · simp only [ha, if_false] at h
        cases h
        exact ⟨rfl, ha⟩
  obtain ⟨hm, hant⟩ := hm
  clear h
  simp only [receiveMeta, bind, Except.bind] at hm
  cases hT : receiveText d s with
  | error e => rw [hT] at hm; cases hm
  | ok q =>
  obtain ⟨name, s1⟩ := q
  rw [hT] at hm
  dsimp only at hm
  cases hTel : telescopeOf name with
  | error e => rw [hTel] at hm; cases hm
  | ok tel =>
  rw [hTel] at hm
  dsimp only at hm
  generalize h2 : receive 8 s1 = q at hm
  obtain ⟨chans, s2⟩ := q
  dsimp only at hm
  generalize h3 : receive 8 s2 = q at hm
  obtain ⟨ants, s3⟩ := q
  dsimp only at hm
  generalize h4 : receive 4 s3 = q at hm
  obtain ⟨pols, s4⟩ := q
  dsimp only at hm
  generalize h5 : receive 8 s4 = q at hm
  obtain ⟨scale, s5⟩ := q
  dsimp only at hm
  generalize h6 : receive 8 s5 = q at hm
  obtain ⟨start, s6⟩ := q
  dsimp only at hm
  generalize h7 : receive 8 s6 = q at hm
  obtain ⟨interval, s7⟩ := q
  dsimp only at hm
  generalize h8 : receive 8 s7 = q at hm
  obtain ⟨times, s8⟩ := q
  dsimp only at hm
  cases hS : receiveText d s8 with
  | error e => rw [hS] at hm; cases hm
  | ok q =>
  obtain ⟨source, s9⟩ := q
  rw [hS] at hm
  dsimp only at hm
  generalize h10 : receive 8 s9 = q at hm
  obtain ⟨ra, s10⟩ := q
  dsimp only at hm
  generalize h11 : receive 8 s10 = q at hm
  obtain ⟨dec, s11⟩ := q
  dsimp only at hm
  cases hF : receiveText d s11 with
  | error e => rw [hF] at hm; cases hm
  | ok q =>
  obtain ⟨frame, s12⟩ := q
  rw [hF] at hm
  dsimp only at hm
  cases chans with
  | none => cases hm
  | some c =>
  cases ants with
  | none => cases hm
  | some a =>
  dsimp only at hm
  generalize h13 : receive (3 * d.size a * 8) s12 = q at hm
  obtain ⟨pos, s13⟩ := q
  dsimp only at hm
  generalize h14 : receive (d.size a * 8) s13 = q at hm
  obtain ⟨diam, s14⟩ := q
  dsimp only at hm
  generalize h15 : receive (d.size c * 8) s14 = q at hm
  obtain ⟨freqs, s15⟩ := q
  dsimp only at hm
  generalize h16 : receive (d.size c * 8) s15 = q at hm
  obtain ⟨widths, s16⟩ := q
  dsimp only at hm
  cases widths with
  | none => cases hm
  | some w =>
  cases hm
  dsimp only at hant
  obtain ⟨l16, rfl, z16⟩ := receive_some h16
  have n15 : w ++ rest ≠ [] := by
    intro hnil
    have := congrArg List.length hnil
    simp only [List.length_append, List.length_nil] at this
    omega
  obtain ⟨m15, rfl, l15, rfl⟩ := receive_left h15 z16 n15
  have n14 := append_ne_nil (m := m15) n15
  obtain ⟨m14, rfl, l14, rfl⟩ := receive_left h14 (by omega) n14
  have n13 := append_ne_nil (m := m14) n14
  obtain ⟨m13, rfl, l13, rfl⟩ := receive_left h13 (by omega) n13
  have n12 := append_ne_nil (m := m13) n13
  obtain ⟨tf, okf, rfl, rfl⟩ := receiveText_left hF n12
  have n11 := append_ne_nil (m := tf.1) (append_ne_nil (m := tf.2) n12)
  obtain ⟨m11, rfl, l11, rfl⟩ := receive_left h11 (by omega) n11
  have n10 := append_ne_nil (m := m11) n11
  obtain ⟨m10, rfl, l10, rfl⟩ := receive_left h10 (by omega) n10
  have n9 := append_ne_nil (m := m10) n10
  obtain ⟨ts, oks, rfl, rfl⟩ := receiveText_left hS n9
  have n8 := append_ne_nil (m := ts.1) (append_ne_nil (m := ts.2) n9)
  obtain ⟨m8, rfl, l8, rfl⟩ := receive_left h8 (by omega) n8
  have n7 := append_ne_nil (m := m8) n8
  obtain ⟨m7, rfl, l7, rfl⟩ := receive_left h7 (by omega) n7
  have n6 := append_ne_nil (m := m7) n7
  obtain ⟨m6, rfl, l6, rfl⟩ := receive_left h6 (by omega) n6
  have n5 := append_ne_nil (m := m6) n6
  obtain ⟨m5, rfl, l5, rfl⟩ := receive_left h5 (by omega) n5
  have n4 := append_ne_nil (m := m5) n5
  obtain ⟨m4, rfl, l4, rfl⟩ := receive_left h4 (by omega) n4
  obtain ⟨l3, rfl, _⟩ := receive_some h3
  obtain ⟨l2, rfl, _⟩ := receive_some h2
  have n1 := append_ne_nil (m := c) (append_ne_nil (m := a) (append_ne_nil (m := m4) n4))
  obtain ⟨tt, okt, rfl, rfl⟩ := receiveText_left hT n1
  refine ⟨⟨tt, c, a, m4, m5, m6, m7, m8, ts, m10, m11, tf, m13, m14, m15, w⟩, ?_, ?_, hTel, ?_⟩
  · exact ⟨okt, l2, l3, l4, l5, l6, l7, l8, oks, l10, l11, okf, l13, l14, l15, l16, by dsimp only; omega, hant⟩
  · rfl
  · rfl

theorem bytes_append (p : Parts α) (rest : List α) : p.bytes rest = p.bytes [] ++ rest := by
  simp [Parts.bytes, List.append_assoc]

/-- C252: meta data of which the end is missing are never accepted. -/
theorem meta_truncated (d : Dec α K) (zero one : K) (p : Parts α) (hp : p.Ok d) (t : Telescope)
    (ht : telescopeOf (textOf d p.telescope) = .ok t) (s tail : List α) (hs : p.bytes [] = s ++ tail) (hne : tail ≠ [])
    (r : Meta K × List α) : initializeInfo d zero one s ≠ .ok r := by
  intro h
  obtain ⟨v, rest⟩ := r
  obtain ⟨q, hq, rfl, hqt, -⟩ := meta_accepted d zero one s rest v h
  have e1 := meta_received d zero one p hp t ht []
  have e2 := meta_received d zero one q hq _ hqt (rest ++ tail)
  have e3 : p.bytes [] = q.bytes (rest ++ tail) := by
    rw [hs, bytes_append q rest, bytes_append q (rest ++ tail), List.append_assoc]
  rw [e3, e2] at e1
  have e4 := congrArg Prod.snd (Except.ok.inj e1)
  simp only [List.append_eq_nil_iff] at e4
  exact hne e4.2

theorem receiveText_nil (d : Dec α K) : receiveText d [] = .ok (none, []) := by
  simp only [receiveText, receive_nil, Option.map_none, Option.getD_none, if_true, reduceIte]

/-- C252 is violated: a stream that ends before the number of antennas is not refused, an indeterminate number is used. -/
theorem meta_empty_ub (d : Dec α K) (zero one : K) : initializeInfo d zero one [] = .error .ub := by
  simp only [initializeInfo, receiveMeta, receiveText_nil, receive_nil, telescopeOf, bind, Except.bind]

/-- C252 is violated: when the stream ends after the telescope name or in the number of channels or antennas, the number of antennas is
indeterminate. -/
theorem meta_short_ub (d : Dec α K) (zero one : K) (name : List α × List α) (hn : TextOk d name) (t : Telescope)
    (ht : telescopeOf (textOf d name) = .ok t) (s : List α) (hs : s.length < 16) :
    initializeInfo d zero one (name.1 ++ (name.2 ++ s)) = .error .ub := by
  have h3 : ∃ r, receive 8 (receive 8 s).2 = (none, r) ∧ receive 4 r = (none, []) ∧ receive 8 r = (none, []) ∧ r = [] := by
    refine ⟨[], ?_, receive_nil _, receive_nil _, rfl⟩
    by_cases h8 : 8 ≤ s.length
    · have : receive 8 s = (some (s.take 8), s.drop 8) := by simp [receive, h8]
      rw [this]
      have hl : ¬ 8 ≤ (s.drop 8).length := by rw [List.length_drop]; omega
      simp only [receive, if_neg hl]
      rfl
    · have : receive 8 s = (none, []) := by simp [receive, h8]
      rw [this]
      exact receive_nil _
  obtain ⟨r, e1, e2, e3, rfl⟩ := h3
  simp only [initializeInfo, receiveMeta, receiveText_append d name hn, ht, bind, Except.bind]
  generalize hq : receive 8 s = q at *
  obtain ⟨c, s2⟩ := q
  simp only at e1
  simp only [e1, receive_nil, receiveText_nil]

end Meta

/-! ## C253: the end of the stream -/

section Run
variable {α K : Type} [Field K]

/-- The buffer of a block of LOFAR with number `i`. -/
def lofarBuf (values : List α → List (K × K)) (m : Meta K) (n i : Nat) (block : List α) : Buf K :=
  ⟨m.startTime + (i : K) * m.interval, m.interval, values block, List.replicate n false, List.replicate n 1⟩

theorem processLofar_block (values : List α → List (K × K)) (m : Meta K) (n i : Nat) (block s : List α) (hn : n ≠ 0)
    (hb : block.length = 8 * n) : processLofar values m n i (block ++ s) = .ok (lofarBuf values m n i block) s := by
  simp only [processLofar, receive_append block s (2 * n * 4) (by omega) (by omega), lofarBuf]

theorem processLofar_end (values : List α → List (K × K)) (m : Meta K) (n i : Nat) (s : List α) (hs : s.length < 8 * n) :
    processLofar values m n i s = if m.times ≤ i then .stop else .throws := by
  have : receive (2 * n * 4) s = (none, []) := by
    simp only [receive, if_neg (show 2 * n * 4 ≠ 0 by omega), if_neg (show ¬ 2 * n * 4 ≤ s.length by omega)]
  simp only [processLofar, this]

theorem run_lofar (values : List α → List (K × K)) (m : Meta K) (n : Nat) (hn : n ≠ 0) (blocks : List (List α)) (tail : List α)
    (hb : ∀ b ∈ blocks, b.length = 8 * n) (ht : tail.length < 8 * n) (fuel i : Nat) (hf : blocks.length < fuel) :
    run (processLofar values m n) fuel i (blocks.flatten ++ tail) =
      (blocks.mapIdx (fun j b => lofarBuf values m n (i + j) b),
        if m.times ≤ i + blocks.length then .finished else .throws) := by
  induction blocks generalizing fuel i with
  | nil =>
    obtain ⟨k, rfl⟩ : ∃ k, fuel = k + 1 := ⟨fuel - 1, by simp at hf; omega⟩
    simp only [run, List.flatten_nil, List.nil_append, processLofar_end values m n i tail ht, List.mapIdx_nil, List.length_nil,
      Nat.add_zero]
    by_cases h : m.times ≤ i
    · simp only [if_pos h]
    · simp only [if_neg h]
  | cons b bs ih =>
    obtain ⟨k, rfl⟩ : ∃ k, fuel = k + 1 := ⟨fuel - 1, by simp at hf; omega⟩
    simp only [run, List.flatten_cons, List.append_assoc, processLofar_block values m n i b _ hn (hb b (by simp))]
    rw [ih (fun x hx => hb x (by simp [hx])) k (i + 1) (by simp at hf; omega)]
    simp only [List.mapIdx_cons, List.length_cons, Nat.add_zero]
    have e : i + 1 + bs.length = i + (bs.length + 1) := by omega
    rw [e]
    have f : (fun j b => lofarBuf values m n (i + 1 + j) b) = fun j b => lofarBuf values m n (i + (j + 1)) b := by
      funext j b; congr 1; omega
    rw [f]

/-- C253 for LOFAR: of a stream of blocks all are sent on, at the times that belong to them, and the run ends without an exception if and
only if there are at least as many as announced. -/
theorem lofar_stream (d : Dec α K) (values : List α → List (K × K)) (m : Meta K) (ncr pixels : Nat) (arr : List (K × K))
    (hm : m.telescope = .lofar) (hn : pixels * ncr ≠ 0) (blocks : List (List α)) (tail : List α)
    (hb : ∀ b ∈ blocks, b.length = 8 * (pixels * ncr)) (ht : tail.length < 8 * (pixels * ncr)) (fuel : Nat)
    (hf : blocks.length < fuel) :
    let r := run (fun i s => process d values m ncr pixels i arr s) fuel 0 (blocks.flatten ++ tail)
    r.1.length = blocks.length ∧
    (∀ (i : Nat) b, blocks[i]? = some b → ∃ x, r.1[i]? = some x ∧ x.data = values b ∧
      x.time = m.startTime + (i : K) * m.interval ∧ x.exposure = m.interval) ∧
    (r.2 = .finished ↔ m.times ≤ blocks.length) ∧ (r.2 = .throws ↔ blocks.length < m.times) := by
  have e : (fun i s => process d values m ncr pixels i arr s) = processLofar values m (pixels * ncr) := by
    funext i s
    simp only [process, hm]
  intro r
  have hr : r = (blocks.mapIdx (fun j b => lofarBuf values m (pixels * ncr) (0 + j) b),
      if m.times ≤ 0 + blocks.length then .finished else .throws) := by
    rw [← run_lofar values m (pixels * ncr) hn blocks tail hb ht fuel 0 hf, ← e]
  rw [hr]
  refine ⟨by simp, ?_, ?_, ?_⟩
  · intro i b hi
    refine ⟨lofarBuf values m (pixels * ncr) (0 + i) b, by simp [hi], rfl, by simp [lofarBuf], rfl⟩
  · by_cases h : m.times ≤ blocks.length <;> simp [h]
  · by_cases h : m.times ≤ blocks.length
    · simp [h]
    · simp [h]; omega

/-- C253 is violated for ALMA: a stream that ends in a header, however few time slots there were, ends the run without an exception. -/
theorem alma_short_silent (d : Dec α K) (values : List α → List (K × K)) (m : Meta K) (ncr pixels counter : Nat) (arr : List (K × K))
    (hm : m.telescope = .alma) (s : List α) (hs : s.length < 36) (fuel : Nat) :
    run (fun i s => process d values m ncr pixels i arr s) (fuel + 1) counter s = ([], .finished) := by
  have key : ∀ (n k : Nat) (x : List α), n ≠ 0 → x.length < n + k → k ≠ 0 → (receive n x).2.length < k := by
    intro n k x h0 hx hk
    unfold receive
    rw [if_neg h0]
    by_cases hl : n ≤ x.length
    · rw [if_pos hl]; simp only [List.length_drop]; omega
    · rw [if_neg hl]; simp only [List.length_nil]; omega
  have h1 := key 8 28 s (by omega) hs (by omega)
  have h2 := key 8 20 _ (by omega) h1 (by omega)
  have h3 := key 8 12 _ (by omega) h2 (by omega)
  have h4 := key 8 4 _ (by omega) h3 (by omega)
  have h5 : ∀ x : List α, x.length < 4 → receive 4 x = (none, []) := by
    intro x hx
    simp only [receive, if_neg (show ¬ 4 ≤ x.length by omega)]
    rfl
  simp only [run, process, hm, processAlma, h5 _ h4]

/-- C253 is violated for AARTFAAC: the meta data are accepted, but the first call of `process` throws. -/
theorem aartfaac_throws (d : Dec α K) (values : List α → List (K × K)) (m : Meta K) (ncr pixels : Nat) (arr : List (K × K))
    (hm : m.telescope = .aartfaac) (s : List α) (fuel : Nat) :
    telescopeOf (some "AARTFAAC") = .ok .aartfaac ∧
    run (fun i s => process d values m ncr pixels i arr s) (fuel + 1) 0 s = ([], .throws) := by
  refine ⟨rfl, ?_⟩
  simp only [run, process, hm]

end Run

/-! ## C254: baselines -/

theorem mem_baselines_alma (n a b : Nat) : (a, b) ∈ baselines .alma n ↔ a < b ∧ b < n := by
  simp only [baselines, if_true, reduceIte, List.mem_flatMap, List.mem_range, List.mem_map, Prod.mk.injEq]
  constructor
  · rintro ⟨x, hx, y, hy, rfl, rfl⟩; exact ⟨hy, hx⟩
  · rintro ⟨h1, h2⟩; exact ⟨b, h2, a, h1, rfl, rfl⟩

theorem mem_baselines_other (t : Telescope) (ht : t ≠ .alma) (n a b : Nat) : (a, b) ∈ baselines t n ↔ b ≤ a ∧ a < n := by
  simp only [baselines, if_neg ht, List.mem_flatMap, List.mem_range, List.mem_map, Prod.mk.injEq]
  constructor
  · rintro ⟨x, hx, y, hy, rfl, rfl⟩; exact ⟨by omega, hx⟩
  · rintro ⟨h1, h2⟩; exact ⟨a, h2, b, by omega, rfl, rfl⟩

theorem baselines_succ (t : Telescope) (n : Nat) :
    baselines t (n + 1) = baselines t n ++
      (if t = .alma then (List.range n).map fun (i : Nat) => (i, n) else (List.range (n + 1)).map fun (i : Nat) => (n, i)) := by
  unfold baselines
  by_cases h : t = .alma
  · simp only [if_pos h, List.range_succ, List.flatMap_append, List.flatMap_cons, List.flatMap_nil, List.append_nil]
  · simp only [if_neg h, List.range_succ (n := n), List.flatMap_append, List.flatMap_cons, List.flatMap_nil, List.append_nil]

theorem baselines_length_mul (t : Telescope) (n : Nat) :
    2 * (baselines t n).length = if t = .alma then n * (n - 1) else n * (n + 1) := by
  induction n with
  | zero => by_cases h : t = .alma <;> simp [baselines, h]
  | succ n ih =>
    rw [baselines_succ, List.length_append, Nat.mul_add, ih]
    by_cases h : t = .alma
    · simp only [if_pos h, List.length_map, List.length_range]
      cases n with
      | zero => rfl
      | succ k => simp only [Nat.add_sub_cancel]; ring
    · simp only [if_neg h, List.length_map, List.length_range]; ring

/-- C254: the vectors of antennas are filled completely, and no element behind their end is written. -/
theorem baselines_length (t : Telescope) (n : Nat) : (baselines t n).length = nBaselines t n := by
  have h := baselines_length_mul t n
  unfold nBaselines
  by_cases ht : t = .alma
  · rw [if_pos ht] at h ⊢; omega
  · rw [if_neg ht] at h ⊢; omega

theorem baselines_nodup (t : Telescope) (n : Nat) : (baselines t n).Nodup := by
  induction n with
  | zero => by_cases h : t = .alma <;> simp [baselines, h]
  | succ n ih =>
    rw [baselines_succ]
    by_cases h : t = .alma
    · subst h
      rw [if_pos rfl]
      refine List.Nodup.append ih (List.Nodup.map (fun a b hab => (Prod.mk.inj hab).1) List.nodup_range) ?_
      rintro ⟨a, b⟩ h1 h2
      have := (mem_baselines_alma n a b).1 h1
      simp only [List.mem_map, List.mem_range, Prod.mk.injEq] at h2
      omega
    · rw [if_neg h]
      refine List.Nodup.append ih (List.Nodup.map (fun a b hab => (Prod.mk.inj hab).2) List.nodup_range) ?_
      rintro ⟨a, b⟩ h1 h2
      have := (mem_baselines_other t h n a b).1 h1
      simp only [List.mem_map, List.mem_range, Prod.mk.injEq] at h2
      omega

/-- C254: every pair of different antennas is one baseline, in one order only; an antenna with itself is a baseline for telescopes other
than ALMA and for these only. -/
theorem baselines_complete (t : Telescope) (n a b : Nat) (ha : a < n) (hb : b < n) :
    (baselines t n).count (a, b) + (baselines t n).count (b, a) = if a = b then (if t = .alma then 0 else 2) else 1 := by
  have hc : ∀ x, (baselines t n).count x = if x ∈ baselines t n then 1 else 0 := by
    intro x
    by_cases hx : x ∈ baselines t n
    · rw [if_pos hx]; exact List.count_eq_one_of_mem (baselines_nodup t n) hx
    · rw [if_neg hx]; exact List.count_eq_zero_of_not_mem hx
  rw [hc, hc]
  by_cases ht : t = .alma
  · subst ht
    simp only [mem_baselines_alma]
    rcases Nat.lt_trichotomy a b with h | h | h
    · rw [if_pos ⟨h, hb⟩, if_neg (by omega), if_neg (by omega)]
    · subst h; simp
    · rw [if_neg (by omega), if_pos ⟨h, ha⟩, if_neg (by omega)]
  · simp only [mem_baselines_other t ht]
    rcases Nat.lt_trichotomy a b with h | h | h
    · rw [if_neg (by omega), if_pos ⟨by omega, hb⟩, if_neg (by omega)]
    · subst h; simp [ht, ha]
    · rw [if_pos ⟨by omega, ha⟩, if_neg (by omega), if_neg (by omega)]

/-- C254: where in the list a baseline is, so to which rows of the data it belongs. -/
theorem baseline_row (t : Telescope) (n a b : Nat) (hb : b < n) (hab : if t = .alma then a < b else a ≤ b) :
    (baselines t n)[(baselines t b).length + a]? = some (if t = .alma then (a, b) else (b, a)) := by
  induction n with
  | zero => omega
  | succ n ih =>
    rw [baselines_succ]
    rcases Nat.lt_succ_iff_lt_or_eq.1 hb with h | rfl
    · have hi := ih h
      have hl := (List.getElem?_eq_some_iff.1 hi).1
      rw [List.getElem?_append_left hl, hi]
    · rw [List.getElem?_append_right (by omega), Nat.add_sub_cancel_left]
      by_cases ht : t = .alma
      · rw [if_pos ht] at hab
        simp only [if_pos ht, List.getElem?_map, List.getElem?_range hab, Option.map_some]
      · rw [if_neg ht] at hab
        simp only [if_neg ht, List.getElem?_map, List.getElem?_range (show a < b + 1 by omega), Option.map_some]

example : baselines .alma 3 = [(0, 1), (0, 2), (1, 2)] ∧ baselines .lofar 2 = [(0, 0), (1, 0), (1, 1)] := by decide

/-! Examples. -/

/-- Meta data of ALMA with one channel and one antenna and no names. -/
def exParts : Parts Int :=
  ⟨(exItem 4 0, []), exItem 8 1, exItem 8 1, exItem 4 2, exItem 8 4, exItem 8 100, exItem 8 10, exItem 8 2, (exItem 4 1, [65]),
    exItem 8 7, exItem 8 8, (exItem 4 0, []), exItem 8 1 ++ exItem 8 2 ++ exItem 8 3, exItem 8 12, exItem 8 50, exItem 8 5⟩

example : exParts.Ok exDec := by
  constructor <;> first | decide | (constructor <;> decide)

example : telescopeOf (textOf exDec exParts.telescope) = .ok .alma := by
  have h : textOf exDec exParts.telescope = none := by decide
  rw [h]
  rfl

/-- Two announced time slots of LOFAR: with one block the run throws, with three all are sent on. -/
example : ∃ m : Meta ℚ, m.telescope = .lofar ∧ m.times = 2 ∧
    (run (fun i s => process exDec (fun _ => []) m 1 1 i [] s) 9 0 (List.replicate 8 (0 : Int))).2 = .throws ∧
    (run (fun i s => process exDec (fun _ => []) m 1 1 i [] s) 9 0 (List.replicate 24 (0 : Int))).1.map Buf.time = [100, 110, 120] :=
  ⟨{ exParts.value exDec .lofar with times := 2 }, rfl, rfl, by decide +kernel, by decide +kernel⟩

end DP3.SvpInput
