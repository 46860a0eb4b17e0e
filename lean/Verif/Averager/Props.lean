import Verif.Averager.Model
import Mathlib.Algebra.Field.Rat

/-! Properties C08 and C09 (Averager). -/

namespace DP3.Averager

variable {F D : Type} [Field F] [DecidableEq F] [AddCommGroup D] [Module F D]

/-! ### Specification -/

/-- All input samples of one output sample: the given input channels of all time
slots of the chunk. -/
def bin (chans : List Nat) (chunk : List (Slot F D)) (bl corr : Nat) : List (Sample F D) :=
  chans.flatMap fun ch => chunk.map fun s => s.sample bl ch corr

/-- Total weight of samples. -/
def totalWeight (l : List (Sample F D)) : F := (l.map Sample.weight).sum

/-- Weighted mean of samples (zero if the total weight is zero). -/
def weightedMean (l : List (Sample F D)) : D :=
  if totalWeight l = 0 then 0
  else (totalWeight l)⁻¹ • (l.map fun s => s.weight • s.data).sum

/-- The samples that are not flagged. -/
def unflagged (l : List (Sample F D)) : List (Sample F D) := l.filter fun s => !s.flag

/-- The `i`-th chunk of `n` consecutive elements. -/
def chunk {α : Type} (n i : Nat) (l : List α) : List α := (l.drop (i * n)).take n

/-! ### Proof of the time part -/

/-- What is accumulated for a non-empty chunk. -/
def accOf : List (Slot F D) → Option (Acc F D)
  | [] => none
  | s :: rest => some (rest.foldl addSlot (firstSlot s))

omit [DecidableEq F] in
private theorem accOf_snoc (l : List (Slot F D)) (s : Slot F D) :
    accOf (l ++ [s]) = some (match accOf l with
      | none => firstSlot s
      | some a => addSlot a s) := by
  cases l with
  | nil => rfl
  | cons x xs => simp [accOf]

omit [DecidableEq F] in
private theorem accOf_eq_none {l : List (Slot F D)} : accOf l = none ↔ l = [] := by
  cases l <;> simp [accOf]

/-- Output for a non-empty chunk. -/
def outOf (c : Config) (l : List (Slot F D)) : Slot F D :=
  average c l.length ((accOf l).getD ⟨fun _ _ => 0, fun _ _ _ => 0, fun _ _ _ => 0, fun _ _ _ => 0,
    fun _ _ _ => 0, fun _ _ _ => 0⟩)

/-- Outputs for a pending partial chunk and the rest of the stream. -/
private theorem run_pending (c : Config) (hno : c.noAvg = false) (hT : 0 < c.nTimeAvg)
    (pend rest : List (Slot F D)) (hp : pend.length < c.nTimeAvg) :
    run c ⟨pend.length, accOf pend⟩ rest =
      (List.range (((pend ++ rest).length + c.nTimeAvg - 1) / c.nTimeAvg)).map fun i =>
        outOf c (chunk c.nTimeAvg i (pend ++ rest)) := by
  induction rest generalizing pend with
  | nil =>
    simp only [run, finish, List.append_nil]
    cases hpe : pend with
    | nil =>
      simp [accOf]
      omega
    | cons x xs =>
      rw [← hpe]
      have hl : 0 < pend.length := by simp [hpe]
      have h1 : (pend.length + c.nTimeAvg - 1) / c.nTimeAvg = 1 := by
        apply Nat.div_eq_of_lt_le <;> omega
      have hacc : ∃ a, accOf pend = some a := by rw [hpe]; exact ⟨_, rfl⟩
      obtain ⟨a, ha⟩ := hacc
      rw [h1]
      simp only [ha, hl, if_true, List.range_one, List.map_cons, List.map_nil, outOf, chunk,
        Nat.zero_mul, List.drop_zero, List.take_of_length_le (Nat.le_of_lt hp), Option.getD_some]
  | cons s rest ih =>
    have hacc : accumulate ⟨pend.length, accOf pend⟩ s =
        (accOf (pend ++ [s])).getD ⟨fun _ _ => 0, fun _ _ _ => 0, fun _ _ _ => 0, fun _ _ _ => 0,
          fun _ _ _ => 0, fun _ _ _ => 0⟩ := by
      rw [accOf_snoc]
      unfold accumulate
      cases h : accOf pend with
      | none => rfl
      | some a =>
        have : pend ≠ [] := fun h0 => by simp [h0, accOf] at h
        have : pend.length ≠ 0 := by simpa using this
        simp [this]
    have hnext : accOf (pend ++ [s]) = some ((accOf (pend ++ [s])).getD ⟨fun _ _ => 0, fun _ _ _ => 0,
        fun _ _ _ => 0, fun _ _ _ => 0, fun _ _ _ => 0, fun _ _ _ => 0⟩) := by
      rw [accOf_snoc]; rfl
    simp only [run, process, hno, Bool.false_eq_true, if_false]
    rw [hacc]
    have happ : pend ++ s :: rest = (pend ++ [s]) ++ rest := by simp
    by_cases hfull : pend.length + 1 ≥ c.nTimeAvg
    · have hlen : (pend ++ [s]).length = c.nTimeAvg := by simp; omega
      simp only [hfull, if_true]
      have := ih [] (by simpa using hT)
      simp only [List.length_nil, accOf, List.nil_append] at this
      rw [this]
      have hcount : ((pend ++ s :: rest).length + c.nTimeAvg - 1) / c.nTimeAvg =
          (rest.length + c.nTimeAvg - 1) / c.nTimeAvg + 1 := by
        have : (pend ++ s :: rest).length + c.nTimeAvg - 1 =
            rest.length + c.nTimeAvg - 1 + c.nTimeAvg := by
          simp only [List.length_append, List.length_cons]; omega
        rw [this, Nat.add_div_right _ hT]
      rw [hcount, List.range_succ_eq_map, List.map_cons, List.map_map]
      simp only [List.singleton_append, List.cons.injEq]
      constructor
      · simp only [outOf, chunk, Nat.zero_mul, List.drop_zero]
        rw [happ, List.take_left' hlen]
        have : (pend ++ [s]).length = pend.length + 1 := by simp
        rw [this]
      · apply List.map_congr_left
        intro i _
        simp only [Function.comp, chunk]
        congr 2
        rw [happ]
        have : (i + 1) * c.nTimeAvg = (pend ++ [s]).length + i * c.nTimeAvg := by
          rw [hlen, Nat.add_mul]; omega
        rw [Nat.succ_eq_add_one, this, ← List.drop_drop, List.drop_left' rfl]
    · simp only [hfull, if_false, List.nil_append]
      have := ih (pend ++ [s]) (by simp; omega)
      rw [hnext] at this
      simp only [List.length_append, List.length_singleton] at this
      rw [this, happ]
      simp only [List.length_append, List.length_singleton]

/-! ### C09 -/

/-- C09: for N input slots and a time averaging factor T the step passes on
exactly ceil(N/T) buffers; the i-th one depends only on the slots iT up to
min((i+1)T, N), and is what the step passes on for that chunk alone. -/
theorem run_chunks (c : Config) (hno : c.noAvg = false) (hT : 0 < c.nTimeAvg)
    (slots : List (Slot F D)) :
    (run c State.init slots).length = (slots.length + c.nTimeAvg - 1) / c.nTimeAvg ∧
      ∀ i (hi : i < (run c State.init slots).length),
        run c State.init (chunk c.nTimeAvg i slots) = [(run c State.init slots)[i]] := by
  have hrun := fun l : List (Slot F D) => run_pending c hno hT [] l (by simpa using hT)
  simp only [List.length_nil, accOf, List.nil_append] at hrun
  have hlen : (run c State.init slots).length = (slots.length + c.nTimeAvg - 1) / c.nTimeAvg := by
    unfold State.init; rw [hrun]; simp
  refine ⟨hlen, ?_⟩
  intro i hi
  have hge : (run c State.init slots)[i] = outOf c (chunk c.nTimeAvg i slots) := by
    have : (run c State.init slots)[i]? = some (outOf c (chunk c.nTimeAvg i slots)) := by
      unfold State.init at hi ⊢
      rw [hrun] at hi ⊢
      simp only [List.length_map, List.length_range] at hi
      simp [hi]
    rw [List.getElem?_eq_getElem hi] at this
    exact Option.some.inj this
  rw [hge]
  have hil : i * c.nTimeAvg < slots.length := by
    rw [hlen] at hi
    have h := Nat.div_mul_le_self (slots.length + c.nTimeAvg - 1) c.nTimeAvg
    have h2 : (i + 1) * c.nTimeAvg ≤ (slots.length + c.nTimeAvg - 1) / c.nTimeAvg * c.nTimeAvg :=
      Nat.mul_le_mul_right _ hi
    rw [Nat.add_mul] at h2
    omega
  have hcl : 0 < (chunk c.nTimeAvg i slots).length ∧
      (chunk c.nTimeAvg i slots).length ≤ c.nTimeAvg := by
    simp only [chunk, List.length_take, List.length_drop]; omega
  unfold State.init
  rw [hrun]
  have : ((chunk c.nTimeAvg i slots).length + c.nTimeAvg - 1) / c.nTimeAvg = 1 := by
    apply Nat.div_eq_of_lt_le <;> omega
  rw [this]
  simp only [List.range_one, List.map_cons, List.map_nil, List.cons.injEq, and_true]
  congr 1
  simp only [chunk, Nat.zero_mul, List.drop_zero]
  rw [List.take_take, Nat.min_self]

/-- C09: without averaging all buffers are passed on unchanged. -/
theorem run_noAvg (c : Config) (h : c.noAvg = true) (slots : List (Slot F D)) :
    run c State.init slots = slots := by
  induction slots with
  | nil => simp [run, finish, State.init]
  | cons s rest ih => simp [run, process, h, ih]

/-! ### C08 -/

omit [Field F] [DecidableEq F] [AddCommGroup D] [Module F D] in
private theorem sum_map_filter {A : Type} [AddCommMonoid A] (l : List (Sample F D)) (f : Sample F D → A) :
    ((unflagged l).map f).sum = (l.map fun s => if s.flag then 0 else f s).sum := by
  induction l with
  | nil => rfl
  | cons x xs ih =>
    simp only [unflagged, List.filter_cons] at ih ⊢
    cases h : x.flag <;> simp [ih, h]

omit [Field F] [DecidableEq F] [AddCommGroup D] [Module F D] in
private theorem length_unflagged (l : List (Sample F D)) :
    (unflagged l).length = (l.map fun s => if s.flag then 0 else 1).sum := by
  have := sum_map_filter l (fun _ => (1 : Nat))
  rw [← this]; simp

/-- Values accumulated for a chunk. -/
private structure AccSpec (a : Acc F D) (l : List (Slot F D)) : Prop where
  uvw : ∀ bl i, a.uvw bl i = (l.map fun s => s.uvw bl i).sum
  data : ∀ bl ch co, a.data bl ch co = (l.map fun s => if (s.sample bl ch co).flag then 0
    else (s.sample bl ch co).weight • (s.sample bl ch co).data).sum
  weight : ∀ bl ch co, a.weight bl ch co = (l.map fun s => if (s.sample bl ch co).flag then 0
    else (s.sample bl ch co).weight).sum
  nPoints : ∀ bl ch co, a.nPoints bl ch co = (l.map fun s => if (s.sample bl ch co).flag then 0
    else 1).sum
  avgAll : ∀ bl ch co, a.avgAll bl ch co = (l.map fun s =>
    (s.sample bl ch co).weight • (s.sample bl ch co).data).sum
  weightAll : ∀ bl ch co, a.weightAll bl ch co = (l.map fun s => (s.sample bl ch co).weight).sum

omit [DecidableEq F] in
private theorem accSpec_first (s : Slot F D) : AccSpec (firstSlot s) [s] := by
  constructor <;> intros <;> simp [firstSlot]

omit [DecidableEq F] in
private theorem accSpec_add {a : Acc F D} {l : List (Slot F D)} (h : AccSpec a l) (s : Slot F D) :
    AccSpec (addSlot a s) (l ++ [s]) := by
  constructor
  · intro bl i; simp [addSlot, h.uvw]
  · intro bl ch co
    simp only [addSlot, List.map_append, List.sum_append, List.map_cons, List.map_nil,
      List.sum_singleton, h.data]
    split <;> simp
  · intro bl ch co
    simp only [addSlot, List.map_append, List.sum_append, List.map_cons, List.map_nil,
      List.sum_singleton, h.weight]
    split <;> simp
  · intro bl ch co
    simp only [addSlot, List.map_append, List.sum_append, List.map_cons, List.map_nil,
      List.sum_singleton, h.nPoints]
    split <;> simp
  · intro bl ch co; simp [addSlot, h.avgAll]
  · intro bl ch co; simp [addSlot, h.weightAll]

omit [DecidableEq F] in
private theorem accSpec_accOf {l : List (Slot F D)} {a : Acc F D} (h : accOf l = some a) :
    AccSpec a l := by
  cases l with
  | nil => simp [accOf] at h
  | cons s rest =>
    simp only [accOf, Option.some.injEq] at h
    subst h
    have : ∀ (rest : List (Slot F D)) (a : Acc F D) (l : List (Slot F D)), AccSpec a l →
        AccSpec (rest.foldl addSlot a) (l ++ rest) := by
      intro rest
      induction rest with
      | nil => intro a l h; simpa using h
      | cons x xs ih =>
        intro a l h
        have := ih _ _ (accSpec_add h x)
        simpa using this
    exact this rest _ _ (accSpec_first s)

omit [Field F] [DecidableEq F] [AddCommGroup D] [Module F D] in
private theorem sum_bin {A : Type} [AddCommMonoid A] (chans : List Nat) (l : List (Slot F D))
    (bl co : Nat) (f : Sample F D → A) :
    ((bin chans l bl co).map f).sum =
      (chans.map fun ch => (l.map fun s => f (s.sample bl ch co)).sum).sum := by
  induction chans with
  | nil => rfl
  | cons c cs ih =>
    simp only [bin, List.flatMap_cons, List.map_append, List.sum_append, List.map_cons,
      List.sum_cons] at ih ⊢
    rw [ih, List.map_map]
    rfl

omit [Field F] [DecidableEq F] [AddCommGroup D] [Module F D] in
private theorem length_bin (chans : List Nat) (l : List (Slot F D)) (bl co : Nat) :
    (bin chans l bl co).length = chans.length * l.length := by
  induction chans with
  | nil => simp [bin]
  | cons c cs ih =>
    simp only [bin, List.flatMap_cons, List.length_append, List.length_map, List.length_cons] at ih ⊢
    rw [ih, Nat.add_mul, Nat.one_mul, Nat.add_comm]

/-- The input channels of output channel `k`: the channels from `k * nChanAvg` up
to the smaller of `(k+1) * nChanAvg` and the number of channels. -/
def inputChannels (c : Config) (k : Nat) : List Nat :=
  (List.range c.nChanIn).filter fun ch => k * c.nChanAvg ≤ ch && ch < (k + 1) * c.nChanAvg

private theorem channels_eq (c : Config) (k : Nat) : c.channels k = inputChannels c k := by
  unfold Config.channels inputChannels
  have hk : (k + 1) * c.nChanAvg = k * c.nChanAvg + c.nChanAvg := by rw [Nat.add_mul]; omega
  simp only [hk]
  generalize k * c.nChanAvg = m
  generalize c.nChanAvg = q
  generalize c.nChanIn = n
  induction n with
  | zero => simp
  | succ n ih =>
    rw [List.range_succ, List.filter_append, ← ih]
    by_cases h1 : m ≤ n
    · by_cases h2 : n < m + q
      · have e1 : min q (n + 1 - m) = min q (n - m) + 1 := by omega
        have e2 : m + min q (n - m) = n := by omega
        rw [e1, List.range_succ]
        simp [h1, h2, e2]
      · have e1 : min q (n + 1 - m) = min q (n - m) := by omega
        rw [e1]
        simp [h2]
    · have e1 : n + 1 - m = 0 := by omega
      have e2 : n - m = 0 := by omega
      simp [e1, e2, h1]

/-- C08: every sample the step passes on for a chunk of time slots is the
following function of its bin (the input samples of the chunk's slots and of the
output channel's input channels).  It is flagged exactly when the unflagged
samples of the bin have total weight zero, are fewer than `minpoints`, or fewer
than `minperc` of the bin.  If it is not flagged it has the total weight and
weighted mean of the unflagged samples, otherwise those of all samples.  The UVW
coordinates are the mean over the time slots. -/
theorem average_spec (c : Config) (hno : c.noAvg = false) (hT : 0 < c.nTimeAvg)
    (slots : List (Slot F D)) (i : Nat) (hi : i < (run c State.init slots).length)
    (bl chan corr : Nat) :
    let times := chunk c.nTimeAvg i slots
    let samples := bin (inputChannels c chan) times bl corr
    let good := unflagged samples
    let o := (run c State.init slots)[i]
    ((o.sample bl chan corr).flag = true ↔ totalWeight good = 0 ∨ good.length < c.minPoints ∨
        (good.length : Rat) < (samples.length : Rat) * c.minPerc) ∧
    ((o.sample bl chan corr).flag = false →
      (o.sample bl chan corr).weight = totalWeight good ∧
        (o.sample bl chan corr).data = weightedMean good) ∧
    ((o.sample bl chan corr).flag = true →
      (o.sample bl chan corr).weight = totalWeight samples ∧
        (o.sample bl chan corr).data = weightedMean samples) ∧
    (∀ k, o.uvw bl k = (times.map fun s => s.uvw bl k).sum / (times.length : F)) := by
  intro times samples good o
  -- the output is the one of the chunk
  have ho : o = outOf c times := by
    have hch := (run_chunks c hno hT slots).2 i hi
    have hrun := fun l : List (Slot F D) => run_pending c hno hT [] l (by simpa using hT)
    simp only [List.length_nil, accOf, List.nil_append] at hrun
    have : (run c State.init slots)[i]? = some (outOf c times) := by
      unfold State.init at hi ⊢
      rw [hrun] at hi ⊢
      simp only [List.length_map, List.length_range] at hi
      simp [hi, times]
    rw [List.getElem?_eq_getElem hi] at this
    exact Option.some.inj this
  have hne : times ≠ [] := by
    intro h0
    have hch := (run_chunks c hno hT slots).2 i hi
    have : chunk c.nTimeAvg i slots = [] := h0
    rw [this] at hch
    simp [run, finish, State.init] at hch
  obtain ⟨a, ha⟩ : ∃ a, accOf times = some a := by
    cases h : accOf times with
    | none => exact absurd (accOf_eq_none.1 h) hne
    | some a => exact ⟨a, rfl⟩
  have hs := accSpec_accOf ha
  have ho' : o = average c times.length a := by rw [ho]; simp [outOf, ha]
  have hch : c.channels chan = inputChannels c chan := channels_eq c chan
  have e1 : ((c.channels chan).map fun ch => a.weight bl ch corr).sum = totalWeight good := by
    rw [hch]
    simp only [totalWeight, good, sum_map_filter, samples, sum_bin, hs.weight]
  have e2 : ((c.channels chan).map fun ch => a.data bl ch corr).sum =
      (good.map fun s => s.weight • s.data).sum := by
    rw [hch]
    simp only [good, sum_map_filter, samples, sum_bin, hs.data]
  have e3 : ((c.channels chan).map fun ch => a.nPoints bl ch corr).sum = good.length := by
    rw [hch]
    simp only [good, length_unflagged, samples, sum_bin, hs.nPoints]
  have e4 : ((c.channels chan).map fun ch => a.weightAll bl ch corr).sum = totalWeight samples := by
    rw [hch]
    simp only [totalWeight, samples, sum_bin, hs.weightAll]
  have e5 : ((c.channels chan).map fun ch => a.avgAll bl ch corr).sum =
      (samples.map fun s => s.weight • s.data).sum := by
    rw [hch]
    simp only [samples, sum_bin, hs.avgAll]
  have e6 : (c.channels chan).length * times.length = samples.length := by
    rw [hch]; simp only [samples, length_bin]
  have hsample : o.sample bl chan corr =
      if totalWeight good = 0 ∨ good.length < c.minPoints ∨
          (good.length : Rat) < (samples.length : Rat) * c.minPerc then
        { data := weightedMean samples, weight := totalWeight samples, flag := true }
      else
        { data := (totalWeight good)⁻¹ • (good.map fun s => s.weight • s.data).sum
          weight := totalWeight good, flag := false } := by
    rw [ho']
    simp only [average, e1, e2, e3, e4, e5, e6, weightedMean]
  refine ⟨?_, ?_, ?_, ?_⟩
  · rw [hsample]; split <;> simp_all
  · rw [hsample]
    split
    · intro h; cases h
    · rename_i h
      intro _
      refine ⟨rfl, ?_⟩
      simp only [weightedMean]
      rw [if_neg (fun h0 => h (Or.inl h0))]
  · rw [hsample]
    split
    · exact fun _ => ⟨rfl, rfl⟩
    · intro h; cases h
  · intro k
    rw [ho']
    simp only [average, hs.uvw]

/-- C08: the output channels cover the input channels: channel `ch` is in the bin
of output channel `ch / nChanAvg` and of no other. -/
theorem channel_in_one_bin (c : Config) (hK : 0 < c.nChanAvg) (ch : Nat) (h : ch < c.nChanIn) :
    ch / c.nChanAvg < c.nChanOut ∧
      ∀ k, ch ∈ inputChannels c k ↔ k = ch / c.nChanAvg := by
  constructor
  · unfold Config.nChanOut
    rw [Nat.lt_div_iff_mul_lt hK]
    have := Nat.div_mul_le_self ch c.nChanAvg
    omega
  · intro k
    simp only [inputChannels, List.mem_filter, List.mem_range, h, true_and, Bool.and_eq_true,
      decide_eq_true_eq]
    constructor
    · rintro ⟨h1, h2⟩
      exact (Nat.div_eq_of_lt_le h1 h2).symm
    · rintro rfl
      exact ⟨Nat.div_mul_le_self _ _, by rw [Nat.mul_comm]; exact Nat.lt_mul_div_succ _ hK⟩

/-- Three time slots, one baseline, two channels, one correlation; the second
slot is partly flagged. -/
def exampleSlots : List (Slot Rat Rat) :=
  [⟨fun _ k => k, fun _ ch _ => ⟨ch + 1, 2, false⟩⟩,
   ⟨fun _ k => k + 2, fun _ ch _ => ⟨5, 1, ch == 0⟩⟩,
   ⟨fun _ _ => 0, fun _ _ _ => ⟨7, 0, false⟩⟩]

def exampleConfig : Config := ⟨2, 2, 1, 0, 2, false⟩

example : (run exampleConfig State.init exampleSlots).length = 2 ∧
    ((run exampleConfig State.init exampleSlots).map fun o =>
      ((o.sample 0 0 0).data, (o.sample 0 0 0).weight, (o.sample 0 0 0).flag)) =
      [(11 / 5, 5, false), (0, 0, true)] ∧
    exampleConfig.noAvg = false ∧ 0 < exampleConfig.nTimeAvg ∧ 0 < exampleConfig.nChanAvg := by
  decide +kernel

end DP3.Averager
