import Verif.SolveData.Model
import Mathlib.Data.List.ProdSigma
import Mathlib.Data.List.Nodup
import Mathlib.Tactic.SplitIfs

/-!
# The cells of the channel blocks (C32)
-/

namespace DP3.SolveData

set_option linter.unusedSectionVars false

variable {V X W : Type}

/-! ## Writing the cells -/

theorem writeRun_spec : ∀ (cs pre : List (Cell X W)) (m : Nat), cs.length ≤ m →
    writeRun (pre.map some ++ List.replicate m none) pre.length cs =
      some ((pre ++ cs).map some ++ List.replicate (m - cs.length) none)
  | [], pre, m, _ => by simp [writeRun]
  | c :: cs, pre, m, h => by
    obtain ⟨n, rfl⟩ : ∃ n, m = n + 1 := ⟨m - 1, by simp at h; omega⟩
    have hset : (pre.map some ++ List.replicate (n + 1) none).set pre.length (some c) =
        (pre ++ [c]).map some ++ List.replicate n none := by
      rw [List.set_append_right _ _ (by simp)]
      simp [List.replicate_succ]
    have := writeRun_spec cs (pre ++ [c]) n (by simp at h; omega)
    rw [writeRun, if_pos (by simp), hset]
    rw [List.length_append, List.length_singleton] at this
    rw [this]
    simp

private theorem mapM_zipIdx {α β : Type} (f : α × Nat → Option β) (h : Nat → β) :
    ∀ (l : List α) (s : Nat), (∀ k (hk : k < l.length), f (l[k], s + k) = some (h (s + k))) →
      (l.zipIdx s).mapM f = some ((List.range' s l.length).map h)
  | [], s, _ => rfl
  | a :: l, s, hf => by
    have h0 := hf 0 (by simp)
    simp only [List.getElem_cons_zero, Nat.add_zero] at h0
    have ih := mapM_zipIdx f h l (s + 1) (by
      intro k hk
      have := hf (k + 1) (by simp; omega)
      rw [List.getElem_cons_succ] at this
      rw [show s + 1 + k = s + (k + 1) by omega]
      exact this)
    rw [List.zipIdx_cons, List.mapM_cons, h0, ih]
    simp [List.range'_succ]

theorem writeAll_spec (n : Nat) : ∀ (steps : List (Nat → List (Cell X W)))
    (done : Nat → List (Cell X W)),
    writeAll ((List.range n).map fun k =>
        ({ cells := (done k).map some ++
            List.replicate ((steps.map fun f => (f k).length).sum) none
           next := (done k).length } : Block X W)) steps =
      some ((List.range n).map fun k =>
        { cells := (done k ++ steps.flatMap fun f => f k).map some
          next := (done k ++ steps.flatMap fun f => f k).length })
  | [], done => by simp [writeAll]
  | f :: steps, done => by
    have ih := writeAll_spec n steps fun k => done k ++ f k
    have hstep : writeBlocks ((List.range n).map fun k =>
        ({ cells := (done k).map some ++
            List.replicate (((f :: steps).map fun f => (f k).length).sum) none
           next := (done k).length } : Block X W)) f =
        some ((List.range n).map fun k =>
          { cells := (done k ++ f k).map some ++
              List.replicate ((steps.map fun f => (f k).length).sum) none
            next := (done k ++ f k).length }) := by
      rw [writeBlocks]
      rw [mapM_zipIdx _ (fun k => Block.mk ((done k ++ f k).map some ++
        List.replicate ((steps.map fun f => (f k).length).sum) none) (done k ++ f k).length)]
      · simp [List.range_eq_range']
      · intro k hk
        simp only [List.getElem_map, List.getElem_range, Nat.zero_add, List.map_cons, List.sum_cons]
        rw [writeRun_spec _ _ _ (by omega)]
        simp
    have hcons : ∀ b : List (Block X W), writeAll b (f :: steps) =
        (writeBlocks b f).bind fun x => writeAll x steps := fun _ => rfl
    rw [hcons, hstep, Option.bind_some, ih]
    simp

theorem writeAll_allocate (n : Nat) (steps : List (Nat → List (Cell X W))) (size : Nat → Nat)
    (hsize : ∀ k, size k = (steps.map fun f => (f k).length).sum) :
    writeAll (allocate ((List.range n).map size)) steps =
      some ((List.range n).map fun k =>
        { cells := (steps.flatMap fun f => f k).map some
          next := (steps.flatMap fun f => f k).length }) := by
  have := writeAll_spec n steps fun _ => []
  simp only [List.map_nil, List.nil_append, List.length_nil] at this
  rw [← this, allocate, List.map_map]
  congr 1
  apply List.map_congr_left
  intro k _
  simp [hsize k]

/-! ## Channel blocks -/

/-- **C32.**  The channel blocks are consecutive: they start at channel 0, each starts where the
previous one ends, and the last one ends at the last channel; so that every channel is in exactly
one block. -/
theorem channels_partition (nCh nBlocks : Nat) (hb : 0 < nBlocks) :
    channelBegin nCh nBlocks 0 = 0 ∧ channelBegin nCh nBlocks nBlocks = nCh ∧
    (∀ k, channelBegin nCh nBlocks k ≤ channelBegin nCh nBlocks (k + 1)) ∧
    ∀ c, c < nCh → ∃ k, (k < nBlocks ∧ channelBegin nCh nBlocks k ≤ c ∧
        c < channelBegin nCh nBlocks (k + 1)) ∧
      ∀ j, channelBegin nCh nBlocks j ≤ c → c < channelBegin nCh nBlocks (j + 1) → j = k := by
  have h0 : channelBegin nCh nBlocks 0 = 0 := by simp [channelBegin]
  have hn : channelBegin nCh nBlocks nBlocks = nCh := by
    simp [channelBegin, Nat.mul_div_cancel_left _ hb]
  have hmono : ∀ j k, j ≤ k → channelBegin nCh nBlocks j ≤ channelBegin nCh nBlocks k := by
    intro j k h
    exact Nat.div_le_div_right (Nat.mul_le_mul_right _ h)
  refine ⟨h0, hn, fun k => hmono _ _ (Nat.le_succ k), ?_⟩
  intro c hc
  have hex : ∀ m, c < channelBegin nCh nBlocks m → ∃ k, k < m ∧
      channelBegin nCh nBlocks k ≤ c ∧ c < channelBegin nCh nBlocks (k + 1) := by
    intro m
    induction m with
    | zero => intro h; rw [h0] at h; omega
    | succ m ih =>
      intro h
      by_cases hm : c < channelBegin nCh nBlocks m
      · obtain ⟨k, h1, h2⟩ := ih hm
        exact ⟨k, by omega, h2⟩
      · exact ⟨m, by omega, by omega, h⟩
  obtain ⟨k, hk, h1, h2⟩ := hex nBlocks (by rw [hn]; exact hc)
  refine ⟨k, ⟨hk, h1, h2⟩, ?_⟩
  intro j g1 g2
  rcases Nat.lt_trichotomy j k with h | h | h
  · have := hmono (j + 1) k h; omega
  · exact h
  · have := hmono (k + 1) j h; omega

example : (List.range 4).map (channelBegin 10 3) = [0, 3, 6, 10] := by decide

theorem filter_range (n f e : Nat) (hfe : f ≤ e) (hen : e ≤ n) :
    (List.range n).filter (fun c => decide (f ≤ c ∧ c < e)) =
      (List.range (e - f)).map fun i => f + i := by
  have hsplit : List.range n = List.range f ++ ((List.range (e - f)).map (f + ·) ++
      (List.range (n - e)).map (e + ·)) := by
    have h1 : n = f + ((e - f) + (n - e)) := by omega
    conv_lhs => rw [h1]
    rw [List.range_add, List.range_add, List.map_append, List.map_map]
    congr 3
    funext i
    show f + (e - f + i) = e + i
    omega
  rw [hsplit, List.filter_append, List.filter_append]
  have g1 : (List.range f).filter (fun c => decide (f ≤ c ∧ c < e)) = [] := by
    rw [List.filter_eq_nil_iff]
    intro c hc
    have := List.mem_range.1 hc
    simp; omega
  have g2 : ((List.range (e - f)).map (f + ·)).filter (fun c => decide (f ≤ c ∧ c < e)) =
      (List.range (e - f)).map (f + ·) := by
    rw [List.filter_eq_self]
    intro c hc
    obtain ⟨i, hi, rfl⟩ := List.mem_map.1 hc
    have := List.mem_range.1 hi
    simp; omega
  have g3 : ((List.range (n - e)).map (e + ·)).filter (fun c => decide (f ≤ c ∧ c < e)) = [] := by
    rw [List.filter_eq_nil_iff]
    intro c hc
    obtain ⟨i, hi, rfl⟩ := List.mem_map.1 hc
    simp
  rw [g1, g2, g3, List.nil_append, List.append_nil]

/-! ## C32 -/

/-- The visibilities of the input: time, baseline, channel. -/
def triples (r : Regular V W) : List (Nat × Nat × Nat) :=
  List.range r.nTimes ×ˢ (List.range r.nBl ×ˢ List.range r.nCh)

/-- Whether a baseline is a cross-correlation. -/
def isCross (r : Regular V W) (b : Nat) : Bool := decide (r.ants1.getD b 0 ≠ r.ants2.getD b 0)

/-- Whether a channel is in a channel block. -/
def inBlock (r : Regular V W) (k c : Nat) : Bool :=
  decide (channelBegin r.nCh r.nBlocks k ≤ c ∧ c < channelBegin r.nCh r.nBlocks (k + 1))

/-- What has to be stored for a visibility. -/
def cellOf (conv : V → X) (r : Regular V W) (x : Nat × Nat × Nat) : Cell X W :=
  { vis := conv (r.vis x.1 x.2.1 x.2.2)
    ant1 := r.ants1.getD x.2.1 0
    ant2 := r.ants2.getD x.2.1 0
    weight := if r.hasWeights then some (r.weight x.1 x.2.1 x.2.2) else none
    model := (List.range r.nSol.length).map fun d =>
      (conv (r.model d x.1 x.2.1 x.2.2),
       solutionIndex (min (r.nSol.getD d 0) r.nTimes)
         (((r.nSol.map fun n => min n r.nTimes).take d).sum) r.nTimes x.1) }

private theorem startIndices_eq : ∀ (l : List Nat) (s : Nat),
    startIndices l s = (List.range l.length).map fun d => s + (l.take d).sum
  | [], s => rfl
  | n :: l, s => by
    rw [startIndices, startIndices_eq l (s + n), List.length_cons, List.range_succ_eq_map,
      List.map_cons, List.map_map]
    simp [Function.comp_def, Nat.add_assoc]

private theorem zip_range {α β : Type} (l : List α) (g : Nat → β) :
    l.zip ((List.range l.length).map g) = l.zipIdx.map fun p => (p.1, g p.2) := by
  apply List.ext_getElem
  · simp
  · intro i h1 h2; simp

theorem directions_eq (conv : V → X) (r : Regular V W) (t b c : Nat) :
    directions conv r t b c = (List.range r.nSol.length).map fun d =>
      (conv (r.model d t b c),
       solutionIndex (min (r.nSol.getD d 0) r.nTimes)
         (((r.nSol.map fun n => min n r.nTimes).take d).sum) r.nTimes t) := by
  rw [directions]
  simp only [startIndices_eq, limitNSolutions]
  apply List.ext_getElem
  · simp
  · intro i h1 h2
    simp only [List.length_map, List.length_range] at h2
    simp [List.getElem?_eq_getElem h2]

private theorem mapM_antPair (r : Regular V W) (h1 : r.nBl ≤ r.ants1.length)
    (h2 : r.nBl ≤ r.ants2.length) :
    (List.range r.nBl).mapM (antPair r) =
      some ((List.range r.nBl).map fun b => (r.ants1.getD b 0, r.ants2.getD b 0)) := by
  have : ∀ l : List Nat, (∀ b ∈ l, b < r.nBl) → l.mapM (antPair r) =
      some (l.map fun b => (r.ants1.getD b 0, r.ants2.getD b 0)) := by
    intro l
    induction l with
    | nil => intro _; rfl
    | cons b l ih =>
      intro h
      have hb := h b (by simp)
      have hp : antPair r b = some (r.ants1.getD b 0, r.ants2.getD b 0) := by
        rw [antPair, List.getElem?_eq_getElem (by omega), List.getElem?_eq_getElem (by omega)]
        simp [List.getElem?_eq_getElem (show b < r.ants1.length by omega),
          List.getElem?_eq_getElem (show b < r.ants2.length by omega)]
      rw [List.mapM_cons, hp, ih fun x hx => h x (List.mem_cons_of_mem _ hx)]
      rfl
  exact this _ fun b hb => List.mem_range.1 hb

private theorem zipIdx_map_range {α : Type} (n : Nat) (g : Nat → α) :
    ((List.range n).map g).zipIdx = (List.range n).map fun b => (g b, b) := by
  apply List.ext_getElem
  · simp
  · intro i h1 h2; simp

/-- **C32.**  For regular data, channel block `k` holds for every time, cross-correlation and
channel of the block, in this order, exactly the visibility, the antennas, the weights, and for each
direction the model visibility and the solution of the time step; no autocorrelation is stored, no
place remains unwritten and nothing is written outside the blocks. -/
theorem regular_spec (conv : V → X) (r : Regular V W) (ht : 0 < r.nTimes) (hb : 0 < r.nBlocks)
    (h1 : r.nBl ≤ r.ants1.length) (h2 : r.nBl ≤ r.ants2.length) :
    regular conv r = some ((List.range r.nBlocks).map fun k =>
      let vis := (triples r).filter fun x => isCross r x.2.1 && inBlock r k x.2.2
      { cells := vis.map fun x => some (cellOf conv r x), next := vis.length }) := by
  rw [regular, if_neg (by omega), mapM_antPair r h1 h2, Option.bind_some]
  simp only
  have hmono := (channels_partition r.nCh r.nBlocks hb).2.2.1
  have hlen : ∀ t b a1 a2 k, (regularStep conv r t b a1 a2 k).length =
      channelBegin r.nCh r.nBlocks (k + 1) - channelBegin r.nCh r.nBlocks k := by
    intro t b a1 a2 k; simp [regularStep]
  rw [writeAll_allocate]
  · congr 1
    apply List.map_congr_left
    intro k hk
    have hk := List.mem_range.1 hk
    have hend : channelBegin r.nCh r.nBlocks (k + 1) ≤ r.nCh := by
      have : channelBegin r.nCh r.nBlocks (k + 1) ≤ channelBegin r.nCh r.nBlocks r.nBlocks :=
        Nat.div_le_div_right (Nat.mul_le_mul_right _ hk)
      rwa [(channels_partition r.nCh r.nBlocks hb).2.1] at this
    have hcells : ((regularSteps conv r
        ((List.range r.nBl).map fun b => (r.ants1.getD b 0, r.ants2.getD b 0))).flatMap fun f => f k)
        = ((triples r).filter fun x => isCross r x.2.1 && inBlock r k x.2.2).map (cellOf conv r) := by
      rw [regularSteps, triples, List.flatMap_assoc]
      show _ = List.map _ (List.filter _ (List.flatMap _ _))
      rw [List.filter_flatMap, List.map_flatMap]
      apply List.flatMap_congr
      intro t _
      rw [zipIdx_map_range, List.filter_map, List.map_map, List.filter_map, List.map_map,
        List.flatMap_map]
      show _ = List.map _ (List.filter _ (List.flatMap _ _))
      rw [List.filter_flatMap, List.map_flatMap]
      have hbl : ∀ l : List Nat,
          (l.filter ((fun p : (Nat × Nat) × Nat => decide (p.1.1 ≠ p.1.2)) ∘
            fun b => ((r.ants1.getD b 0, r.ants2.getD b 0), b))).flatMap
            (fun b => regularStep conv r t b (r.ants1.getD b 0) (r.ants2.getD b 0) k) =
          l.flatMap fun b => ((List.map (Prod.mk b) (List.range r.nCh)).filter
            ((fun x : Nat × Nat × Nat => isCross r x.2.1 && inBlock r k x.2.2) ∘
              Prod.mk t)).map (cellOf conv r ∘ Prod.mk t) := by
        intro l
        induction l with
        | nil => rfl
        | cons b l ih =>
          rw [List.flatMap_cons, ← ih]
          have hin : ((List.map (Prod.mk b) (List.range r.nCh)).filter
            ((fun x : Nat × Nat × Nat => isCross r x.2.1 && inBlock r k x.2.2) ∘
              Prod.mk t)).map (cellOf conv r ∘ Prod.mk t) =
              if isCross r b then
                regularStep conv r t b (r.ants1.getD b 0) (r.ants2.getD b 0) k else [] := by
            rw [List.filter_map, List.map_map]
            by_cases hc : isCross r b = true
            · have : (((fun x : Nat × Nat × Nat => isCross r x.2.1 && inBlock r k x.2.2) ∘
                  Prod.mk t) ∘ Prod.mk b) = fun c => decide (channelBegin r.nCh r.nBlocks k ≤ c ∧
                    c < channelBegin r.nCh r.nBlocks (k + 1)) := by
                funext c
                simp [hc, inBlock]
              rw [this, filter_range _ _ _ (hmono k) hend, List.map_map, if_pos hc, regularStep]
              apply List.map_congr_left
              intro i _
              simp only [Function.comp_apply, cellOf, directions_eq]
            · have : (((fun x : Nat × Nat × Nat => isCross r x.2.1 && inBlock r k x.2.2) ∘
                  Prod.mk t) ∘ Prod.mk b) = fun _ => false := by
                funext c
                simp [hc]
              rw [this, if_neg hc]
              simp
          rw [hin, List.filter_cons]
          simp only [Function.comp_apply, isCross, decide_eq_true_eq]
          split_ifs
          · rw [List.flatMap_cons]
          · rfl
      exact hbl _
    simp only [hcells, List.map_map, List.length_map]
    rfl
  · intro k
    have hcount : countCross ((List.range r.nBl).map fun b =>
        (r.ants1.getD b 0, r.ants2.getD b 0)) =
        ((((List.range r.nBl).map fun b => (r.ants1.getD b 0, r.ants2.getD b 0)).zipIdx).filter
          fun p => p.1.1 ≠ p.1.2).length := by
      rw [countCross, zipIdx_map_range, List.filter_map, List.filter_map, List.length_map,
        List.length_map]
      rfl
    rw [hcount]
    have hsel : (regularSteps conv r ((List.range r.nBl).map fun b =>
        (r.ants1.getD b 0, r.ants2.getD b 0))).map (fun f => (f k).length) =
        List.replicate (r.nTimes * (((List.range r.nBl).map fun b =>
        (r.ants1.getD b 0, r.ants2.getD b 0)).zipIdx.filter (fun p => p.1.1 ≠ p.1.2)).length)
          (channelBegin r.nCh r.nBlocks (k + 1) - channelBegin r.nCh r.nBlocks k) := by
      rw [List.eq_replicate_iff]
      constructor
      · rw [List.length_map, regularSteps, List.length_flatMap]
        simp
      · intro n hn
        obtain ⟨f, hf, rfl⟩ := List.mem_map.1 hn
        rw [regularSteps] at hf
        obtain ⟨t, _, hf⟩ := List.mem_flatMap.1 hf
        obtain ⟨p, _, rfl⟩ := List.mem_map.1 hf
        exact hlen _ _ _ _ _
    rw [hsel, List.sum_replicate_nat]

end DP3.SolveData
