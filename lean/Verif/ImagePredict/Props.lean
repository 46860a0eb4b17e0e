import Verif.ImagePredict.Lemmas

/-!
# Properties of the predictions from images (C147-C151)
-/

namespace DP3.ImagePredict

set_option linter.unusedSimpArgs false
set_option linter.unusedSectionVars false

variable {K : Type}

/-! ## C147: WGridderPredict -/

section Wg

variable [Field K] [LT K] [DecidableLT K]

/-- C147: for every stream and every number of time slots that is kept, the next step gets all buffers in order, with
the visibilities of the facets for their own coordinates, and is then finished. What was in the memory does not
matter. -/
theorem wgridder_stream (c : Wg K) (mem : Nat → Cx K) (bufferSize : Nat) (bs : List (Buf K)) :
    wgStream c mem bufferSize bs = some ((bs.map (wgExpected c)).map Event.process ++ [Event.finish]) := by
  obtain ⟨out, h, hr⟩ := stream_all (fun b b' => b' = wgExpected c b) (wgFlush c mem)
    (fun l _ => ⟨_, wgFlush_spec c mem l, by
      rw [List.forall₂_map_right_iff]
      exact List.forall₂_same.mpr fun _ _ => rfl⟩) bufferSize bs []
  have : out = bs.map (wgExpected c) := by
    rw [List.nil_append] at hr
    clear h
    induction hr with
    | nil => rfl
    | cons h _ ih => rw [List.map_cons, h, ih]
  rw [wgStream, h, this]

theorem lastDir_nodup (labels : List String) (hn : labels.Nodup) (dir : Nat) (name : String)
    (h : labels[dir]? = some name) : lastDir labels name = some dir := by
  have hf : labels.zipIdx.filter (fun l => l.1 = name) = [(name, dir)] := by
    obtain ⟨hlt, hd⟩ := List.getElem?_eq_some_iff.mp h
    have key : ∀ (l : List String) (n : Nat), l.Nodup → ∀ d, l[d]? = some name →
        (l.zipIdx n).filter (fun l => l.1 = name) = [(name, n + d)] := by
      intro l
      induction l with
      | nil => intro n _ d hd; simp at hd
      | cons a l ih =>
        intro n hnd d hd
        rw [List.nodup_cons] at hnd
        rw [List.zipIdx_cons]
        cases d with
        | zero =>
          simp only [List.getElem?_cons_zero, Option.some.injEq] at hd
          subst hd
          rw [List.filter_cons_of_pos (by simp), Nat.add_zero]
          congr 1
          rw [List.filter_eq_nil_iff]
          rintro ⟨x, i⟩ hx
          have := List.fst_mem_of_mem_zipIdx hx
          simp only [decide_eq_true_eq]
          rintro rfl
          exact hnd.1 this
        | succ d =>
          simp only [List.getElem?_cons_succ] at hd
          have hne : ¬ a = name := fun h => hnd.1 (h ▸ List.mem_of_getElem? hd)
          rw [List.filter_cons_of_neg (by simpa using hne), ih (n + 1) hnd.2 d hd]
          congr 2
          omega
    simpa using key labels 0 hn dir h
  rw [lastDir, hf]
  rfl

/-- C147: with different labels every facet is found under its own label; named data with other names and the data are
kept. -/
theorem wgridder_named (c : Wg K) (hs : c.sumFacets = false) (hn : c.labels.Nodup) (b : Buf K) :
    (wgExpected c b).data = b.data ∧
      (∀ (dir : Nat) (name : String), c.labels[dir]? = some name → (wgExpected c b).named name =
        some (unpolarized c fun bl ch => stokesI c dir (b.uvw bl) ch)) ∧
      ∀ name, name ∉ c.labels → (wgExpected c b).named name = b.named name := by
  refine ⟨by simp [wgExpected, hs], ?_, ?_⟩
  · intro dir name h
    simp [wgExpected, hs, lastDir_nodup c.labels hn dir name h]
  · intro name h
    have : lastDir c.labels name = none := by
      have : c.labels.zipIdx.filter (fun l => l.1 = name) = [] := by
        rw [List.filter_eq_nil_iff]
        rintro ⟨x, i⟩ hx
        have := List.fst_mem_of_mem_zipIdx hx
        simp only [decide_eq_true_eq]
        rintro rfl
        exact h this
      rw [lastDir, this]
      rfl
    simp [wgExpected, hs, this]

/-- C147: two facets with the same label: the data of the first are lost. -/
theorem same_label : ∃ (c : Wg ℚ) (b : Buf ℚ), c.labels = ["f", "f"] ∧ c.sumFacets = false ∧
    ∀ name, (wgExpected c b).named name ≠ some (unpolarized c fun bl ch => stokesI c 0 (b.uvw bl) ch) := by
  refine ⟨⟨1, 1, 1, fun _ => 1, 1, ["f", "f"], false, fun dir _ _ _ => ⟨dir, 0⟩⟩,
    ⟨0, 0, fun _ => (0, 0, 0), fun _ _ _ => 0, fun _ => none⟩, rfl, rfl, ?_⟩
  intro name h
  simp only [wgExpected] at h
  rw [if_neg (by decide)] at h
  dsimp only at h
  by_cases hn : name = "f"
  · subst hn
    have : lastDir ["f", "f"] "f" = some 1 := by decide
    rw [this] at h
    simp only [Option.some.injEq] at h
    have := congrFun (congrFun (congrFun h 0) 0) 0
    revert this
    decide +kernel
  · have : lastDir ["f", "f"] name = none := by
      have hn' : ¬ "f" = name := fun h => hn h.symm
      simp [lastDir, List.zipIdx, hn']
    rw [this] at h
    exact absurd h (by simp)

end Wg

section Freq

variable [Field K] [LinearOrder K]

/-- C147: the gridder gets increasing frequencies if those of the channels increase or decrease. -/
theorem ascending (c : Wg K) (hf : (∀ i j : Nat, i < j → j < c.nCh → c.freq i < c.freq j) ∨
    (∀ i j : Nat, i < j → j < c.nCh → c.freq j < c.freq i)) (i j : Nat) (hij : i < j) (hj : j < c.nCh) :
    ∃ f g, freqAt c i = some f ∧ freqAt c j = some g ∧ f < g := by
  have hdec : decreasing c = true ↔ c.freq 1 < c.freq 0 := by
    simp only [decreasing, Bool.and_eq_true, decide_eq_true_eq]
    exact ⟨fun h => h.2, fun h => ⟨by omega, h⟩⟩
  rcases hf with h | h
  · have : ¬ decreasing c = true := by
      rw [hdec]
      exact not_lt_of_gt (h 0 1 (by omega) (by omega))
    refine ⟨c.freq i, c.freq j, ?_, ?_, h i j hij hj⟩ <;> simp only [freqAt, freqIndex, this, if_false]
    · rw [if_pos (by omega)]; simp
    · rw [if_pos (by omega)]; simp
  · have : decreasing c = true := hdec.mpr (h 0 1 (by omega) (by omega))
    refine ⟨c.freq (c.nCh - 1 - i), c.freq (c.nCh - 1 - j), ?_, ?_, h _ _ (by omega) (by omega)⟩ <;>
      simp only [freqAt, freqIndex, this, if_true]
    · rw [if_pos (by omega)]; congr 2; omega
    · rw [if_pos (by omega)]; congr 2; omega

end Freq

/-! ## C148: IDGPredict -/

section Idg

variable [Field K]

/-- C148: for every stream and every number of time slots that is kept, the next step gets all buffers in order, with
the sum of the visibilities of all facets and spectral terms for their own coordinates, and is then finished. True if
there are no aterms: these are calculated for the middle of the time slots that are kept. -/
theorem idg_stream_partial (c : Idg K) (hT : 0 < c.nTerms) (hD : 0 < c.nDirs) (ha : NoATerms c) (bufferSize : Nat)
    (bs : List (Buf K)) : ∃ out, idgStream c bufferSize bs = some (out.map Event.process ++ [Event.finish]) ∧
      List.Forall₂ (IdgResult c) bs out := by
  refine stream_all (IdgResult c) (idgFlush c) ?_ bufferSize bs []
  intro l _
  obtain ⟨out, h, hr⟩ := idgFlush_spec c hT hD l
  refine ⟨out, h, hr.imp ?_⟩
  rintro b b' ⟨h1, h2, h3, h4, h5⟩
  refine ⟨h1, h2, h3, h4, fun bl hbl ch hch p hp => ?_⟩
  rw [h5 bl hbl ch hch p hp]
  simp only [idgVis, ha _ _ b.time (centroid l)]

/-- C148 if one time slot is kept: then the aterms are those of the time slot itself. -/
theorem idg_single (c : Idg K) (h2 : (2 : K) ≠ 0) (hT : 0 < c.nTerms) (hD : 0 < c.nDirs) (bs : List (Buf K)) :
    ∃ out, idgStream c 1 bs = some (out.map Event.process ++ [Event.finish]) ∧ List.Forall₂ (IdgResult c) bs out := by
  have key : ∀ bs : List (Buf K), ∃ out, stream (idgFlush c) 1 [] bs = some (out.map Event.process ++ [Event.finish]) ∧
      List.Forall₂ (IdgResult c) bs out := by
    intro bs
    induction bs with
    | nil => exact ⟨[], by simp [stream], by simp⟩
    | cons b bs ih =>
      obtain ⟨rest, h, hr⟩ := ih
      obtain ⟨out, h', hr'⟩ := idgFlush_spec c hT hD [b]
      cases hr' with
      | cons hb hnil =>
        cases hnil
        rename_i b'
        refine ⟨b' :: rest, ?_, List.Forall₂.cons ?_ hr⟩
        · rw [stream]
          simp [h', h]
        · have hc : centroid [b] = b.time := by
            simp only [centroid, List.head?_cons, List.getLast?_singleton, Option.map_some, Option.getD_some]
            rw [← two_mul, mul_div_cancel_left₀ _ h2]
          rw [hc] at hb
          exact hb
  exact key bs

end Idg

/-- Two time slots for the example. -/
def exBufs : List (Buf ℚ) :=
  [⟨0, 0, fun bl => (bl, 1, 2), fun _ _ _ => 0, fun _ => none⟩, ⟨1, 2, fun bl => (3, bl, 4), fun _ _ _ => 0, fun _ => none⟩]

/-- C148 is false with aterms: the result for a time slot depends on the number of time slots that is kept, which
depends on the amount of memory of the computer. -/
theorem aterms_depend : ∃ (c : Idg ℚ) (out out' : List (Buf ℚ)),
    idgStream c 1 exBufs = some (out.map Event.process ++ [Event.finish]) ∧
    idgStream c 2 exBufs = some (out'.map Event.process ++ [Event.finish]) ∧
    (out.head?.map fun b => b.data 0 0 0) = some ⟨0, 0⟩ ∧ (out'.head?.map fun b => b.data 0 0 0) = some ⟨1, 0⟩ := by
  let c : Idg ℚ := ⟨1, 1, 1, 1, fun _ => 1, 1, fun _ _ t _ _ _ _ => ⟨t, 0⟩⟩
  obtain ⟨o1, h1, r1⟩ := idgFlush_spec c (by decide) (by decide) [⟨0, 0, fun bl => ((bl : ℚ), 1, 2), fun _ _ _ => 0, fun _ => none⟩]
  obtain ⟨o2, h2, r2⟩ := idgFlush_spec c (by decide) (by decide) [⟨1, 2, fun bl => (3, (bl : ℚ), 4), fun _ _ _ => 0, fun _ => none⟩]
  obtain ⟨o3, h3, r3⟩ := idgFlush_spec c (by decide) (by decide) exBufs
  refine ⟨c, o1 ++ o2, o3, ?_, ?_, ?_, ?_⟩
  · simp only [idgStream, exBufs, stream]
    simp [h1, h2]
  · have h3' := h3
    simp only [exBufs] at h3'
    simp only [idgStream, exBufs, stream]
    simp [h3']
  · cases r1 with
    | cons hb hnil =>
      simp only [List.cons_append, List.head?_cons, Option.map_some, Option.some.injEq]
      rw [hb.2.2.2.2 0 (by decide) 0 (by decide) 0 (by decide)]
      decide +kernel
  · cases r3 with
    | cons hb hnil =>
      simp only [List.head?_cons, Option.map_some, Option.some.injEq]
      rw [hb.2.2.2.2 0 (by decide) 0 (by decide) 0 (by decide)]
      decide +kernel

/-! ## C149: the images of IDGPredict -/

section Images

variable [Field K]

/-- The vector has only zeros after its first elements. -/
theorem images_from (d : List K) (l : List (List K)) (n : Nat) (hd : ∀ i, n ≤ i → ∀ x, d[i]? = some x → x = 0)
    (hmono : ∀ px ∈ l, n ≤ px.length) (hsort : l.Pairwise fun a b => a.length ≤ b.length) :
    List.Forall₂ (fun px im => im = px ++ List.replicate (px.length * 3) 0) l (images d l) := by
  induction l generalizing d n with
  | nil => exact List.Forall₂.nil
  | cons px l ih =>
    have hn : n ≤ px.length := hmono px List.mem_cons_self
    have him : fillImage d px = px ++ List.replicate (px.length * 3) 0 := by
      unfold fillImage resize
      dsimp only
      congr 1
      rw [List.eq_replicate_iff]
      constructor
      · simp; omega
      · intro x hx
        obtain ⟨i, hi⟩ := List.mem_iff_getElem?.mp hx
        rw [List.getElem?_drop] at hi
        by_cases h : px.length + i < (d.take (px.length * 4)).length
        · rw [List.getElem?_append_left h, List.getElem?_take] at hi
          split_ifs at hi
          exact hd _ (by omega) x hi
        · rw [List.getElem?_append_right (by omega)] at hi
          exact (List.eq_of_mem_replicate (List.mem_of_getElem? hi))
    rw [images]
    refine List.Forall₂.cons him ?_
    rw [List.pairwise_cons] at hsort
    refine ih (fillImage d px) px.length ?_ (fun q hq => hsort.1 q hq) hsort.2
    intro i hi x hx
    rw [him, List.getElem?_append_right hi] at hx
    exact List.eq_of_mem_replicate (List.mem_of_getElem? hx)

/-- C149: the image that IDG gets for a facet and term has the pixels in the first of its four planes, and zeros in the
others. True if no facet is smaller than one before it. -/
theorem planes_partial (l : List (List K)) (hsort : l.Pairwise fun a b => a.length ≤ b.length) :
    List.Forall₂ (fun px im => im = px ++ List.replicate (px.length * 3) 0) l (images [] l) :=
  images_from [] l 0 (by simp) (by simp) hsort

/-- C149: the first plane always has the pixels. -/
theorem first_plane (d : List K) (l : List (List K)) :
    List.Forall₂ (fun px im => im.take px.length = px ∧ im.length = px.length * 4) l (images d l) := by
  induction l generalizing d with
  | nil => exact List.Forall₂.nil
  | cons px l ih =>
    rw [images]
    refine List.Forall₂.cons ⟨by simp [fillImage], ?_⟩ (ih _)
    simp only [fillImage, resize, List.length_append, List.length_drop, List.length_take, List.length_replicate]
    omega

/-- C149 is false for a facet that is smaller than the one before it: the other planes have pixels of that one. -/
theorem leftover : images ([] : List ℚ) [[1, 2, 3, 4], [5]] =
    [[1, 2, 3, 4, 0, 0, 0, 0, 0, 0, 0, 0, 0, 0, 0, 0], [5, 2, 3, 4]] := by
  decide +kernel

end Images

/-! ## C150: the place of a facet -/

section Place

variable [Field K]

theorem pad_zero (w : Nat) (h : w % 4 = 0 ∨ w % 4 = 3) : (alignto4 w - w) / 2 = 0 := by
  unfold alignto4
  omega

theorem pad_one (w : Nat) (h : w % 4 = 1 ∨ w % 4 = 2) : (alignto4 w - w) / 2 = 1 := by
  unfold alignto4
  omega

/-- C150: the shift that WGridderPredict gives to the gridder is the coordinate of the column of the model image that is
in the middle of the facet. True if the width of the image is a multiple of four, or one less. -/
theorem facet_place_partial (width facetWidth height facetHeight : Nat) (offsetX offsetY : Int) (px py : K)
    (hw : width % 4 = 0 ∨ width % 4 = 3) (hh : height % 4 = 0 ∨ height % 4 = 3) :
    lShift width offsetX facetWidth px = lOf width (untrim width (offsetX + (facetWidth / 2 : Nat))) px ∧
      mShift height offsetY facetHeight py = mOf height (untrim height (offsetY + (facetHeight / 2 : Nat))) py := by
  simp only [lShift, lOf, mShift, mOf, untrim, pad_zero width hw, pad_zero height hh, Nat.cast_zero, sub_zero, and_self]

/-- C150: otherwise the facet is one pixel from where it should be. -/
theorem facet_misplaced (width facetWidth : Nat) (offsetX : Int) (px : K) (hw : width % 4 = 1 ∨ width % 4 = 2) :
    lShift width offsetX facetWidth px = lOf width (untrim width (offsetX + (facetWidth / 2 : Nat))) px - px ∧
      mShift width offsetX facetWidth px = mOf width (untrim width (offsetX + (facetWidth / 2 : Nat))) px + px := by
  simp only [lShift, lOf, mShift, mOf, untrim, pad_one width hw]
  constructor <;> push_cast <;> ring

end Place

/-! ## C151: the largest w -/

section W

variable [Field K] [LinearOrder K] [IsStrictOrderedRing K]

theorem growW_le (maxBaseline w : K) (r : K × K × K) : w ≤ growW maxBaseline w r := by
  unfold growW
  split_ifs with h1
  · exact h1.le
  · exact le_refl _
  · exact le_refl _

theorem growAll_le (maxBaseline : K) (rows : List (K × K × K)) : ∀ w, w ≤ rows.foldl (growW maxBaseline) w := by
  induction rows with
  | nil => intro w; exact le_refl _
  | cons r rows ih => intro w; exact (growW_le maxBaseline w r).trans (ih _)

/-- C151: after the coordinates were read, IDG is initialized for all `w` of baselines that are not too long. True for
positive `w`; negative ones are not considered. -/
theorem w_covered_partial (maxBaseline maxW : K) (h0 : 0 ≤ maxW) (rows : List (K × K × K)) (r : K × K × K) (hr : r ∈ rows)
    (hlen : r.1 * r.1 + r.2.1 * r.2.1 + r.2.2 * r.2.2 ≤ maxBaseline * maxBaseline) :
    r.2.2 ≤ initW maxBaseline maxW rows := by
  have key : ∀ (rows : List (K × K × K)) (w : K), r ∈ rows → r.2.2 ≤ rows.foldl (growW maxBaseline) w := by
    intro rows
    induction rows with
    | nil => intro w h; simp at h
    | cons q rows ih =>
      intro w h
      rcases List.mem_cons.mp h with rfl | h
      · refine le_trans ?_ (growAll_le maxBaseline rows _)
        unfold growW
        split_ifs with h1
        · exact le_refl _
        · exact not_lt.mp h1
      · exact ih _ h
  have hk := key rows maxW hr
  have hg := growAll_le maxBaseline rows maxW
  unfold initW
  dsimp only
  split_ifs
  · have h1 : (0 : K) ≤ rows.foldl (growW maxBaseline) maxW := h0.trans hg
    refine hk.trans ?_
    have : (1 : K) ≤ 11 / 10 := by
      rw [le_div_iff₀ (by norm_num)]
      norm_num
    exact le_mul_of_one_le_right h1 this
  · exact hk

/-- C151: the largest `w` never becomes smaller, so what was predicted before stays covered. -/
theorem w_grows (maxBaseline maxW : K) (h0 : 0 ≤ maxW) (rows : List (K × K × K)) : maxW ≤ initW maxBaseline maxW rows := by
  have hg := growAll_le maxBaseline rows maxW
  unfold initW
  dsimp only
  split_ifs
  · have : (1 : K) ≤ 11 / 10 := by
      rw [le_div_iff₀ (by norm_num)]
      norm_num
    exact hg.trans (le_mul_of_one_le_right (h0.trans hg) this)
  · exact hg

end W

/-- C151 is false for negative `w`. -/
theorem negative_w : initW (100 : ℚ) 10 [(0, 0, -50)] = 10 := by decide +kernel

/-! ## Examples -/

/-- Two facets, two terms, two channels with decreasing frequencies. -/
def exWg (sum : Bool) : Wg ℚ where
  nBl := 2
  nCh := 2
  nTerms := 2
  freq i := if i = 0 then 3 else 2
  refFreq := 2
  labels := ["a", "b"]
  sumFacets := sum
  degrid dir term uvw f := ⟨dir + term * 10 + uvw.1 * f, uvw.2.1 - uvw.2.2⟩

example : ∃ bs : List (Buf ℚ), wgStream (exWg false) (fun _ => 7) 3 exBufs =
      some (bs.map Event.process ++ [Event.finish]) ∧ bs.length = 2 ∧
    (bs[1]?.bind fun b => (b.named "b").map fun d => d 1 0 3) = some (stokesI (exWg false) 1 (3, 1, 4) 0) ∧
    stokesI (exWg false) 1 (3, 1, 4) 0 = ⟨2, -21 / 2⟩ :=
  ⟨_, wgridder_stream _ _ _ _, rfl, rfl, by decide +kernel⟩

example : (exWg false).labels.Nodup ∧ decreasing (exWg true) = true := by decide +kernel

example : ∃ f g, freqAt (exWg true) 0 = some f ∧ freqAt (exWg true) 1 = some g ∧ f < g :=
  ascending (exWg true) (Or.inr (by
    intro i j hij hj
    simp only [exWg] at hj
    have : i = 0 ∧ j = 1 := by omega
    obtain ⟨rfl, rfl⟩ := this
    decide +kernel)) 0 1 (by decide) (by decide)

/-- Two facets, two terms, two channels. -/
def exIdg : Idg ℚ where
  nBl := 2
  nCh := 2
  nTerms := 2
  nDirs := 2
  freq i := i + 1
  refFreq := 1
  degrid dir term _ uvw bl ch p := ⟨dir + 2 * term + uvw.1 + bl, ch + p⟩

example : ∃ out, idgStream exIdg 5 exBufs = some (out.map Event.process ++ [Event.finish]) ∧
    List.Forall₂ (IdgResult exIdg) exBufs out :=
  idg_stream_partial exIdg (by decide) (by decide) (fun _ _ _ _ => rfl) 5 exBufs

example : idgVis exIdg 0 (3, 1, 4) 1 1 2 = ⟨22, 12⟩ := by decide +kernel

example := idg_single exIdg (by decide) (by decide) (by decide) exBufs

example : [[(1 : ℚ)], [2, 3]].Pairwise (fun a b => a.length ≤ b.length) := by decide

example : images ([] : List ℚ) [[1], [2, 3]] = [[1, 0, 0, 0], [2, 3, 0, 0, 0, 0, 0, 0]] := by decide +kernel

example : lShift 1022 100 64 (1 : ℚ) = lOf 1022 (untrim 1022 132) 1 - 1 :=
  (facet_misplaced 1022 64 100 1 (by decide)).1

example : lShift 1024 100 64 (1 : ℚ) = 380 := by decide +kernel

example : (50 : ℚ) ≤ initW 100 10 [(1, 2, 3), (0, 3, 50)] :=
  w_covered_partial 100 10 (by decide +kernel) _ (0, 3, 50) (by simp) (by decide +kernel)

end DP3.ImagePredict
