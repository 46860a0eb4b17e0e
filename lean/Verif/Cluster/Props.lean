import Verif.Cluster.Model
import Mathlib.Tactic.SplitIfs

/-!
# Properties of the description of a cluster

C278 the file system of a file, C279 the nodes of a cluster.
-/

namespace DP3.Cluster

set_option linter.unusedSimpArgs false

/-! ## C278: the file system of a file -/

/-- A file is in the directory of a mount point. -/
def Under (point file : Name) : Prop := ∃ rest, file = point ++ '/' :: rest

theorem slashes_append (a b : List Char) : ∀ i, slashes i (a ++ b) = slashes i a ++ slashes (i + a.length) b := by
  induction a with
  | nil => intro i; simp [slashes]
  | cons c a ih =>
    intro i
    simp only [List.cons_append, slashes, ih (i + 1), List.length_cons]
    rw [show i + 1 + a.length = i + (a.length + 1) by omega]
    split_ifs <;> simp

theorem slashes_length (a : List Char) : ∀ i, (slashes i a).length = a.count '/' := by
  induction a with
  | nil => intro i; rfl
  | cons c a ih =>
    intro i
    by_cases h : c = '/' <;> simp [slashes, h, ih, List.count_cons]

theorem mem_slashes {l : List Char} : ∀ {i p : Nat}, p ∈ slashes i l → ∃ a b, l = a ++ '/' :: b ∧ p = i + a.length := by
  induction l with
  | nil => intro i p h; simp [slashes] at h
  | cons c l ih =>
    intro i p h
    by_cases hc : c = '/'
    · simp only [slashes, hc, if_true, List.mem_cons] at h
      rcases h with rfl | h
      · exact ⟨[], l, by simp [hc], by simp⟩
      · obtain ⟨a, b, rfl, rfl⟩ := ih h
        exact ⟨c :: a, b, by simp, by simp; omega⟩
    · simp only [slashes, hc, if_false] at h
      obtain ⟨a, b, rfl, rfl⟩ := ih h
      exact ⟨c :: a, b, by simp, by simp; omega⟩

theorem slashes_sorted (l : List Char) : ∀ i, (slashes i l).Pairwise (· < ·) := by
  induction l with
  | nil => intro i; simp [slashes]
  | cons c l ih =>
    intro i
    by_cases hc : c = '/'
    · simp only [slashes, hc, if_true, List.pairwise_cons]
      refine ⟨fun p hp => ?_, ih _⟩
      obtain ⟨a, b, -, rfl⟩ := mem_slashes hp
      omega
    · simp only [slashes, hc, if_false]; exact ih _

theorem le_foldr_max (l : List Nat) : ∀ x ∈ l, x ≤ l.foldr max 0 := by
  induction l with
  | nil => simp
  | cons a l ih =>
    intro x hx
    simp only [List.foldr_cons]
    rcases List.mem_cons.mp hx with rfl | hx
    · omega
    · have := ih x hx
      omega

theorem mem_positions {ms : List Mount} {m : Mount} {file : Name} (hm : m ∈ ms) (h1 : 1 < m.point.length)
    (hs : m.point.head? = some '/') (hu : Under m.point file) : m.point.length ∈ positions ms file := by
  obtain ⟨rest, rfl⟩ := hu
  obtain ⟨c, t, hp⟩ : ∃ c t, m.point = c :: t := List.exists_cons_of_length_pos (by omega)
  rw [hp] at hs
  simp only [List.head?_cons, Option.some.injEq] at hs
  subst hs
  have hn : t.count '/' < maxParts ms := by
    have := le_foldr_max (ms.map nParts) (nParts m) (List.mem_map_of_mem hm)
    have h2 : nParts m = t.count '/' + 1 := by
      unfold nParts
      rw [if_neg (by omega), hp]; simp
    unfold maxParts; omega
  unfold positions
  rw [hp, List.cons_append, List.tail_cons, slashes_append]
  simp only [slashes, if_true, List.length_cons]
  rw [show t.length + 1 = 1 + t.length by omega]
  refine List.mem_take_iff_getElem.mpr ⟨t.count '/', ?_, ?_⟩
  · simp [slashes_length]; omega
  · rw [List.getElem_append_right (by simp [slashes_length])]; simp [slashes_length]

theorem positions_under {ms : List Mount} {file : Name} {p : Nat} (hf : file ≠ []) (h : p ∈ positions ms file) :
    Under (file.take p) file ∧ (file.take p).length = p := by
  obtain ⟨c, t, rfl⟩ := List.exists_cons_of_ne_nil hf
  obtain ⟨a, b, hab, rfl⟩ := mem_slashes (List.mem_of_mem_take h)
  simp only [List.tail_cons] at hab
  subst hab
  rw [show 1 + a.length = a.length + 1 by omega]
  refine ⟨⟨b, ?_⟩, ?_⟩
  · simp
  · simp

/-- C278: a file in directories of mount points is in the file system of the first of the longest such mount points. -/
theorem longest_mount (ms : List Mount) (file : Name) (hf : ∀ rest, file ≠ '/' :: '/' :: rest)
    (hs : ∀ m ∈ ms, m.point.head? = some '/')
    (hu : ∃ m ∈ ms, 1 < m.point.length ∧ Under m.point file) :
    ∃ before m after, ms = before ++ m :: after ∧ findFileSys ms file = m.fs ∧ Under m.point file ∧
      (∀ m' ∈ before, m'.point ≠ m.point) ∧ ∀ m' ∈ ms, Under m'.point file → m'.point.length ≤ m.point.length := by
  obtain ⟨m0, hm0, hl0, hu0⟩ := hu
  have hne : file ≠ [] := by obtain ⟨r, rfl⟩ := hu0; simp
  have hfind : ∀ m ∈ ms, Under m.point file → (ms.find? fun x => decide (file.take m.point.length = x.point)) ≠ none := by
    intro m hm ⟨r, hr⟩ hn
    have := List.find?_eq_none.mp hn m hm
    apply this
    simp [hr]
  have hlen : ∀ m ∈ ms, Under m.point file → 1 < m.point.length := by
    intro m hm ⟨r, hr⟩
    have h1 := hs m hm
    match hp : m.point with
    | [] => simp [hp] at h1
    | [c] =>
      simp only [hp, List.head?_cons, Option.some.injEq] at h1
      exact absurd (by rw [hr, hp, h1]; rfl) (hf r)
    | _ :: _ :: _ => simp
  have hsome : ∃ m, search ms file = some m := by
    rw [← Option.isSome_iff_exists, search, List.findSome?_isSome_iff]
    refine ⟨m0.point.length, by simpa using mem_positions hm0 hl0 (hs m0 hm0) hu0, ?_⟩
    exact Option.isSome_iff_ne_none.mpr (hfind m0 hm0 hu0)
  obtain ⟨m, hm⟩ := hsome
  have hm' := hm
  unfold search at hm'
  obtain ⟨l1, p, l2, hl, hp, hno⟩ := List.findSome?_eq_some_iff.mp hm'
  obtain ⟨hpm, before, after, rfl, hb⟩ := List.find?_eq_some_iff_append.mp hp
  have hpt : file.take p = m.point := by simpa using hpm
  have hpmem : p ∈ positions (before ++ m :: after) file := by
    rw [← List.mem_reverse, hl]; simp
  obtain ⟨hup, hlp⟩ := positions_under hne hpmem
  refine ⟨before, m, after, rfl, by simp [findFileSys, hm], hpt ▸ hup, ?_, ?_⟩
  · intro m' hm' he
    have := hb m' hm'
    simp [hpt, he] at this
  · intro m' hm'' hu'
    have hin := mem_positions hm'' (hlen m' hm'' hu') (hs m' hm'') hu'
    rw [← List.mem_reverse, hl] at hin
    have hsorted : (l1 ++ p :: l2).Pairwise (· > ·) := by
      rw [← hl]
      exact List.pairwise_reverse.mpr (((slashes_sorted _ _).sublist (List.take_sublist _ _)))
    rw [← hpt, hlp]
    rcases List.mem_append.mp hin with h | h
    · exact absurd (hno _ h) (hfind m' hm'' hu')
    · rcases List.mem_cons.mp h with h | h
      · omega
      · have := (List.pairwise_cons.mp (List.pairwise_append.mp hsorted).2.1).1 _ h
        omega

example : findFileSys [⟨"/".toList, "root".toList⟩, ⟨"/data".toList, "d".toList⟩, ⟨"/data/a/b".toList, "b".toList⟩,
      ⟨"/data/a".toList, "a".toList⟩] "/data/a/x/y".toList = "a".toList := by decide +kernel

/-- C278: other files are in the root file system, or in none if there is no root. -/
theorem no_mount (ms : List Mount) (file : Name) (hf : file ≠ []) (hu : ∀ m ∈ ms, ¬ Under m.point file) :
    findFileSys ms file = (((ms.filter fun m => decide (m.point.length = 1)).getLast?).map Mount.fs).getD [] := by
  have hn : search ms file = none := by
    unfold search
    rw [List.findSome?_eq_none_iff]
    intro p hp
    rw [List.find?_eq_none]
    intro m hm he
    have he' : file.take p = m.point := by simpa using he
    exact hu m hm (he' ▸ (positions_under hf (by simpa using hp)).1)
  unfold findFileSys
  rw [hn]
  cases (ms.filter fun m => decide (m.point.length = 1)).getLast? <;> rfl

example : findFileSys [⟨"/".toList, "root".toList⟩, ⟨"/data".toList, "d".toList⟩] "/database/x".toList = "root".toList ∧
    findFileSys [⟨"/data".toList, "d".toList⟩] "/database/x".toList = [] := by decide +kernel

/-- C278 does not hold for a mount point with a slash at its end: files in it are not found. -/
theorem trailing_slash (d fs rest : Name) (hd0 : d ≠ []) (hr : ∀ r, rest ≠ '/' :: r) :
    findFileSys [⟨'/' :: d ++ ['/'], fs⟩] ('/' :: d ++ '/' :: rest) = [] := by
  rw [no_mount]
  · simp [List.filter, hd0]
  · simp
  · intro m hm ⟨r, he⟩
    simp only [List.mem_singleton] at hm
    subst hm
    simp only [List.cons_append, List.append_assoc, List.cons.injEq, true_and, List.nil_append,
      List.append_cancel_left_eq] at he
    exact hr r he

example : findFileSys [⟨"/data/".toList, "d".toList⟩] "/data/x.ms".toList = [] := by decide +kernel

/-- C278: a mount point gets the name of the file system, without `/auto` in front. -/
theorem add_mount_partial (ms : List Mount) (fs p : Name) (hfs : fs ≠ []) (hp : p.head? = some '/') :
    addFileSys ms fs ("/auto".toList ++ p) = some (ms ++ [⟨p, fs⟩]) ∧
      (p.take 5 ≠ "/auto".toList → addFileSys ms fs p = some (ms ++ [⟨p, fs⟩])) := by
  have h0 : p ≠ [] := by intro h; simp [h] at hp
  have hl : 0 < p.length := List.length_pos_iff.mpr h0
  refine ⟨?_, fun h => ?_⟩
  · have h5 : ("/auto".toList ++ p).take 5 = "/auto".toList := rfl
    have h6 : ("/auto".toList ++ p).drop 5 = p := rfl
    have h7 : 5 < ("/auto".toList ++ p).length := by
      rw [List.length_append]; have : "/auto".toList.length = 5 := rfl
      omega
    simp only [addFileSys, h5, h6, h7, true_and, if_true]
    rw [if_pos ⟨hfs, hp⟩]
  · have hn : ¬ (5 < p.length ∧ p.take 5 = "/auto".toList) := fun hh => h hh.2
    simp only [addFileSys, if_neg hn]
    rw [if_pos ⟨hfs, hp⟩]

example : addFileSys [] "fs".toList "/auto/home".toList = some [⟨"/home".toList, "fs".toList⟩] := by decide +kernel

/-- C278 does not hold for a disk of which the name starts with `auto`: an assertion fails. -/
theorem auto_disk (ms : List Mount) (fs : Name) (c : Char) (rest : Name) (hc : c ≠ '/') :
    addFileSys ms fs ("/auto".toList ++ c :: rest) = none := by
  have h5 : ("/auto".toList ++ c :: rest).take 5 = "/auto".toList := rfl
  have h6 : ("/auto".toList ++ c :: rest).drop 5 = c :: rest := rfl
  have h7 : 5 < ("/auto".toList ++ c :: rest).length := by
    rw [List.length_append]; have : "/auto".toList.length = 5 := rfl
    simp only [List.length_cons]; omega
  simp only [addFileSys, h5, h6, h7, true_and, if_true, List.head?_cons, Option.some.injEq, hc, and_false, if_false]

example : addFileSys [] "fs".toList "/autodata".toList = none := by decide +kernel

/-! ## C279: the nodes of a cluster -/

/-- What the maps of a description should be. -/
structure Good (d : Desc) : Prop where
  distinct : (d.nodes.map Node.name).Nodup
  byName : ∀ g i, d.nodeMap g = some i ↔ (d.nodes.map Node.name)[i]? = some g
  byFs : ∀ f i, (d.fsNodes f).count i = ((d.nodes[i]?.map fun n => n.fs.count f).getD 0)

theorem addToMap_count (inx : Nat) (fs : List Name) : ∀ (m : Name → List Nat) (f : Name) (i : Nat),
    (addToMap inx m fs f).count i = (m f).count i + if i = inx then fs.count f else 0 := by
  induction fs with
  | nil => intro m f i; simp [addToMap]
  | cons g fs ih =>
    intro m f i
    simp only [addToMap, ih]
    by_cases hf : f = g
    · subst hf
      by_cases hi : i = inx
      · subst hi; simp; omega
      · have : ¬ inx = i := fun h => hi h.symm
        simp [hi, this, List.count_cons]
    · have : ¬ g = f := fun h => hf h.symm
      simp [hf, this, List.count_cons]

theorem addNode_good {d d' : Desc} {n : Node} {c : Bool} (hd : Good d) (h : addNode d n c = some d') : Good d' := by
  unfold addNode at h
  cases hm : d.nodeMap n.name with
  | some j =>
    rw [hm] at h
    simp only at h
    split_ifs at h
    simp only [Option.some.injEq] at h
    exact h ▸ hd
  | none =>
    rw [hm] at h
    simp only [Option.some.injEq] at h
    subst h
    have hnot : n.name ∉ d.nodes.map Node.name := by
      intro hin
      obtain ⟨i, hi⟩ := List.mem_iff_getElem?.mp hin
      rw [(hd.byName n.name i).mpr hi] at hm
      simp at hm
    refine ⟨?_, ?_, ?_⟩
    · simp only [List.map_append, List.map_cons, List.map_nil]
      rw [List.nodup_append]
      refine ⟨hd.distinct, by simp, ?_⟩
      intro a ha b hb hab
      simp only [List.mem_singleton] at hb
      exact hnot (by rw [← hb, ← hab]; exact ha)
    · intro g i
      simp only [List.map_append, List.map_cons, List.map_nil]
      by_cases hg : g = n.name
      · subst hg
        simp only [if_true, Option.some.injEq]
        constructor
        · rintro rfl; rw [List.getElem?_append_right (by simp)]; simp
        · intro hi
          by_cases hlt : i < d.nodes.length
          · rw [List.getElem?_append_left (by simpa using hlt)] at hi
            exact absurd (List.mem_of_getElem? hi) hnot
          · rw [List.getElem?_append_right (by simpa using hlt)] at hi
            have := (List.getElem?_eq_some_iff.mp hi).1
            simp at this; omega
      · simp only [hg, if_false, hd.byName]
        by_cases hlt : i < d.nodes.length
        · rw [List.getElem?_append_left (by simpa using hlt)]
        · rw [List.getElem?_append_right (by simpa using hlt), List.getElem?_eq_none (by simpa using hlt)]
          constructor
          · intro h; simp at h
          · intro h
            have := List.mem_of_getElem? h
            simp at this; exact absurd this hg
    · intro f i
      simp only [addToMap_count, hd.byFs]
      by_cases hlt : i < d.nodes.length
      · rw [List.getElem?_append_left hlt, if_neg (by omega)]; simp
      · rw [List.getElem?_append_right (by omega), List.getElem?_eq_none (by omega)]
        by_cases hi : i = d.nodes.length
        · simp [hi]
        · rw [if_neg hi, List.getElem?_eq_none (by simp; omega)]; simp

theorem addNodes_good {xs : List (Node × Bool)} : ∀ {d d' : Desc}, Good d → addNodes d xs = some d' → Good d' := by
  induction xs with
  | nil => intro d d' hd h; simp [addNodes] at h; exact h ▸ hd
  | cons x xs ih =>
    intro d d' hd h
    obtain ⟨d1, h1, h2⟩ := Option.bind_eq_some_iff.mp h
    exact ih (addNode_good hd h1) h2

theorem good_empty : Good {} := ⟨by simp, by simp, by simp⟩

/-- C279: in any cluster, names are distinct, each node is found by its name, and others are not found. -/
theorem nodes_by_name (xs : List (Node × Bool)) (d : Desc) (h : addNodes {} xs = some d) :
    (d.nodes.map Node.name).Nodup ∧
      ∀ g n, getNode d g = some n ↔ n ∈ d.nodes ∧ n.name = g := by
  have hg := addNodes_good good_empty h
  refine ⟨hg.distinct, fun g n => ?_⟩
  unfold getNode
  rw [Option.bind_eq_some_iff]
  constructor
  · rintro ⟨i, hi, hn⟩
    have := (hg.byName g i).mp hi
    rw [List.getElem?_map, hn] at this
    exact ⟨List.mem_of_getElem? hn, by simpa using this⟩
  · rintro ⟨hn, rfl⟩
    obtain ⟨i, hi⟩ := List.mem_iff_getElem?.mp hn
    exact ⟨i, (hg.byName _ i).mpr (by simp [hi]), hi⟩

/-- C279: the nodes for a file system are those that have it. -/
theorem nodes_by_fs (xs : List (Node × Bool)) (d : Desc) (h : addNodes {} xs = some d) (f : Name) (i : Nat) :
    i ∈ d.fsNodes f ↔ ∃ n, d.nodes[i]? = some n ∧ f ∈ n.fs := by
  have hc := (addNodes_good good_empty h).byFs f i
  rw [← List.count_pos_iff, hc]
  cases hn : d.nodes[i]? <;> simp [List.count_pos_iff]

theorem addNodes_names {xs : List (Node × Bool)} : ∀ {d d' : Desc}, Good d → addNodes d xs = some d' →
    ∀ g, g ∈ d'.nodes.map Node.name ↔ g ∈ d.nodes.map Node.name ∨ ∃ x ∈ xs, x.1.name = g := by
  induction xs with
  | nil => intro d d' hd h g; simp [addNodes] at h; simp [h]
  | cons x xs ih =>
    intro d d' hd h g
    obtain ⟨d1, h1, h2⟩ := Option.bind_eq_some_iff.mp h
    rw [ih (addNode_good hd h1) h2 g]
    have key : g ∈ d1.nodes.map Node.name ↔ g ∈ d.nodes.map Node.name ∨ x.1.name = g := by
      unfold addNode at h1
      cases hm : d.nodeMap x.1.name with
      | some j =>
        rw [hm] at h1
        simp only at h1
        split_ifs at h1
        simp only [Option.some.injEq] at h1
        subst h1
        have hin := List.mem_of_getElem? ((hd.byName _ _).mp hm)
        constructor
        · exact .inl
        · rintro (h | rfl)
          · exact h
          · exact hin
      | none =>
        rw [hm] at h1
        simp only [Option.some.injEq] at h1
        subst h1
        simp only [List.map_append, List.map_cons, List.map_nil, List.mem_append, List.mem_singleton, eq_comm]
    rw [key]
    simp only [List.mem_cons, exists_eq_or_imp, or_assoc]

/-- C279: the names in a cluster are those that were added. -/
theorem nodes_complete (xs : List (Node × Bool)) (d : Desc) (h : addNodes {} xs = some d) (g : Name) :
    g ∈ d.nodes.map Node.name ↔ ∃ x ∈ xs, x.1.name = g := by
  rw [addNodes_names good_empty h g]; simp

/-- C279: a name that must be new and is not is refused. -/
theorem duplicate_refused (xs ys : List (Node × Bool)) (x y : Node × Bool) (hx : x ∈ xs) (hn : y.1.name = x.1.name)
    (hy : y.2 = false) : addNodes {} (xs ++ y :: ys) = none := by
  have happ : ∀ (d : Desc) (a b : List (Node × Bool)),
      addNodes d (a ++ b) = (addNodes d a).bind fun d' => addNodes d' b := by
    intro d a
    induction a generalizing d with
    | nil => intro b; rfl
    | cons u a ih =>
      intro b
      simp only [List.cons_append, addNodes, Option.bind_assoc]
      congr 1
      funext d'
      exact ih d' b
  rw [happ]
  cases h : addNodes {} xs with
  | none => rfl
  | some d =>
    have hin : y.1.name ∈ d.nodes.map Node.name := (nodes_complete xs d h _).mpr ⟨x, hx, hn.symm⟩
    obtain ⟨i, hi⟩ := List.mem_iff_getElem?.mp hin
    have := ((addNodes_good good_empty h).byName _ i).mpr hi
    simp [addNodes, addNode, this, hy]

example : ((addNodes {} [(⟨"n0".toList, ["a".toList, "b".toList]⟩, false), (⟨"n1".toList, ["b".toList]⟩, false),
      (⟨"n0".toList, []⟩, true)]).map fun d => (d.nodes.map Node.name, d.fsNodes "b".toList, getNode d "n1".toList)) =
      some (["n0".toList, "n1".toList], [0, 1], some ⟨"n1".toList, ["b".toList]⟩) ∧
    (addNodes {} [(⟨"n0".toList, []⟩, false), (⟨"n0".toList, []⟩, false)]).isNone = true := by decide +kernel

end DP3.Cluster
