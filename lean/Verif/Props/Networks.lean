import Verif.Lemmas.Networks2

/-! # C12, C13, C14: one-mode, multi-level, two-mode and n-mode networks -/
set_option autoImplicit false
set_option linter.unusedSectionVars false
namespace Verif.Props
open Verif.Py Verif.Py.Graph Verif.Model.Networks Verif.Model.Series Verif.Spec

variable {ρ α ν τ : Type} [DecidableEq ν]

/-- The node names a record gives under some tags, in order. -/
def names (ident : α → ν) (field : ρ → τ → Option (FieldVal α)) (tags : List τ) (r : ρ) : List ν :=
  (tags.flatMap (fun t => vals (field r t))).map ident

/-- C12: the network has no duplicate node or edge and all edges join nodes; the edge between `u` and `v` has as weight
the number of pairs of positions at which they occur together, summed over the records, and is missing when that is 0; the
nodes are exactly the values that occur, counted by their number of occurrences. -/
theorem C12_multi_level (nodeCount edgeWeight : Bool) (ident : α → ν) (field : ρ → τ → Option (FieldVal α))
    (modes : List τ) (recs : List ρ) :
    let g := networkMultiLevel nodeCount edgeWeight ident field modes recs
    g.WF ∧ g.directed = false ∧
    (∀ u v, g.edge? u v = edgeFor edgeWeight (recs.map (fun r => pairsShared (names ident field modes r) u v)).sum) ∧
    (∀ n, g.node? n =
      let occ := (recs.map (fun r => (names ident field modes r).count n)).sum
      if occ = 0 then none else some { count := if nodeCount then some occ else none, type := none }) := by
  have hg : networkMultiLevel nodeCount edgeWeight ident field modes recs =
      run edgeWeight (levelNode nodeCount) (Graph.empty false)
        (recs.flatMap (fun r => levelEvs (names ident field modes r))) := by
    unfold networkMultiLevel
    rw [← foldl_run]
    congr 1
    funext g r
    rw [multiLevelRecord_eq, contentsOf_eq]; rfl
  obtain ⟨h1, h2, h3, h4⟩ := run_spec edgeWeight false (levelNode nodeCount)
    (recs.flatMap (fun r => levelEvs (names ident field modes r)))
  rw [← hg] at h1 h2 h3 h4
  refine ⟨h1, h2, fun u v => ?_, fun n => ?_⟩
  · rw [h3, sum_map_countP]
    simp only [countP_levelEvs]
    rfl
  · rw [h4, onNode_level, nodeEvs_flatMap]
    simp only [nodeEvs_level]
    have hany : (recs.flatMap (fun r => levelEvs (names ident field modes r))).any (Ev.mentions n) = true ↔
        (recs.map (fun r => (names ident field modes r).count n)).sum ≠ 0 := by
      rw [List.any_eq_true]
      constructor
      · rintro ⟨e, he, hm⟩
        obtain ⟨r, hr, he⟩ := List.mem_flatMap.1 he
        have hin := (mentions_level n _).1 ⟨e, he, hm⟩
        intro h0
        have := sum_eq_zero_iff.1 h0 _ (List.mem_map_of_mem hr)
        exact absurd hin (List.count_eq_zero.1 this)
      · intro h0
        by_contra hne
        apply h0
        rw [sum_eq_zero_iff]
        intro x hx
        obtain ⟨r, hr, rfl⟩ := List.mem_map.1 hx
        rw [List.count_eq_zero]
        intro hin
        obtain ⟨e, he, hm⟩ := (mentions_level n _).2 hin
        exact hne ⟨e, List.mem_flatMap.2 ⟨r, hr, he⟩, hm⟩
    by_cases h0 : (recs.map (fun r => (names ident field modes r).count n)).sum = 0
    · rw [if_neg (fun h => hany.1 h h0)]; simp [h0]
    · rw [if_pos (hany.2 h0)]
      simp only [h0, ne_eq, not_false_iff, and_true, if_false]

/-- C12: the order in which the records are visited makes no difference. -/
theorem C12_order_independent (nodeCount edgeWeight : Bool) (ident : α → ν) (field : ρ → τ → Option (FieldVal α))
    (modes : List τ) (recs recs' : List ρ) (h : recs.Perm recs') :
    (∀ u v, (networkMultiLevel nodeCount edgeWeight ident field modes recs).edge? u v =
      (networkMultiLevel nodeCount edgeWeight ident field modes recs').edge? u v) ∧
    (∀ n, (networkMultiLevel nodeCount edgeWeight ident field modes recs).node? n =
      (networkMultiLevel nodeCount edgeWeight ident field modes recs').node? n) := by
  obtain ⟨_, _, a3, a4⟩ := C12_multi_level nodeCount edgeWeight ident field modes recs
  obtain ⟨_, _, b3, b4⟩ := C12_multi_level nodeCount edgeWeight ident field modes recs'
  refine ⟨fun u v => ?_, fun n => ?_⟩
  · rw [a3, b3, sum_perm (h.map _)]
  · rw [a4, b4, sum_perm (h.map _)]

/-- C12: a one-mode network is the multi-level network of one tag. -/
theorem C12_one_mode (nodeCount edgeWeight : Bool) (ident : α → ν) (field : ρ → τ → Option (FieldVal α))
    (mode : τ) (recs : List ρ) :
    let g := networkOneMode nodeCount edgeWeight ident field mode recs
    (∀ u v, g.edge? u v = edgeFor edgeWeight
      (recs.map (fun r => pairsShared ((vals (field r mode)).map ident) u v)).sum) ∧
    (∀ n, g.node? n =
      let occ := (recs.map (fun r => ((vals (field r mode)).map ident).count n)).sum
      if occ = 0 then none else some { count := if nodeCount then some occ else none, type := none }) := by
  obtain ⟨_, _, a3, a4⟩ := C12_multi_level nodeCount edgeWeight ident field [mode] recs
  simp only [names, List.flatMap_cons, List.flatMap_nil, List.append_nil] at a3 a4
  exact ⟨a3, a4⟩

private def fl : Nat → String → Option (FieldVal String) := fun r t =>
  if t = "AF" then (if r = 0 then some (.list ["A", "B", "A"]) else if r = 1 then some (.single "C") else some (.list ["B", "A"]))
  else if r = 1 then none else some (.single "x")

example : (networkMultiLevel true true id fl ["AF"] [0, 1, 2]).edge? "A" "B" = some (some 3) ∧
    (networkMultiLevel true true id fl ["AF"] [0, 1, 2]).edge? "A" "A" = some (some 1) ∧
    (networkMultiLevel true true id fl ["AF"] [0, 1, 2]).node? "A" = some ⟨some 3, none⟩ ∧
    (networkMultiLevel true true id fl ["AF", "TI"] [0, 1, 2]).edge? "C" "x" = none := by decide

/-! ## C13 -/

theorem twoMode_run (directed nodeCount edgeWeight recordType : Bool) (ident1 ident2 : α → ν)
    (field : ρ → String → Option (FieldVal α)) (tag1 tag2 : String) (recs : List ρ) :
    networkTwoMode directed nodeCount edgeWeight recordType ident1 ident2 field tag1 tag2 recs =
      run edgeWeight (twoNode nodeCount recordType tag1 tag2) (Graph.empty directed)
        (recs.flatMap (fun r => twoEvs (names ident1 field [tag1] r) (names ident2 field [tag2] r))) := by
  unfold networkTwoMode
  rw [← foldl_run]
  congr 1
  funext g r
  rw [twoModeRecord_eq, twoModeContents_eq, twoModeContents_eq]
  simp [names]

/-- C13, edges: the edge between `u` and `v` has as weight the number of times they co-occur, one under the first tag and
the other under the second, and is missing when they never do, so an edge only joins a value of the first tag to a value
of the second. With `directed` edges go from the first tag to the second. Nodes are exactly the values that occur. -/
theorem C13_edges_nodes (directed nodeCount edgeWeight recordType : Bool) (ident1 ident2 : α → ν)
    (field : ρ → String → Option (FieldVal α)) (tag1 tag2 : String) (recs : List ρ) :
    let g := networkTwoMode directed nodeCount edgeWeight recordType ident1 ident2 field tag1 tag2 recs
    g.WF ∧ g.directed = directed ∧
    (∀ u v, g.edge? u v = edgeFor edgeWeight
      (recs.map (fun r => crossShared directed (names ident1 field [tag1] r) (names ident2 field [tag2] r) u v)).sum) ∧
    (∀ n, g.hasNode n = true ↔ ∃ r ∈ recs, n ∈ names ident1 field [tag1] r ∨ n ∈ names ident2 field [tag2] r) := by
  obtain ⟨h1, h2, h3, h4⟩ := run_spec edgeWeight directed (twoNode nodeCount recordType tag1 tag2)
    (recs.flatMap (fun r => twoEvs (names ident1 field [tag1] r) (names ident2 field [tag2] r)))
  rw [← twoMode_run] at h1 h2 h3 h4
  refine ⟨h1, h2, fun u v => ?_, fun n => ?_⟩
  · rw [h3, sum_map_countP]
    simp only [countP_twoEvs]
    rfl
  · unfold hasNode
    rw [h4, onNode_isSome]
    simp only [Option.isSome_none, Bool.false_eq_true, false_or]
    constructor
    · rintro ⟨e, he, hm⟩
      obtain ⟨r, hr, he⟩ := List.mem_flatMap.1 he
      exact ⟨r, hr, (mentions_twoEvs n _ _).1 (List.find?_isSome.2 ⟨e, he, hm⟩)⟩
    · rintro ⟨r, hr, h⟩
      obtain ⟨e, he, hm⟩ := List.find?_isSome.1 ((mentions_twoEvs n _ _).2 h)
      exact ⟨e, List.mem_flatMap.2 ⟨r, hr, he⟩, hm⟩

/-- C13, counts, exactly: a node's count is its number of occurrences, less one when the first record visited that holds
it has no value under the second tag; a count of zero is not stored. -/
theorem C13_counts_exact (directed edgeWeight recordType : Bool) (ident1 ident2 : α → ν)
    (field : ρ → String → Option (FieldVal α)) (tag1 tag2 : String) (recs : List ρ) (n : ν) (a : NodeAttr)
    (ha : (networkTwoMode directed true edgeWeight recordType ident1 ident2 field tag1 tag2 recs).node? n = some a) :
    a.count ≠ some 0 ∧
    ∃ first, recs.find? (fun r => decide (n ∈ names ident1 field [tag1] r ∨ n ∈ names ident2 field [tag2] r)) = some first ∧
      a.count.getD 0 + (if names ident2 field [tag2] first = [] then 1 else 0) =
        (recs.map (fun r => (names ident1 field [tag1] r).count n + (names ident2 field [tag2] r).count n)).sum := by
  obtain ⟨h1, h2, h3, h4⟩ := run_spec edgeWeight directed (twoNode true recordType tag1 tag2)
    (recs.flatMap (fun r => twoEvs (names ident1 field [tag1] r) (names ident2 field [tag2] r)))
  rw [← twoMode_run] at h4
  rw [h4] at ha
  have hf := fold_counting (counting_twoNode recordType tag1 tag2) n
    (recs.flatMap (fun r => twoEvs (names ident1 field [tag1] r) (names ident2 field [tag2] r)))
  rw [ha] at hf
  simp only [] at hf
  obtain ⟨f1, f2, f3⟩ := hf
  rw [find?_records _ n (fun b => !b) recs
    (fun r => decide (n ∈ names ident1 field [tag1] r ∨ n ∈ names ident2 field [tag2] r))
    (fun r => by rw [mentions_twoEvs]; simp)] at f1 f3
  refine ⟨f2, ?_⟩
  cases hfi : recs.find? (fun r => decide (n ∈ names ident1 field [tag1] r ∨ n ∈ names ident2 field [tag2] r)) with
  | none => rw [hfi] at f1; simp at f1
  | some first =>
    refine ⟨first, rfl, ?_⟩
    have hm := List.find?_some hfi
    rw [decide_eq_true_eq] at hm
    rw [hfi, Option.bind_some, lossy_twoEvs n _ _ hm, nodeEvs_flatMap] at f3
    simp only [nodeEvs_twoEvs] at f3
    exact f3

/-- C13, counts, the part that holds: when every record with a value under the first tag also has one under the second,
every node's count is its number of occurrences. -/
theorem C13_counts_partial (directed edgeWeight recordType : Bool) (ident1 ident2 : α → ν)
    (field : ρ → String → Option (FieldVal α)) (tag1 tag2 : String) (recs : List ρ)
    (hboth : ∀ r ∈ recs, names ident1 field [tag1] r ≠ [] → names ident2 field [tag2] r ≠ []) (n : ν) (a : NodeAttr)
    (ha : (networkTwoMode directed true edgeWeight recordType ident1 ident2 field tag1 tag2 recs).node? n = some a) :
    a.count = some (recs.map (fun r => (names ident1 field [tag1] r).count n + (names ident2 field [tag2] r).count n)).sum := by
  obtain ⟨h0, first, hf, heq⟩ := C13_counts_exact directed edgeWeight recordType ident1 ident2 field tag1 tag2 recs n a ha
  have hm := List.find?_some hf
  rw [decide_eq_true_eq] at hm
  have hr := List.mem_of_find?_eq_some hf
  have hne : names ident2 field [tag2] first ≠ [] := by
    rcases hm with hm | hm
    · exact hboth first hr (List.ne_nil_of_mem hm)
    · exact List.ne_nil_of_mem hm
  rw [if_neg hne, Nat.add_zero] at heq
  have hpos : 0 < (recs.map (fun r => (names ident1 field [tag1] r).count n + (names ident2 field [tag2] r).count n)).sum := by
    rw [Nat.pos_iff_ne_zero]
    intro h
    have := sum_eq_zero_iff.1 h _ (List.mem_map_of_mem hr)
    have h1 : (names ident1 field [tag1] first).count n = 0 := by omega
    have h2 : (names ident2 field [tag2] first).count n = 0 := by omega
    rcases hm with hm | hm
    · exact List.count_eq_zero.1 h1 hm
    · exact List.count_eq_zero.1 h2 hm
  rw [← heq] at hpos ⊢
  cases hc : a.count with
  | none => rw [hc] at hpos; simp at hpos
  | some c => simp

/-- C13, types: with `recordType` a node's type is one of the tags it occurs under; without, there is none. -/
theorem C13_types (directed nodeCount edgeWeight : Bool) (ident1 ident2 : α → ν)
    (field : ρ → String → Option (FieldVal α)) (tag1 tag2 : String) (recs : List ρ) (n : ν) (a : NodeAttr)
    (ha : (networkTwoMode directed nodeCount edgeWeight true ident1 ident2 field tag1 tag2 recs).node? n = some a) :
    (a.type = some tag1 ∧ ∃ r ∈ recs, n ∈ names ident1 field [tag1] r) ∨
    (a.type = some tag2 ∧ ∃ r ∈ recs, n ∈ names ident2 field [tag2] r) := by
  obtain ⟨h1, h2, h3, h4⟩ := run_spec edgeWeight directed (twoNode nodeCount true tag1 tag2)
    (recs.flatMap (fun r => twoEvs (names ident1 field [tag1] r) (names ident2 field [tag2] r)))
  have hnode : (networkTwoMode directed nodeCount edgeWeight true ident1 ident2 field tag1 tag2 recs).hasNode n = true := by
    unfold hasNode; rw [ha]; rfl
  obtain ⟨r, hr, hin⟩ := ((C13_edges_nodes directed nodeCount edgeWeight true ident1 ident2 field tag1 tag2 recs).2.2.2 n).1 hnode
  rw [← twoMode_run] at h4
  rw [h4] at ha
  obtain ⟨g1, g2⟩ := (fold_typing (typing_twoNode nodeCount tag1 tag2) n _).2 a ha
  have hne : nodeEvs n (recs.flatMap (fun r => twoEvs (names ident1 field [tag1] r) (names ident2 field [tag2] r))) ≠ 0 := by
    rw [nodeEvs_flatMap]
    intro h
    have := sum_eq_zero_iff.1 h _ (List.mem_map_of_mem hr)
    rw [nodeEvs_twoEvs] at this
    rcases hin with h' | h'
    · exact List.count_eq_zero.1 (by omega : (names ident1 field [tag1] r).count n = 0) h'
    · exact List.count_eq_zero.1 (by omega : (names ident2 field [tag2] r).count n = 0) h'
  obtain ⟨s, hs⟩ := Option.isSome_iff_exists.1 (g2 hne)
  obtain ⟨t, ht, rfl⟩ := g1 s hs
  obtain ⟨r', hr', he⟩ := List.mem_flatMap.1 ht
  simp only [twoEvs, List.mem_append, List.mem_flatMap, List.mem_map, List.mem_singleton, reduceCtorEq, and_false,
    exists_false, false_or, Ev.node.injEq] at he
  rcases he with ⟨x, hx, rfl, rfl⟩ | ⟨y, hy, rfl, rfl⟩
  · left; exact ⟨by simpa using hs, r', hr', hx⟩
  · right; exact ⟨by simpa using hs, r', hr', hy⟩

/-- C13, counts, the failure: a single record with a value under the first tag and none under the second gives a node
without a count, and the counts depend on the order of the records. -/
theorem C13_counts_wrong :
    ∃ (field : Nat → String → Option (FieldVal String)),
      (networkTwoMode false true true false id id field "AF" "TI" [0]).node? "A" = some ⟨none, none⟩ ∧
      (networkTwoMode false true true false id id field "AF" "TI" [0, 1]).node? "A" = some ⟨some 1, none⟩ ∧
      (networkTwoMode false true true false id id field "AF" "TI" [1, 0]).node? "A" = some ⟨some 2, none⟩ :=
  ⟨fun r t => if t = "AF" then some (.single "A") else if r = 0 then none else some (.single "x"), by decide⟩

example : (networkTwoMode true true true true id id fl "AF" "TI" [0, 2]).edge? "A" "x" = some (some 3) ∧
    (networkTwoMode true true true true id id fl "AF" "TI" [0, 2]).edge? "x" "A" = none ∧
    (networkTwoMode true true true true id id fl "AF" "TI" [0, 2]).node? "x" = some ⟨some 2, some "TI"⟩ ∧
    (∀ r ∈ [0, 2], names id fl ["AF"] r ≠ [] → names id fl ["TI"] r ≠ []) := by decide

/-! ## C14 -/

/-- The node names a record gives under each tag, leaving out tags that are missing or false in Python. -/
def namesPerTag (falsy : α → Bool) (ident : α → ν) (field : ρ → String → Option (FieldVal α)) (tags : List String) (r : ρ) :
    List (String × List ν) :=
  (tags.filter (fun t => match field r t with
    | none => false
    | some (.list vs) => !vs.isEmpty
    | some (.single v) => !falsy v)).map (fun t => (t, (vals (field r t)).map ident))

theorem multiModeContents_eq (falsy : α → Bool) (ident : α → ν) (field : ρ → String → Option (FieldVal α))
    (tags : List String) (r : ρ) : multiModeContents falsy ident field tags r = namesPerTag falsy ident field tags r := by
  unfold multiModeContents namesPerTag
  have : ∀ acc : List (String × List ν), tags.foldl (fun contents t =>
    match field r t with
    | none => contents
    | some (.list vs) => if vs.isEmpty then contents else contents ++ [(t, vs.map ident)]
    | some (.single v) => if falsy v then contents else contents ++ [(t, [ident v])]) acc = acc ++
      (tags.filter (fun t => match field r t with
        | none => false
        | some (.list vs) => !vs.isEmpty
        | some (.single v) => !falsy v)).map (fun t => (t, (vals (field r t)).map ident)) := by
    induction tags with
    | nil => simp
    | cons t tags ih =>
      intro acc
      rw [List.foldl_cons, ih, List.filter_cons]
      rcases h : field r t with _ | ⟨v⟩ | vs
      · simp
      · cases hv : falsy v <;> simp [vals, h, hv]
      · cases vs <;> simp [vals, h]
  exact (this []).trans (List.nil_append _)

theorem multiMode_run (nodeCount edgeWeight recordType : Bool) (falsy : α → Bool) (ident : α → ν)
    (field : ρ → String → Option (FieldVal α)) (tags : List String) (recs : List ρ) :
    networkMultiMode nodeCount edgeWeight recordType falsy ident field tags recs =
      run edgeWeight (multiModeNode nodeCount recordType) (Graph.empty false)
        (recs.flatMap (fun r => modeEvs (namesPerTag falsy ident field tags r))) := by
  unfold networkMultiMode
  rw [← foldl_run]
  congr 1
  funext g r
  rw [multiModeRecord_eq, multiModeContents_eq]

/-- C14: the edge between `u` and `v` has as weight the number of times they co-occur in a record under two different of
the given tags, and is missing when they never do; nodes are exactly the values that occur. -/
theorem C14_edges_nodes (nodeCount edgeWeight recordType : Bool) (falsy : α → Bool) (ident : α → ν)
    (field : ρ → String → Option (FieldVal α)) (tags : List String) (recs : List ρ) :
    let g := networkMultiMode nodeCount edgeWeight recordType falsy ident field tags recs
    g.WF ∧ g.directed = false ∧
    (∀ u v, g.edge? u v = edgeFor edgeWeight
      (recs.map (fun r => crossSharedAll ((namesPerTag falsy ident field tags r).map Prod.snd) u v)).sum) ∧
    (∀ n, g.hasNode n = true ↔ ∃ r ∈ recs, ∃ c ∈ namesPerTag falsy ident field tags r, n ∈ c.2) := by
  obtain ⟨h1, h2, h3, h4⟩ := run_spec edgeWeight false (multiModeNode nodeCount recordType)
    (recs.flatMap (fun r => modeEvs (namesPerTag falsy ident field tags r)))
  rw [← multiMode_run] at h1 h2 h3 h4
  refine ⟨h1, h2, fun u v => ?_, fun n => ?_⟩
  · rw [h3, sum_map_countP]
    simp only [countP_modeEvs]
    rfl
  · unfold hasNode
    rw [h4, onNode_isSome]
    simp only [Option.isSome_none, Bool.false_eq_true, false_or]
    constructor
    · rintro ⟨e, he, hm⟩
      obtain ⟨r, hr, he⟩ := List.mem_flatMap.1 he
      exact ⟨r, hr, (mentions_modeEvs n _).1 (List.find?_isSome.2 ⟨e, he, hm⟩)⟩
    · rintro ⟨r, hr, h⟩
      obtain ⟨e, he, hm⟩ := List.find?_isSome.1 ((mentions_modeEvs n _).2 h)
      exact ⟨e, List.mem_flatMap.2 ⟨r, hr, he⟩, hm⟩

/-- C14: with the same tag given once, values that only ever occur under one and the same tag are not joined. -/
theorem C14_same_tag_not_joined (nodeCount edgeWeight recordType : Bool) (falsy : α → Bool) (ident : α → ν)
    (field : ρ → String → Option (FieldVal α)) (tags : List String) (htags : tags.Nodup) (recs : List ρ) (u v : ν)
    (t : String) (hu : ∀ r ∈ recs, ∀ t' ∈ tags, u ∈ (vals (field r t')).map ident → t' = t)
    (hv : ∀ r ∈ recs, ∀ t' ∈ tags, v ∈ (vals (field r t')).map ident → t' = t) :
    (networkMultiMode nodeCount edgeWeight recordType falsy ident field tags recs).edge? u v = none := by
  obtain ⟨_, _, h3, _⟩ := C14_edges_nodes nodeCount edgeWeight recordType falsy ident field tags recs
  rw [h3]
  have : (recs.map (fun r => crossSharedAll ((namesPerTag falsy ident field tags r).map Prod.snd) u v)).sum = 0 := by
    rw [sum_eq_zero_iff]
    intro x hx
    obtain ⟨r, hr, rfl⟩ := List.mem_map.1 hx
    unfold namesPerTag
    rw [List.map_map]
    have hsub : ∀ (ts : List String), ts.Sublist tags →
        crossSharedAll (ts.map (Prod.snd ∘ fun t => (t, (vals (field r t)).map ident))) u v = 0 := by
      intro ts
      induction ts with
      | nil => intro _; rfl
      | cons t1 ts ih =>
        intro hs
        rw [List.map_cons, crossSharedAll, ih ((List.sublist_cons_self t1 ts).trans hs), Nat.add_zero, sum_eq_zero_iff]
        intro x hx
        obtain ⟨l', hl', rfl⟩ := List.mem_map.1 hx
        obtain ⟨t2, ht2, rfl⟩ := List.mem_map.1 hl'
        have hne : t1 ≠ t2 := by
          have := htags.sublist hs
          rw [List.nodup_cons] at this
          rintro rfl; exact this.1 ht2
        have m1 : t1 ∈ tags := hs.subset (by simp)
        have m2 : t2 ∈ tags := hs.subset (by simp [ht2])
        have z : ∀ w w', (∀ t' ∈ tags, w ∈ (vals (field r t')).map ident → t' = t) →
            (∀ t' ∈ tags, w' ∈ (vals (field r t')).map ident → t' = t) →
            ((vals (field r t1)).map ident).count w * ((vals (field r t2)).map ident).count w' = 0 := by
          intro w w' hw hw'
          by_cases h1 : w ∈ (vals (field r t1)).map ident
          · have e1 := hw t1 m1 h1
            have : w' ∉ (vals (field r t2)).map ident := fun h2 => hne (e1.trans (hw' t2 m2 h2).symm)
            rw [List.count_eq_zero.2 this, Nat.mul_zero]
          · rw [List.count_eq_zero.2 h1, Nat.zero_mul]
        show crossShared false ((vals (field r t1)).map ident) ((vals (field r t2)).map ident) u v = 0
        unfold crossShared
        split
        · exact z u v (hu r hr) (hv r hr)
        · rw [z u v (hu r hr) (hv r hr), z v u (hv r hr) (hu r hr)]
    exact hsub _ List.filter_sublist
  rw [this]; rfl

/-- C14, counts, exactly: a node's count is its number of occurrences, less one when the first record visited that holds
it has values under only one of the tags; a count of zero is not stored. -/
theorem C14_counts_exact_partial (edgeWeight recordType : Bool) (falsy : α → Bool) (ident : α → ν)
    (field : ρ → String → Option (FieldVal α)) (tags : List String) (recs : List ρ) (n : ν) (a : NodeAttr)
    (ha : (networkMultiMode true edgeWeight recordType falsy ident field tags recs).node? n = some a) :
    a.count ≠ some 0 ∧
    ∃ first, recs.find? (fun r => (namesPerTag falsy ident field tags r).any (fun c => decide (n ∈ c.2))) = some first ∧
      a.count.getD 0 + (if (namesPerTag falsy ident field tags first).length = 1 then 1 else 0) =
        (recs.map (fun r => ((namesPerTag falsy ident field tags r).map (fun c => c.2.count n)).sum)).sum := by
  obtain ⟨h1, h2, h3, h4⟩ := run_spec edgeWeight false (multiModeNode true recordType)
    (recs.flatMap (fun r => modeEvs (namesPerTag falsy ident field tags r)))
  rw [← multiMode_run] at h4
  rw [h4] at ha
  have hf := fold_counting (counting_multiModeNode recordType) n
    (recs.flatMap (fun r => modeEvs (namesPerTag falsy ident field tags r)))
  rw [ha] at hf
  simp only [] at hf
  obtain ⟨f1, f2, f3⟩ := hf
  rw [find?_records _ n (fun _ => true) recs
    (fun r => (namesPerTag falsy ident field tags r).any (fun c => decide (n ∈ c.2)))
    (fun r => by rw [mentions_modeEvs]; simp)] at f1 f3
  refine ⟨f2, ?_⟩
  cases hfi : recs.find? (fun r => (namesPerTag falsy ident field tags r).any (fun c => decide (n ∈ c.2))) with
  | none => rw [hfi] at f1; simp at f1
  | some first =>
    refine ⟨first, rfl, ?_⟩
    have hm := List.find?_some hfi
    simp only [List.any_eq_true, decide_eq_true_eq] at hm
    have hne : ∀ c ∈ namesPerTag falsy ident field tags first, c.2 ≠ [] := by
      intro c hc
      obtain ⟨t, ht, rfl⟩ := List.mem_map.1 hc
      have := (List.mem_filter.1 ht).2
      cases hft : field first t with
      | none => simp [hft] at this
      | some fv =>
        cases fv with
        | single v => simp [vals, hft]
        | list vs => simp [hft] at this; simp [vals, hft, this]
    rw [hfi, Option.bind_some, lossy_modeEvs n _ hne hm, nodeEvs_flatMap] at f3
    simp only [nodeEvs_modeEvs] at f3
    exact f3

/-- C14, types: counted and with `recordType`, a node's type is one of the tags it occurs under. -/
theorem C14_types (edgeWeight : Bool) (falsy : α → Bool) (ident : α → ν)
    (field : ρ → String → Option (FieldVal α)) (tags : List String) (recs : List ρ) (n : ν) (a : NodeAttr)
    (ha : (networkMultiMode true edgeWeight true falsy ident field tags recs).node? n = some a) :
    ∃ r ∈ recs, ∃ c ∈ namesPerTag falsy ident field tags r, n ∈ c.2 ∧ a.type = some c.1 := by
  obtain ⟨h1, h2, h3, h4⟩ := run_spec edgeWeight false (multiModeNode true true)
    (recs.flatMap (fun r => modeEvs (namesPerTag falsy ident field tags r)))
  have hnode : (networkMultiMode true edgeWeight true falsy ident field tags recs).hasNode n = true := by
    unfold hasNode; rw [ha]; rfl
  obtain ⟨r, hr, c, hc, hin⟩ := ((C14_edges_nodes true edgeWeight true falsy ident field tags recs).2.2.2 n).1 hnode
  rw [← multiMode_run] at h4
  rw [h4] at ha
  obtain ⟨g1, g2⟩ := (fold_typing typing_multiModeNode n _).2 a ha
  have hne : nodeEvs n (recs.flatMap (fun r => modeEvs (namesPerTag falsy ident field tags r))) ≠ 0 := by
    rw [nodeEvs_flatMap]
    intro h
    have := sum_eq_zero_iff.1 h _ (List.mem_map_of_mem hr)
    rw [nodeEvs_modeEvs] at this
    have := sum_eq_zero_iff.1 this _ (List.mem_map_of_mem hc)
    exact List.count_eq_zero.1 this hin
  obtain ⟨s, hs⟩ := Option.isSome_iff_exists.1 (g2 hne)
  have ht := g1 s hs
  have ht' : (Ev.node n s) ∈ recs.flatMap (fun r => modeEvs (namesPerTag falsy ident field tags r)) := by
    obtain ⟨t, ht, h⟩ := ht; subst h; exact ht
  obtain ⟨r', hr', he⟩ := List.mem_flatMap.1 ht'
  have key : ∀ (t : String) (cs : List (String × List ν)), (Ev.node n t) ∈ modeEvs cs → ∃ c ∈ cs, n ∈ c.2 ∧ c.1 = t := by
    intro t cs
    induction cs with
    | nil => simp [modeEvs]
    | cons p cs ih =>
      rw [modeEvs, List.mem_append]
      rintro (h | h)
      · simp only [List.mem_flatMap, List.mem_append, List.mem_map, List.mem_singleton, reduceCtorEq, and_false,
          exists_false, false_or, Ev.node.injEq] at h
        obtain ⟨x, hx, rfl, rfl⟩ := h
        exact ⟨p, by simp, hx, rfl⟩
      · obtain ⟨c, hc, h1, h2⟩ := ih h
        exact ⟨c, by simp [hc], h1, h2⟩
  obtain ⟨c', hc', hn', hct⟩ := key _ _ he
  exact ⟨r', hr', c', hc', hn', by rw [hs, hct]⟩

/-- C14, counts, the failure: a record with only one of the tags gives nodes without a count; and without counting, the
type of a node is the concatenation of a tag for every occurrence. -/
theorem C14_counts_wrong :
    ∃ (field : Nat → String → Option (FieldVal String)),
      (networkMultiMode true true false (fun s => s == "") id field ["AF", "TI"] [0]).node? "A" = some ⟨none, none⟩ ∧
      (networkMultiMode false true true (fun s => s == "") id field ["AF", "TI"] [1, 2]).node? "A" =
        some ⟨none, some "AFAF"⟩ :=
  ⟨fun r t => if t = "AF" then some (.single "A") else if r = 0 then none else some (.single "x"), by decide⟩

example : (networkMultiMode true true true (fun s => s == "") id fl ["AF", "TI"] [0, 1, 2]).edge? "A" "x" = some (some 3) ∧
    (networkMultiMode true true true (fun s => s == "") id fl ["AF", "TI"] [0, 1, 2]).edge? "A" "B" = none ∧
    (networkMultiMode true true true (fun s => s == "") id fl ["AF", "TI"] [0, 1, 2]).node? "A" = some ⟨some 3, some "AF"⟩ := by
  decide

end Verif.Props
