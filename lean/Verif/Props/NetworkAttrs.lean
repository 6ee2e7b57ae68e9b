import Verif.Lemmas.NetworkAttrs2
import Verif.Props.Networks

/-! # C89, C90: tags for the edges and for the nodes of networks -/
set_option autoImplicit false
set_option linter.unusedSectionVars false
set_option linter.unusedSimpArgs false
namespace Verif.Props.NetworkAttrs
open Verif.Py Verif.Spec Verif.Spec.NetworkAttrs Verif.Model.Series Verif.Model.NetworkAttrs
open Verif.Model.Networks hiding networkMultiLevel networkOneMode

variable {ρ α ν σ τ : Type} [DecidableEq ν] [DecidableEq σ]

/-! ## C89 -/

theorem twoModeKeyed_run [DecidableEq α] (directed nodeCount edgeWeight recordType : Bool) (ident1 ident2 : α → ν)
    (field : ρ → String → Option (FieldVal α)) (tag1 tag2 edgeTag : String) (recs : List ρ) :
    networkTwoModeKeyed directed nodeCount edgeWeight recordType ident1 ident2 field tag1 tag2 edgeTag recs =
      MultiGraph.run edgeWeight (twoNode nodeCount recordType tag1 tag2) (MultiGraph.empty directed)
        (recs.flatMap (fun r => twoKeyEvs (vals (field r edgeTag)) (names ident1 field [tag1] r) (names ident2 field [tag2] r))) := by
  unfold networkTwoModeKeyed
  rw [← foldl_multi]
  congr 1
  funext g r
  rw [twoModeKeyedRecord_eq, twoModeContents_eq, twoModeContents_eq, twoModeVals_eq]
  simp [names]

/-- C89, two modes: between two values there is one edge for every value of the edge tag that some record with both, one under
each tag, has; its weight is the number of those co-occurrences (of the two values and the value of the edge tag). Nodes are
exactly the values that occur. -/
theorem C89_two_mode [DecidableEq α] (directed nodeCount edgeWeight recordType : Bool) (ident1 ident2 : α → ν)
    (field : ρ → String → Option (FieldVal α)) (tag1 tag2 edgeTag : String) (recs : List ρ) :
    let g := networkTwoModeKeyed directed nodeCount edgeWeight recordType ident1 ident2 field tag1 tag2 edgeTag recs
    g.WF ∧ g.directed = directed ∧
    (∀ u v k, g.edge? u v k = edgeFor edgeWeight (recs.map (fun r =>
      crossShared directed (names ident1 field [tag1] r) (names ident2 field [tag2] r) u v * (vals (field r edgeTag)).count k)).sum) ∧
    (∀ n, g.hasNode n = true ↔ ∃ r ∈ recs, n ∈ names ident1 field [tag1] r ∨ n ∈ names ident2 field [tag2] r) := by
  obtain ⟨h1, h2, h3, h4⟩ := MultiGraph.run_spec edgeWeight directed (twoNode nodeCount recordType tag1 tag2)
    (recs.flatMap (fun r => twoKeyEvs (vals (field r edgeTag)) (names ident1 field [tag1] r) (names ident2 field [tag2] r)))
  rw [← twoModeKeyed_run] at h1 h2 h3 h4
  refine ⟨h1, h2, fun u v k => ?_, fun n => ?_⟩
  · rw [h3, sum_map_countP]
    simp only [countP_twoKeyEvs]
    rfl
  · unfold MultiGraph.hasNode
    rw [h4, Graph.onNode_isSome]
    simp only [Option.isSome_none, Bool.false_eq_true, false_or, List.map_flatMap]
    constructor
    · rintro ⟨e, he, hm⟩
      obtain ⟨r, hr, he⟩ := List.mem_flatMap.1 he
      exact ⟨r, hr, (mentions_twoKeyEvs n _ _ _).1 (List.find?_isSome.2 ⟨e, he, hm⟩)⟩
    · rintro ⟨r, hr, h⟩
      obtain ⟨e, he, hm⟩ := List.find?_isSome.1 ((mentions_twoKeyEvs n (vals (field r edgeTag)) _ _).2 h)
      exact ⟨e, List.mem_flatMap.2 ⟨r, hr, he⟩, hm⟩

/-- C89, two modes, counts, exactly: a node's count is its number of occurrences, less one when in the first record visited
that holds it, it is a value of the first tag and no edge is made, because the second tag or the edge tag has no value. -/
theorem C89_two_mode_counts [DecidableEq α] (directed edgeWeight recordType : Bool) (ident1 ident2 : α → ν)
    (field : ρ → String → Option (FieldVal α)) (tag1 tag2 edgeTag : String) (recs : List ρ) (n : ν) (a : NodeAttr)
    (ha : (networkTwoModeKeyed directed true edgeWeight recordType ident1 ident2 field tag1 tag2 edgeTag recs).node? n = some a) :
    a.count ≠ some 0 ∧
    ∃ first, recs.find? (fun r => decide (n ∈ names ident1 field [tag1] r ∨ n ∈ names ident2 field [tag2] r)) = some first ∧
      a.count.getD 0 + (if n ∈ names ident1 field [tag1] first ∧
        (names ident2 field [tag2] first = [] ∨ vals (field first edgeTag) = []) then 1 else 0) =
        (recs.map (fun r => (names ident1 field [tag1] r).count n + (names ident2 field [tag2] r).count n)).sum := by
  obtain ⟨-, -, -, h4⟩ := MultiGraph.run_spec edgeWeight directed (twoNode true recordType tag1 tag2)
    (recs.flatMap (fun r => twoKeyEvs (vals (field r edgeTag)) (names ident1 field [tag1] r) (names ident2 field [tag2] r)))
  rw [← twoModeKeyed_run] at h4
  rw [h4, List.map_flatMap] at ha
  have hf := fold_counting (counting_twoNode recordType tag1 tag2) n
    (recs.flatMap (fun r => (twoKeyEvs (vals (field r edgeTag)) (names ident1 field [tag1] r) (names ident2 field [tag2] r)).map
      MultiGraph.Ev.plain))
  rw [ha] at hf
  simp only [] at hf
  obtain ⟨f1, f2, f3⟩ := hf
  rw [find?_records _ n (fun b => !b) recs
    (fun r => decide (n ∈ names ident1 field [tag1] r ∨ n ∈ names ident2 field [tag2] r))
    (fun r => by rw [mentions_twoKeyEvs]; simp)] at f1 f3
  refine ⟨f2, ?_⟩
  cases hfi : recs.find? (fun r => decide (n ∈ names ident1 field [tag1] r ∨ n ∈ names ident2 field [tag2] r)) with
  | none => rw [hfi] at f1; simp at f1
  | some first =>
    refine ⟨first, rfl, ?_⟩
    have hm := List.find?_some hfi
    rw [decide_eq_true_eq] at hm
    rw [hfi, Option.bind_some, lossy_twoKeyEvs n _ _ _ hm, nodeEvs_flatMap] at f3
    simp only [nodeEvs_twoKeyEvs] at f3
    exact f3

/-- C89, two modes, types: with `recordType` a node's type is one of the tags it occurs under. -/
theorem C89_two_mode_types [DecidableEq α] (directed nodeCount edgeWeight : Bool) (ident1 ident2 : α → ν)
    (field : ρ → String → Option (FieldVal α)) (tag1 tag2 edgeTag : String) (recs : List ρ) (n : ν) (a : NodeAttr)
    (ha : (networkTwoModeKeyed directed nodeCount edgeWeight true ident1 ident2 field tag1 tag2 edgeTag recs).node? n = some a) :
    (a.type = some tag1 ∧ ∃ r ∈ recs, n ∈ names ident1 field [tag1] r) ∨
    (a.type = some tag2 ∧ ∃ r ∈ recs, n ∈ names ident2 field [tag2] r) := by
  obtain ⟨-, -, -, h4⟩ := MultiGraph.run_spec edgeWeight directed (twoNode nodeCount true tag1 tag2)
    (recs.flatMap (fun r => twoKeyEvs (vals (field r edgeTag)) (names ident1 field [tag1] r) (names ident2 field [tag2] r)))
  have hnode : (networkTwoModeKeyed directed nodeCount edgeWeight true ident1 ident2 field tag1 tag2 edgeTag recs).hasNode n =
      true := by unfold MultiGraph.hasNode; rw [ha]; rfl
  obtain ⟨r, hr, hin⟩ := ((C89_two_mode directed nodeCount edgeWeight true ident1 ident2 field tag1 tag2 edgeTag recs).2.2.2 n).1 hnode
  rw [← twoModeKeyed_run] at h4
  rw [h4, List.map_flatMap] at ha
  obtain ⟨g1, g2⟩ := (fold_typing (typing_twoNode nodeCount tag1 tag2) n _).2 a ha
  have hne : nodeEvs n (recs.flatMap (fun r => (twoKeyEvs (vals (field r edgeTag)) (names ident1 field [tag1] r)
      (names ident2 field [tag2] r)).map MultiGraph.Ev.plain)) ≠ 0 := by
    rw [nodeEvs_flatMap]
    intro h
    have := sum_eq_zero_iff.1 h _ (List.mem_map_of_mem hr)
    rw [nodeEvs_twoKeyEvs] at this
    rcases hin with h' | h'
    · exact List.count_eq_zero.1 (by omega : (names ident1 field [tag1] r).count n = 0) h'
    · exact List.count_eq_zero.1 (by omega : (names ident2 field [tag2] r).count n = 0) h'
  obtain ⟨s, hs⟩ := Option.isSome_iff_exists.1 (g2 hne)
  obtain ⟨t, ht, rfl⟩ := g1 s hs
  obtain ⟨r', hr', he⟩ := List.mem_flatMap.1 ht
  obtain ⟨e, he, heq⟩ := List.mem_map.1 he
  simp only [twoKeyEvs, List.mem_append, List.mem_flatMap, List.mem_map, List.mem_singleton] at he
  rcases he with ⟨x, hx, ⟨y, hy, k, hk, rfl⟩ | rfl⟩ | ⟨y, hy, rfl⟩
  · simp [MultiGraph.Ev.plain] at heq
  · simp only [MultiGraph.Ev.plain, Graph.Ev.node.injEq] at heq
    obtain ⟨rfl, rfl⟩ := heq
    left; exact ⟨by simpa using hs, r', hr', hx⟩
  · simp only [MultiGraph.Ev.plain, Graph.Ev.node.injEq] at heq
    obtain ⟨rfl, rfl⟩ := heq
    right; exact ⟨by simpa using hs, r', hr', hy⟩

/-- The names and texts of records for the examples: authors, languages as a list, a year, which cannot be gone over. -/
private def fl : Nat → String → Option (FieldVal String) := fun r t =>
  if t = "AF" then (if r = 0 then some (.list ["A", "B"]) else if r = 1 then some (.single "A") else some (.list ["B", "A"]))
  else if t = "LA" then (if r = 0 then some (.list ["en", "fr"]) else if r = 1 then none else some (.single "de"))
  else if t = "PY" then some (.single "1999") else if t = "TI" then some (.single "x") else none

private def it : String → Option (List String) := fun s => if s = "1999" then none else some (s.toList.map (fun c => c.toString))

example : (networkTwoModeKeyed true true true true id id fl "AF" "TI" "PY" [0, 1, 2]).edge? "A" "x" "1999" = some (some 3) ∧
    (networkTwoModeKeyed true true true true id id fl "AF" "TI" "LA" [0, 1, 2]).edge? "A" "x" "fr" = some (some 1) ∧
    (networkTwoModeKeyed true true true true id id fl "AF" "TI" "LA" [0, 1, 2]).edge? "A" "x" "de" = some (some 1) ∧
    (networkTwoModeKeyed true true true true id id fl "AF" "TI" "LA" [0, 1, 2]).edge? "x" "A" "de" = none ∧
    (networkTwoModeKeyed true true true true id id fl "AF" "TI" "LA" [0, 1, 2]).node? "A" = some ⟨some 3, some "AF"⟩ ∧
    (networkTwoModeKeyed true true true true id id fl "AF" "TI" "LA" [1, 0, 2]).node? "A" = some ⟨some 2, some "AF"⟩ := by decide

/-- What C89 asks of a multi-level network: an edge for every two values and value of the edge tag that co-occur, with weight
the number of co-occurrences; the nodes are the values that occur, counted. -/
def IsKeyedNetwork (nodeCount edgeWeight : Bool) (names : ρ → List ν) (ks : ρ → List σ) (recs : List ρ) (g : MultiNet ν σ) : Prop :=
  g.WF ∧ g.directed = false ∧
  (∀ u v k, g.edge? u v k = edgeFor edgeWeight (recs.map (fun r => pairsShared (names r) u v * (ks r).count k)).sum) ∧
  (∀ n, g.node? n =
    let occ := (recs.map (fun r => (names r).count n)).sum
    if occ = 0 then none else some { count := if nodeCount then some occ else none, type := none })

theorem keyed_network (nodeCount edgeWeight : Bool) (names : ρ → List ν) (ks : ρ → List σ) (recs : List ρ) :
    IsKeyedNetwork nodeCount edgeWeight names ks recs (MultiGraph.run edgeWeight (levelNode nodeCount) (MultiGraph.empty false)
      (recs.flatMap (fun r => keyEvs (ks r) (names r)))) := by
  obtain ⟨h1, h2, h3, h4⟩ := MultiGraph.run_spec edgeWeight false (levelNode nodeCount)
    (recs.flatMap (fun r => keyEvs (ks r) (names r)))
  refine ⟨h1, h2, fun u v k => ?_, fun n => ?_⟩
  · rw [h3, sum_map_countP]
    simp only [countP_keyEvs]
    rfl
  · rw [h4, onNode_level, List.map_flatMap, nodeEvs_flatMap]
    simp only [nodeEvs_keyEvs]
    have hany : (recs.flatMap (fun r => (keyEvs (ks r) (names r)).map MultiGraph.Ev.plain)).any (Graph.Ev.mentions n) = true ↔
        (recs.map (fun r => (names r).count n)).sum ≠ 0 := by
      rw [List.any_eq_true]
      constructor
      · rintro ⟨e, he, hm⟩
        obtain ⟨r, hr, he⟩ := List.mem_flatMap.1 he
        have hin := (mentions_keyEvs n _ _).1 ⟨e, he, hm⟩
        intro h0
        have := sum_eq_zero_iff.1 h0 _ (List.mem_map_of_mem hr)
        exact absurd hin (List.count_eq_zero.1 this)
      · intro h0
        by_contra hne
        apply h0
        rw [sum_eq_zero_iff]
        intro x hx
        obtain ⟨r, hr, rfl⟩ := List.mem_map.1 hx
        rw [List.count_eq_zero]
        intro hin
        obtain ⟨e, he, hm⟩ := (mentions_keyEvs n (ks r) _).2 hin
        exact hne ⟨e, List.mem_flatMap.2 ⟨r, hr, he⟩, hm⟩
    by_cases h0 : (recs.map (fun r => (names r).count n)).sum = 0
    · rw [if_neg (fun h => hany.1 h h0)]; simp [h0]
    · rw [if_pos (hany.2 h0)]
      simp only [h0, ne_eq, not_false_iff, and_true, if_false]

/-- C89, multi-level networks, where the tags can be gone over: the network is right when it has no weights, or when no two
values co-occur twice with the same value of the edge tag. Missing from the full claim: co-occurrences that must be counted,
see `C89_repeat_raises`. -/
theorem C89_multi_level_partial (nodeCount edgeWeight : Bool) (ident : α → ν) (str : α → σ) (iter : α → Option (List σ))
    (field : ρ → τ → Option (FieldVal α)) (modes : List τ) (edgeTag : τ) (nodeTag : Option τ) (ks vs : ρ → List σ) (recs : List ρ)
    (hk : ∀ r ∈ recs, Gives str iter (field r edgeTag) (ks r))
    (hv : ∀ t, nodeTag = some t → ∀ r ∈ recs, Gives str iter (field r t) (vs r))
    (hone : edgeWeight = false ∨
      ∀ u v k, (recs.map (fun r => pairsShared (names ident field modes r) u v * (ks r).count k)).sum ≤ 1) :
    ∃ g s, networkMultiLevelKeyed nodeCount edgeWeight ident str iter field modes edgeTag nodeTag
        (MultiGraph.empty false, ⟨[], []⟩) recs = .ok (g, s) ∧
      IsKeyedNetwork nodeCount edgeWeight (names ident field modes) ks recs g := by
  refine ⟨_, noteAll nodeTag vs (contentsOf ident field modes) ⟨[], []⟩ recs, ?_,
    keyed_network nodeCount edgeWeight (names ident field modes) ks recs⟩
  have hn : contentsOf ident field modes = names ident field modes := by funext r; rw [contentsOf_eq]; rfl
  rw [keyed_ok nodeCount edgeWeight ident str iter field modes edgeTag nodeTag ks vs recs hk hv, hn,
    (runE_spec edgeWeight false (levelNode nodeCount) _).1]
  · rfl
  · rcases hone with h | h
    · exact Or.inl h
    · right
      intro u v k
      rw [sum_map_countP]
      simp only [countP_keyEvs]
      exact h u v k

/-- C89, the failure: in a multi-level network with weights the call raises as soon as two values co-occur twice with the same
value of the edge tag. -/
theorem C89_repeat_raises (nodeCount : Bool) (ident : α → ν) (str : α → σ) (iter : α → Option (List σ))
    (field : ρ → τ → Option (FieldVal α)) (modes : List τ) (edgeTag : τ) (nodeTag : Option τ) (ks vs : ρ → List σ) (recs : List ρ)
    (hk : ∀ r ∈ recs, Gives str iter (field r edgeTag) (ks r))
    (hv : ∀ t, nodeTag = some t → ∀ r ∈ recs, Gives str iter (field r t) (vs r))
    (htwo : ∃ u v k, 2 ≤ (recs.map (fun r => pairsShared (names ident field modes r) u v * (ks r).count k)).sum) :
    networkMultiLevelKeyed nodeCount true ident str iter field modes edgeTag nodeTag (MultiGraph.empty false, ⟨[], []⟩) recs =
      .error .valueError := by
  have hn : contentsOf ident field modes = names ident field modes := by funext r; rw [contentsOf_eq]; rfl
  rw [keyed_ok nodeCount true ident str iter field modes edgeTag nodeTag ks vs recs hk hv, hn,
    (runE_spec true false (levelNode nodeCount) _).2 rfl]
  · rfl
  · obtain ⟨u, v, k, h⟩ := htwo
    refine ⟨u, v, k, ?_⟩
    rw [sum_map_countP]
    simp only [countP_keyEvs]
    exact h

/-- C89, the failure: an edge tag with a value that cannot be gone over, such as the year, makes the call raise. -/
theorem C89_number_raises (nodeCount edgeWeight : Bool) (ident : α → ν) (str : α → σ) (iter : α → Option (List σ))
    (field : ρ → τ → Option (FieldVal α)) (modes : List τ) (edgeTag : τ) (nodeTag : Option τ) (recs : List ρ)
    (h : ∃ r ∈ recs, Refuses iter (field r edgeTag)) :
    ∃ e, networkMultiLevelKeyed nodeCount edgeWeight ident str iter field modes edgeTag nodeTag
      (MultiGraph.empty false, ⟨[], []⟩) recs = .error e :=
  keyed_error nodeCount edgeWeight ident str iter field modes edgeTag nodeTag recs h _ _

/-- C89: a one-mode network is the multi-level network of one tag. -/
theorem C89_one_mode (nodeCount edgeWeight : Bool) (ident : α → ν) (str : α → σ) (iter : α → Option (List σ))
    (field : ρ → τ → Option (FieldVal α)) (mode edgeTag : τ) (nodeTag : Option τ) (recs : List ρ) :
    networkOneModeKeyed nodeCount edgeWeight ident str iter field mode edgeTag nodeTag recs =
      networkMultiLevelKeyed nodeCount edgeWeight ident str iter field [mode] edgeTag nodeTag
        (MultiGraph.empty false, ⟨[], []⟩) recs := rfl

/-- C89, the failure: a text is taken apart, so the edges get its characters for keys; and a text with the same character twice
makes the call raise. -/
theorem C89_text_taken_apart : ∃ (field : Nat → String → Option (FieldVal String)),
    (∃ g s, networkOneModeKeyed true true id id (fun s => some (s.toList.map (fun c => c.toString))) field "AF" "LA" none [0] =
        .ok (g, s) ∧ g.edge? "A" "B" "de" = none ∧ g.edge? "A" "B" "d" = some (some 1) ∧ g.edge? "A" "B" "e" = some (some 1)) ∧
    networkOneModeKeyed true true id id (fun s => some (s.toList.map (fun c => c.toString))) field "AF" "LA" none [1] =
      .error .valueError := by
  refine ⟨fun r t => if t = "AF" then some (.list ["A", "B"]) else if r = 0 then some (.single "de") else some (.single "ee"),
    ⟨_, _, rfl, by decide, by decide, by decide⟩, rfl⟩

/-- C89, n-mode networks, the failure: the call raises as soon as a record has values under two of the tags; otherwise the
network has no edges and the nodes it has without an edge tag. -/
theorem C89_multi_mode (nodeCount edgeWeight recordType : Bool) (falsy : α → Bool) (ident : α → ν)
    (field : ρ → String → Option (FieldVal α)) (tags : List String) (recs : List ρ) :
    ((∃ r ∈ recs, 2 ≤ (namesPerTag falsy ident field tags r).length) →
      networkMultiModeKeyed nodeCount recordType falsy ident field tags (MultiGraph.empty false : MultiNet ν σ) recs =
        .error .nameError) ∧
    ((∀ r ∈ recs, (namesPerTag falsy ident field tags r).length ≤ 1) →
      ∃ g, networkMultiModeKeyed nodeCount recordType falsy ident field tags (MultiGraph.empty false : MultiNet ν σ) recs = .ok g ∧
        g.edges = [] ∧ ∀ n, g.node? n = (networkMultiMode nodeCount edgeWeight recordType falsy ident field tags recs).node? n) := by
  have hne : ∀ r, ∀ c ∈ namesPerTag falsy ident field tags r, c.2 ≠ [] := by
    intro r c hc
    unfold namesPerTag at hc
    obtain ⟨t, ht, rfl⟩ := List.mem_map.1 hc
    have := (List.mem_filter.1 ht).2
    rcases h : field r t with _ | ⟨v⟩ | vs
    · rw [h] at this; simp at this
    · simp [vals]
    · rw [h] at this
      simp only [vals]
      cases vs with
      | nil => simp at this
      | cons v vs => simp
  have key : ∀ (recs : List ρ) (g : MultiNet ν σ) (g' : Net ν), SameNodes g g' →
      ((∃ r ∈ recs, 2 ≤ (namesPerTag falsy ident field tags r).length) →
        networkMultiModeKeyed nodeCount recordType falsy ident field tags g recs = .error .nameError) ∧
      ((∀ r ∈ recs, (namesPerTag falsy ident field tags r).length ≤ 1) →
        ∃ g1, networkMultiModeKeyed nodeCount recordType falsy ident field tags g recs = .ok g1 ∧
          SameNodes g1 (recs.foldl (fun g r => multiModeRecord nodeCount edgeWeight recordType g
            (multiModeContents falsy ident field tags r)) g')) := by
    intro recs
    induction recs with
    | nil => intro g g' h; exact ⟨fun ⟨r, hr, _⟩ => by simp at hr, fun _ => ⟨g, rfl, h⟩⟩
    | cons r recs ih =>
      intro g g' h
      unfold networkMultiModeKeyed
      by_cases hr : (namesPerTag falsy ident field tags r).length ≤ 1
      · have hr' : (multiModeContents falsy ident field tags r).length ≤ 1 := by rw [multiModeContents_eq]; exact hr
        obtain ⟨g1, e1, e2⟩ := multiModeKeyedRecord_ok nodeCount edgeWeight recordType _ hr' g g' h
        simp only [e1]
        obtain ⟨k1, k2⟩ := ih g1 _ e2
        refine ⟨fun ⟨r', h1, h2⟩ => k1 ?_, fun hall => ?_⟩
        · rcases List.mem_cons.1 h1 with rfl | h1
          · omega
          · exact ⟨r', h1, h2⟩
        · rw [List.foldl_cons]
          exact k2 (fun r' hr' => hall r' (List.mem_cons_of_mem _ hr'))
      · have herr : multiModeKeyedRecord nodeCount recordType g (multiModeContents falsy ident field tags r) = .error .nameError := by
          rw [multiModeContents_eq]
          have hne' := hne r
          match hcs : namesPerTag falsy ident field tags r with
          | [] => rw [hcs] at hr; simp at hr
          | [p] => rw [hcs] at hr; simp at hr
          | p :: q :: cs =>
            rw [hcs] at hne'
            exact multiModeKeyedRecord_error nodeCount recordType p q cs (hne' p (by simp)) (hne' q (by simp)) g
        rw [herr]
        exact ⟨fun _ => rfl, fun hall => absurd (hall r List.mem_cons_self) hr⟩
  have hk := key recs (MultiGraph.empty false) (Graph.empty false) ⟨rfl, rfl, rfl, rfl, rfl⟩
  refine ⟨hk.1, fun hall => ?_⟩
  obtain ⟨g1, h1, -, -, h4, h5, -⟩ := hk.2 hall
  refine ⟨g1, h1, h5, fun n => ?_⟩
  unfold MultiGraph.node? Graph.node? networkMultiMode
  rw [h4]

example : (∀ r ∈ [0, 1], Gives id it (fl r "LA") (if r = 0 then ["en", "fr"] else [])) ∧
    (∀ u v k, ([0, 1].map (fun r => pairsShared (names id fl ["AF"] r) u v *
      (if r = 0 then ["en", "fr"] else ([] : List String)).count k)).sum ≤ 1) ∧
    (∃ u v k, 2 ≤ ([0, 2, 0].map (fun r => pairsShared (names id fl ["AF"] r) u v *
      (if r = 0 then ["en", "fr"] else ["d", "e"]).count k)).sum) ∧
    Refuses it (fl 0 "PY") := by
  refine ⟨?_, ?_, ⟨"A", "B", "en", by decide⟩, "1999", rfl, rfl⟩
  · intro r hr
    simp only [List.mem_cons, List.not_mem_nil, or_false] at hr
    rcases hr with rfl | rfl
    · exact Gives.list ["en", "fr"]
    · exact Gives.missing
  · intro u v k
    have h1 : (names id fl ["AF"] 0) = ["A", "B"] := by decide
    simp only [List.map_cons, List.map_nil, List.sum_cons, List.sum_nil, h1, if_true]
    have h2 : pairsShared ["A", "B"] u v ≤ 1 := by
      unfold pairsShared
      have hc : ∀ x : String, ["A", "B"].count x ≤ 1 := fun x => List.nodup_iff_count_le_one.1 (by decide) x
      split
      · exact (Nat.choose_le_choose 2 (hc u)).trans (by decide)
      · calc ["A", "B"].count u * ["A", "B"].count v ≤ 1 * 1 := Nat.mul_le_mul (hc u) (hc v)
          _ = 1 := rfl
    have h3 : ["en", "fr"].count k ≤ 1 := List.nodup_iff_count_le_one.1 (by decide) k
    have : pairsShared ["A", "B"] u v * ["en", "fr"].count k ≤ 1 * 1 := Nat.mul_le_mul h2 h3
    simpa using this

example : (∃ r ∈ [0, 1], 2 ≤ (namesPerTag (fun s => s == "") id fl ["AF", "TI"] r).length) ∧
    (∀ r ∈ [0, 1], (namesPerTag (fun s => s == "") id fl ["AF", "XX"] r).length ≤ 1) := by decide

/-! ## C90 -/

/-- C90, exactly: with a tag for the nodes the network is the one without; a node gets a list that begins with the values of the
first record visited that holds it, and holds all values of the records that hold it; but it holds as well the values of
every record that holds some node first met in the same record. No value is added twice. -/
theorem C90_exact (nodeCount edgeWeight : Bool) (ident : α → ν) (str : α → σ) (iter : α → Option (List σ))
    (field : ρ → τ → Option (FieldVal α)) (modes : List τ) (nodeTag : τ) (vs : ρ → List σ) (recs : List ρ)
    (hv : ∀ r ∈ recs, Gives str iter (field r nodeTag) (vs r)) :
    ∃ s, networkMultiLevel nodeCount edgeWeight ident str iter field modes (some nodeTag) (Graph.empty false, ⟨[], []⟩) recs =
        .ok (Verif.Model.Networks.networkMultiLevel nodeCount edgeWeight ident field modes recs, s) ∧
      (∀ n, (¬ ∃ r ∈ recs, n ∈ names ident field modes r) → s.read n = none) ∧
      (∀ n first, recs.find? (fun r => decide (n ∈ names ident field modes r)) = some first →
        ∃ rest, s.read n = some (vs first ++ rest) ∧
          (∀ v, v ∈ vs first ++ rest ↔ ∃ r ∈ recs, v ∈ vs r ∧ ∃ m ∈ names ident field modes r,
            firstSeen (names ident field modes) recs m = firstSeen (names ident field modes) recs n) ∧
          ((vs first).Nodup → (vs first ++ rest).Nodup)) := by
  have hn : contentsOf ident field modes = names ident field modes := by funext r; rw [contentsOf_eq]; rfl
  refine ⟨noteRecords vs (names ident field modes) ⟨[], []⟩ recs, ?_, ?_, ?_⟩
  · rw [plain_ok nodeCount edgeWeight ident str iter field modes (some nodeTag) vs recs
      (fun t ht r hr => by rw [Option.some.injEq] at ht; subst ht; exact hv r hr)]
    unfold Verif.Model.Networks.networkMultiLevel
    rw [hn]
    rfl
  · intro n hno
    obtain ⟨-, -, h3, -⟩ := noteRecords_spec vs (names ident field modes) recs
    unfold Attribs.read
    rw [h3 n hno]; rfl
  · intro n first hf
    obtain ⟨-, h2, -, h4, h5, h6⟩ := noteRecords_spec vs (names ident field modes) recs
    have hseen : ∃ r ∈ recs, n ∈ names ident field modes r :=
      ⟨first, List.mem_of_find?_eq_some hf, by simpa using List.find?_some hf⟩
    have hat : recs[firstSeen (names ident field modes) recs n]? = some first := by
      unfold firstSeen
      rw [← List.find?_eq_getElem?_findIdx]; exact hf
    obtain ⟨rest, hrest⟩ := h5 _ _ hat
    refine ⟨rest, ?_, ?_, ?_⟩
    · unfold Attribs.read
      rw [h2 n hseen, Option.map_some, hrest]
    · intro v
      rw [← hrest, h4 _ _ hat v]
      constructor
      · rintro (h | h)
        · exact ⟨first, List.mem_of_find?_eq_some hf, h, n, by simpa using List.find?_some hf, rfl⟩
        · exact h
      · exact Or.inr
    · intro hnd
      rw [← hrest]; exact h6 _ _ hat hnd

/-- C90, what holds of every node: it has the values of all records that hold it. -/
theorem C90_complete (nodeCount edgeWeight : Bool) (ident : α → ν) (str : α → σ) (iter : α → Option (List σ))
    (field : ρ → τ → Option (FieldVal α)) (modes : List τ) (nodeTag : τ) (vs : ρ → List σ) (recs : List ρ)
    (hv : ∀ r ∈ recs, Gives str iter (field r nodeTag) (vs r)) :
    ∃ g s, networkMultiLevel nodeCount edgeWeight ident str iter field modes (some nodeTag) (Graph.empty false, ⟨[], []⟩) recs =
        .ok (g, s) ∧ ∀ r ∈ recs, ∀ n ∈ names ident field modes r, ∃ l, s.read n = some l ∧ ∀ v ∈ vs r, v ∈ l := by
  obtain ⟨s, h1, -, h3⟩ := C90_exact nodeCount edgeWeight ident str iter field modes nodeTag vs recs hv
  refine ⟨_, s, h1, fun r hr n hn => ?_⟩
  cases hf : recs.find? (fun r => decide (n ∈ names ident field modes r)) with
  | none =>
    rw [List.find?_eq_none] at hf
    exact absurd (by simpa using hn) (hf r hr)
  | some first =>
    obtain ⟨rest, e1, e2, -⟩ := h3 n first hf
    exact ⟨_, e1, fun v hvv => (e2 v).2 ⟨r, hr, hvv, n, hn, rfl⟩⟩

/-- C90, the claim for nodes that share their first record with no other: the list holds exactly the values of the records that
hold the node. Missing from the full claim: nodes first met together, which share one list (`C90_shared`). -/
theorem C90_alone_partial (nodeCount edgeWeight : Bool) (ident : α → ν) (str : α → σ) (iter : α → Option (List σ))
    (field : ρ → τ → Option (FieldVal α)) (modes : List τ) (nodeTag : τ) (vs : ρ → List σ) (recs : List ρ)
    (hv : ∀ r ∈ recs, Gives str iter (field r nodeTag) (vs r)) (n : ν) (hn : ∃ r ∈ recs, n ∈ names ident field modes r)
    (halone : ∀ r ∈ recs, ∀ m ∈ names ident field modes r,
      firstSeen (names ident field modes) recs m = firstSeen (names ident field modes) recs n → m = n) :
    ∃ g s l, networkMultiLevel nodeCount edgeWeight ident str iter field modes (some nodeTag) (Graph.empty false, ⟨[], []⟩) recs =
        .ok (g, s) ∧ s.read n = some l ∧ ∀ v, v ∈ l ↔ ∃ r ∈ recs, n ∈ names ident field modes r ∧ v ∈ vs r := by
  obtain ⟨s, h1, -, h3⟩ := C90_exact nodeCount edgeWeight ident str iter field modes nodeTag vs recs hv
  cases hf : recs.find? (fun r => decide (n ∈ names ident field modes r)) with
  | none =>
    obtain ⟨r, hr, hnr⟩ := hn
    rw [List.find?_eq_none] at hf
    exact absurd (by simpa using hnr) (hf r hr)
  | some first =>
    obtain ⟨rest, e1, e2, -⟩ := h3 n first hf
    refine ⟨_, s, _, h1, e1, fun v => ?_⟩
    rw [e2]
    constructor
    · rintro ⟨r, hr, hvv, m, hm, hmn⟩
      have := halone r hr m hm hmn
      subst this
      exact ⟨r, hr, hm, hvv⟩
    · rintro ⟨r, hr, hm, hvv⟩
      exact ⟨r, hr, hvv, n, hm, rfl⟩

/-- C90, the failure: two authors first met in one paper share the list, so what is added for one is found with the other, who
wrote no such paper; and this depends on the order in which the records are visited. -/
theorem C90_shared : ∃ (field : Nat → String → Option (FieldVal String)),
    (∃ g s, networkOneMode true true id id (fun s => some [s]) field "AF" (some "PY") [0, 1] = .ok (g, s) ∧
      s.read "B" = some ["1999", "2005"]) ∧
    (∃ g s, networkOneMode true true id id (fun s => some [s]) field "AF" (some "PY") [1, 0] = .ok (g, s) ∧
      s.read "B" = some ["1999"]) ∧
    names id field ["AF"] 1 = ["A"] := by
  refine ⟨fun r t => if t = "AF" then (if r = 0 then some (.list ["A", "B"]) else some (.list ["A"])) else
    if r = 0 then some (.list ["1999"]) else some (.list ["2005"]), ⟨_, _, rfl, by decide⟩, ⟨_, _, rfl, by decide⟩, by decide⟩

/-- C90, the failure: a node tag with a value that cannot be gone over, such as the year, makes the call raise. -/
theorem C90_number_raises (nodeCount edgeWeight : Bool) (ident : α → ν) (str : α → σ) (iter : α → Option (List σ))
    (field : ρ → τ → Option (FieldVal α)) (modes : List τ) (nodeTag : τ) (recs : List ρ)
    (h : ∃ r ∈ recs, Refuses iter (field r nodeTag)) :
    networkMultiLevel nodeCount edgeWeight ident str iter field modes (some nodeTag) (Graph.empty false, ⟨[], []⟩) recs =
      .error .typeError :=
  plain_error nodeCount edgeWeight ident str iter field modes nodeTag recs h _ _

/-- C90: with a tag for the edges as well, the nodes get the same lists. -/
theorem C90_with_edge_tag (nodeCount edgeWeight : Bool) (ident : α → ν) (str : α → σ) (iter : α → Option (List σ))
    (field : ρ → τ → Option (FieldVal α)) (modes : List τ) (edgeTag nodeTag : τ) (vs ks : ρ → List σ) (recs : List ρ)
    (hk : ∀ r ∈ recs, Gives str iter (field r edgeTag) (ks r)) (hv : ∀ r ∈ recs, Gives str iter (field r nodeTag) (vs r))
    (g : MultiNet ν σ) (s : Attribs ν σ)
    (h : networkMultiLevelKeyed nodeCount edgeWeight ident str iter field modes edgeTag (some nodeTag)
      (MultiGraph.empty false, ⟨[], []⟩) recs = .ok (g, s)) :
    ∃ g', networkMultiLevel nodeCount edgeWeight ident str iter field modes (some nodeTag) (Graph.empty false, ⟨[], []⟩) recs =
      .ok (g', s) := by
  have hv' : ∀ t, some nodeTag = some t → ∀ r ∈ recs, Gives str iter (field r t) (vs r) := by
    intro t ht r hr; rw [Option.some.injEq] at ht; subst ht; exact hv r hr
  rw [keyed_ok nodeCount edgeWeight ident str iter field modes edgeTag (some nodeTag) ks vs recs hk hv'] at h
  rw [plain_ok nodeCount edgeWeight ident str iter field modes (some nodeTag) vs recs hv']
  cases hr : runE edgeWeight (levelNode nodeCount) (MultiGraph.empty false)
      (recs.flatMap (fun r => keyEvs (ks r) (contentsOf ident field modes r))) with
  | error e => rw [hr] at h; simp [Except.map] at h
  | ok g1 =>
    rw [hr] at h
    simp only [Except.map, Except.ok.injEq, Prod.mk.injEq] at h
    exact ⟨_, by rw [h.2]⟩

/-- C90: a one-mode network is the multi-level network of one tag. -/
theorem C90_one_mode (nodeCount edgeWeight : Bool) (ident : α → ν) (str : α → σ) (iter : α → Option (List σ))
    (field : ρ → τ → Option (FieldVal α)) (mode : τ) (nodeTag : Option τ) (recs : List ρ) :
    networkOneMode nodeCount edgeWeight ident str iter field mode nodeTag recs =
      networkMultiLevel nodeCount edgeWeight ident str iter field [mode] nodeTag (Graph.empty false, ⟨[], []⟩) recs := rfl

example : (∀ r ∈ [1, 0], Gives id it (fl r "LA") (if r = 0 then ["en", "fr"] else [])) ∧
    (∃ r ∈ [1, 0], "A" ∈ names id fl ["AF"] r) ∧
    (∀ r ∈ [1, 0], ∀ m ∈ names id fl ["AF"] r,
      firstSeen (names id fl ["AF"]) [1, 0] m = firstSeen (names id fl ["AF"]) [1, 0] "A" → m = "A") := by
  refine ⟨?_, by decide, by decide⟩
  intro r hr
  simp only [List.mem_cons, List.not_mem_nil, or_false] at hr
  rcases hr with rfl | rfl
  · exact Gives.missing
  · exact Gives.list ["en", "fr"]

end Verif.Props.NetworkAttrs
