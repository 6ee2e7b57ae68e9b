import Verif.Lemmas.GraphHelpers
import Verif.Spec.Graphs

/-! # C38, C39: dropping edges and nodes -/
set_option autoImplicit false
set_option linter.unusedSectionVars false
set_option linter.unusedSimpArgs false
namespace Verif.Props
open Verif.Py Verif.Py.Graph Verif.Model.GraphHelpers Verif.Spec

variable {ν : Type} [DecidableEq ν]

theorem outside_iff (lo hi : Option Int) (param : String) (a : Attrs) :
    outside lo hi param a = false ↔ ∀ n, a.get? param = some (.num n) → InRange lo hi n := by
  unfold outside
  have key : ∀ n, (above hi n || below lo n) = false ↔ InRange lo hi n := by
    intro n
    unfold above below InRange
    cases hi <;> cases lo <;> simp <;> omega
  cases h : a.get? param with
  | none => simp
  | some v =>
    cases v with
    | str s => simp
    | num n => simp only [key]; simp

theorem range_iff (lo hi : Option Int) (n : Int) : (below lo n || above hi n) = false ↔ InRange lo hi n := by
  unfold above below InRange
  cases hi <;> cases lo <;> simp

/-- The graph after the removal of self loops. -/
theorem loops_spec {g : G ν} (hg : g.WF) (dl : Bool) :
    let g' := if dl then removeEdges g ((g.edges.filter (fun e => e.1.1 = e.1.2)).map Prod.fst) else g
    g'.WF ∧ g'.directed = g.directed ∧ g'.nodes = g.nodes ∧
      ∀ u v a, g'.edge? u v = some a ↔ g.edge? u v = some a ∧ (dl = true → u ≠ v) := by
  cases dl with
  | false => exact ⟨hg, rfl, rfl, by simp⟩
  | true =>
    refine ⟨WF_removeEdges hg _, rfl, rfl, ?_⟩
    intro u v a
    simp only [if_true]
    rw [edge?_removeEdges hg]
    simp only [List.mem_map, List.mem_filter, decide_eq_true_eq, true_imp_iff]
    constructor
    · rintro ⟨h1, h2⟩
      refine ⟨h1, ?_⟩
      rintro rfl
      obtain ⟨e, he, hs, _⟩ := (edge?_eq_some_iff hg _ _ _).1 h1
      have hl : e.1.1 = e.1.2 := by
        rw [sameEdge_iff] at hs
        rcases hs with hs | ⟨_, h3, h4⟩
        · rw [hs]
        · simp only [] at h3 h4; rw [h3, h4]
      have := h2 e.1 ⟨e, ⟨he, hl⟩, rfl⟩
      rw [hs] at this; cases this
    · rintro ⟨h1, h2⟩
      refine ⟨h1, ?_⟩
      rintro p ⟨e, ⟨_, he⟩, rfl⟩
      rw [Bool.eq_false_iff]
      intro hs
      rw [sameEdge_iff] at hs
      rcases hs with hs | ⟨_, h3, h4⟩
      · rw [hs] at he; exact h2 he
      · simp only [] at h3 h4; apply h2; rw [← h3, ← h4, he]

/-- **C38.** When `dropEdges` returns, nodes and their attributes are untouched and the edges left, with their attributes, are exactly
those in range that are not unwanted self loops. Edges without a weight are kept. -/
theorem C38_dropEdges (lo hi : Option Int) (param : String) (ig dl : Bool) (g : G ν) (hg : g.WF)
    (hok : (dropEdges lo hi param ig dl g).2 = none) :
    (dropEdges lo hi param ig dl g).1.directed = g.directed ∧ (dropEdges lo hi param ig dl g).1.nodes = g.nodes ∧
    ∀ u v a, (dropEdges lo hi param ig dl g).1.edge? u v = some a ↔
      g.edge? u v = some a ∧ (dl = true → u ≠ v) ∧ ∀ n, a.get? param = some (.num n) → InRange lo hi n := by
  have hl := loops_spec hg dl
  unfold dropEdges at hok ⊢
  simp only [] at hl hok ⊢
  generalize (if dl then removeEdges g ((g.edges.filter (fun e => e.1.1 = e.1.2)).map Prod.fst) else g) = g' at hl hok ⊢
  obtain ⟨w, hd, hn, he⟩ := hl
  split at hok
  · rename_i hb
    simp only [hb, if_true]
    by_cases hr : ∀ e ∈ g'.edges, Readable param ig e.2
    · rw [dropLoop_ok lo hi param ig _ _ hr]
      refine ⟨hd, hn, ?_⟩
      intro u v a
      simp only []
      rw [edge?_removeEdges w, he, ← outside_iff, and_assoc]
      constructor
      · rintro ⟨h1, h2, h3⟩
        refine ⟨h1, h2, ?_⟩
        obtain ⟨e, he', hs, rfl⟩ := (edge?_eq_some_iff w _ _ _).1 ((he u v a).2 ⟨h1, h2⟩)
        rw [Bool.eq_false_iff]
        intro ho
        have := h3 e.1 (by simp only [List.nil_append, List.mem_map, List.mem_filter]; exact ⟨e, ⟨he', ho⟩, rfl⟩)
        rw [hs] at this; cases this
      · rintro ⟨h1, h2, h3⟩
        refine ⟨h1, h2, ?_⟩
        intro p hp
        simp only [List.nil_append, List.mem_map, List.mem_filter] at hp
        obtain ⟨e, ⟨he', ho⟩, rfl⟩ := hp
        rw [Bool.eq_false_iff]
        intro hs
        have h4 := getE_of_mem w.edges he' hs
        have h5 := (he u v a).2 ⟨h1, h2⟩
        unfold edge? at h5
        rw [h4] at h5
        cases h5
        rw [ho] at h3; cases h3
    · push Not at hr
      obtain ⟨er, h1, _⟩ := dropLoop_error lo hi param ig g'.edges [] hr
      rw [h1] at hok; simp at hok
  · rename_i hb
    simp only [hb]
    refine ⟨hd, hn, ?_⟩
    intro u v a
    simp only [Bool.false_eq_true, if_false]
    rw [edge?_removeEdges w, he]
    have : lo = none ∧ hi = none := by cases lo <;> cases hi <;> simp_all
    simp [InRange, this.1, this.2]

/-- **C38.** `dropEdges` returns exactly when no bound is given or every edge (other than dropped self loops) has a number as weight, or
none and `ignoreUnweighted` is set; otherwise it raises, `KeyError` when no weight is a string, and only the self loops are gone. -/
theorem C38_raises (lo hi : Option Int) (param : String) (ig dl : Bool) (g : G ν) (hg : g.WF) :
    ((dropEdges lo hi param ig dl g).2 = none ↔ (lo = none ∧ hi = none) ∨
      ∀ u v a, g.edge? u v = some a → (dl = true → u ≠ v) → Weighted param ig a) ∧
    (∀ er, (dropEdges lo hi param ig dl g).2 = some er →
      (dropEdges lo hi param ig dl g).1.nodes = g.nodes ∧
      (∀ u v a, (dropEdges lo hi param ig dl g).1.edge? u v = some a ↔ g.edge? u v = some a ∧ (dl = true → u ≠ v)) ∧
      ((∀ u v a s, g.edge? u v = some a → a.get? param ≠ some (.str s)) → er = .keyError)) := by
  have hl := loops_spec hg dl
  unfold dropEdges
  simp only [] at hl ⊢
  generalize (if dl then removeEdges g ((g.edges.filter (fun e => e.1.1 = e.1.2)).map Prod.fst) else g) = g' at hl ⊢
  obtain ⟨w, hd, hn, he⟩ := hl
  have hall : (∀ u v a, g.edge? u v = some a → (dl = true → u ≠ v) → Weighted param ig a) ↔
      ∀ e ∈ g'.edges, Readable param ig e.2 := by
    constructor
    · intro h e he'
      have := (he _ _ _).1 (edge?_of_mem w he')
      exact h _ _ _ this.1 this.2
    · intro h u v a h1 h2
      obtain ⟨e, he', hs, rfl⟩ := (edge?_eq_some_iff w _ _ _).1 ((he u v a).2 ⟨h1, h2⟩)
      exact h e he'
  rw [hall]
  by_cases hb : (lo.isSome || hi.isSome) = true
  · have hb' : ¬ (lo = none ∧ hi = none) := by rintro ⟨rfl, rfl⟩; simp at hb
    simp only [hb, if_true]
    by_cases hr : ∀ e ∈ g'.edges, Readable param ig e.2
    · rw [dropLoop_ok lo hi param ig _ _ hr]
      simp only [true_iff, reduceCtorEq, false_imp_iff, implies_true, and_true]
      exact Or.inr hr
    · obtain ⟨er, h1, h2⟩ := dropLoop_error lo hi param ig g'.edges [] (by push Not at hr; exact hr)
      rw [h1]
      refine ⟨by simp only [reduceCtorEq, false_iff]; tauto, ?_⟩
      intro er' h'
      simp only [Option.some.injEq] at h'
      subst h'
      refine ⟨hn, he, ?_⟩
      intro hs
      apply h2
      intro e he' s
      exact hs _ _ _ s ((he _ _ _).1 (edge?_of_mem w he')).1
  · have : lo = none ∧ hi = none := by cases lo <;> cases hi <;> simp_all
    simp [this.1, this.2]

theorem removeEdges_nothing (g : G ν) (es : List (ν × ν)) (h : ∀ p ∈ es, ∀ e ∈ g.edges, sameEdge g.directed p e.1 = false) :
    removeEdges g es = g := by
  unfold removeEdges
  have : g.edges.filter (fun e => !es.any (fun p => sameEdge g.directed p e.1)) = g.edges := by
    rw [List.filter_eq_self]
    intro e he
    simp only [Bool.not_eq_true', List.any_eq_false, Bool.not_eq_true]
    intro p hp; exact h p hp e he
  rw [this]

theorem WF_dropEdges (lo hi : Option Int) (param : String) (ig dl : Bool) (g : G ν) (hg : g.WF) :
    (dropEdges lo hi param ig dl g).1.WF := by
  have hl := (loops_spec hg dl).1
  unfold dropEdges
  simp only [] at hl ⊢
  generalize (if dl then removeEdges g ((g.edges.filter (fun e => e.1.1 = e.1.2)).map Prod.fst) else g) = g' at hl ⊢
  split
  · split
    · exact hl
    · exact WF_removeEdges hl _
  · exact WF_removeEdges hl _

/-- **C38.** Dropping twice is dropping once. -/
theorem C38_idempotent (lo hi : Option Int) (param : String) (ig dl : Bool) (g : G ν) (hg : g.WF)
    (hok : (dropEdges lo hi param ig dl g).2 = none) :
    dropEdges lo hi param ig dl (dropEdges lo hi param ig dl g).1 = ((dropEdges lo hi param ig dl g).1, none) := by
  have hw := WF_dropEdges lo hi param ig dl g hg
  have h1 := (C38_dropEdges lo hi param ig dl g hg hok).2.2
  have h2 := (C38_raises lo hi param ig dl g hg).1.1 hok
  generalize (dropEdges lo hi param ig dl g).1 = g' at hw h1
  have hloop : (if dl then removeEdges g' ((g'.edges.filter (fun e => e.1.1 = e.1.2)).map Prod.fst) else g') = g' := by
    cases dl with
    | false => rfl
    | true =>
      simp only [if_true]
      apply removeEdges_nothing
      intro p hp
      obtain ⟨e, he, rfl⟩ := List.mem_map.1 hp
      simp only [List.mem_filter, decide_eq_true_eq] at he
      exact absurd he.2 (((h1 _ _ _).1 (edge?_of_mem hw he.1)).2.1 rfl)
  unfold dropEdges
  simp only [hloop]
  split
  · rename_i hb
    have hr : ∀ e ∈ g'.edges, Readable param ig e.2 := by
      intro e he
      have := (h1 _ _ _).1 (edge?_of_mem hw he)
      rcases h2 with ⟨rfl, rfl⟩ | h2
      · simp at hb
      · exact h2 _ _ _ this.1 this.2.1
    rw [dropLoop_ok lo hi param ig _ _ hr]
    have : g'.edges.filter (fun e => outside lo hi param e.2) = [] := by
      rw [List.filter_eq_nil_iff]
      intro e he
      have := (outside_iff lo hi param e.2).2 ((h1 _ _ _).1 (edge?_of_mem hw he)).2.2
      simp [this]
    simp only [this, List.map_nil, List.append_nil]
    rw [removeEdges_nothing g' [] (by simp)]
  · rw [removeEdges_nothing g' [] (by simp)]

/-- A graph with a loop, a light, a heavy and an unweighted edge. -/
def exG : G Nat :=
  ⟨false, [(1, [("count", .num 2)]), (2, []), (3, [("count", .num 5)])],
    [((1, 1), [("weight", .num 4)]), ((1, 2), [("weight", .num 1)]), ((3, 2), [("weight", .num 4)]), ((1, 3), [])]⟩

theorem exG_wf : exG.WF := ⟨by decide, by decide, by decide⟩

example : (dropEdges (some 2) none "weight" true true exG).2 = none ∧
    (dropEdges (some 2) none "weight" true true exG).1.edges = [((3, 2), [("weight", .num 4)]), ((1, 3), [])] ∧
    (dropEdges (some 2) none "weight" false true exG).2 = some .keyError := by decide

/-! ## C39 -/

theorem outDegree_eq {g : G ν} (hg : g.WF) (w : Attrs → Int) (n : ν) :
    ((edgesOf g n).map (fun e => w e.2)).sum = outDegree w g n := by
  unfold edgesOf outDegree
  rw [sum_out g.directed w n g.nodes.keys hg.nodes g.edges hg.edges (ends_keys hg)]
  rfl

theorem degreeVal_eq {g : G ν} (hg : g.WF) (uw : Bool) (param : String) (n : ν) :
    degreeVal uw param g n = outDegree (fun a => if uw then weight param a else 1) g n := by
  unfold degreeVal
  rw [← outDegree_eq hg]
  rfl

/-- **C39.** `dropNodesByDegree` returns exactly when weights are not used or every edge has a number as weight (or none, when that is
allowed). It then keeps, with their attributes, exactly the nodes whose degree in the given graph is in range, and exactly the edges
between kept nodes. When it raises the graph is unchanged. The degree of a node is the sum of the values of its edges; in a directed
graph only of the edges that leave it (see `C39_directed`). -/
theorem C39_dropNodesByDegree_partial (lo hi : Option Int) (uw : Bool) (param : String) (inc : Bool) (g : G ν) (hg : g.WF) :
    ((dropNodesByDegree lo hi uw param inc g).2 = none ↔
      (uw = true → ∀ u v a, g.edge? u v = some a → Weighted param inc a)) ∧
    ((dropNodesByDegree lo hi uw param inc g).2 = none →
      (∀ n, (dropNodesByDegree lo hi uw param inc g).1.node? n = none ∨
        (dropNodesByDegree lo hi uw param inc g).1.node? n = g.node? n) ∧
      (∀ n, (dropNodesByDegree lo hi uw param inc g).1.hasNode n = true ↔
        g.hasNode n = true ∧ InRange lo hi (outDegree (fun a => if uw then weight param a else 1) g n)) ∧
      (∀ u v a, (dropNodesByDegree lo hi uw param inc g).1.edge? u v = some a ↔ g.edge? u v = some a ∧
        InRange lo hi (outDegree (fun a => if uw then weight param a else 1) g u) ∧
        InRange lo hi (outDegree (fun a => if uw then weight param a else 1) g v))) ∧
    (∀ er, (dropNodesByDegree lo hi uw param inc g).2 = some er →
      (dropNodesByDegree lo hi uw param inc g).1 = g ∧
      ((∀ u v a s, g.edge? u v = some a → a.get? param ≠ some (.str s)) → er = .keyError)) := by
  unfold dropNodesByDegree
  have hall : (∀ u v a, g.edge? u v = some a → Weighted param inc a) ↔
      ∀ n ∈ g.nodes.keys, ∀ e ∈ edgesOf g n, Readable param inc e.2 := by
    constructor
    · intro h n _ e he
      exact h _ _ _ (edge?_of_mem hg (List.mem_of_mem_filter he))
    · intro h u v a h1
      obtain ⟨e, he', hs, rfl⟩ := (edge?_eq_some_iff hg _ _ _).1 h1
      exact h _ (ends_keys hg e he').1 e (edgesOf_source he')
  rw [hall]
  by_cases hr : uw = true → ∀ n ∈ g.nodes.keys, ∀ e ∈ edgesOf g n, Readable param inc e.2
  · rw [degreeLoop_ok lo hi uw param inc g _ _ hr]
    simp only [List.nil_append]
    refine ⟨by simp only [true_iff]; exact hr, fun _ => ?_, by simp⟩
    have hm : ∀ n, g.hasNode n = true → (n ∉ List.filter (fun n => below lo (degreeVal uw param g n) || above hi (degreeVal uw param g n))
        g.nodes.keys ↔ InRange lo hi (outDegree (fun a => if uw then weight param a else 1) g n)) := by
      intro n hn
      have : n ∈ g.nodes.keys := by rw [Dict.mem_keys_iff]; exact hn
      rw [← degreeVal_eq hg, ← range_iff]
      simp only [List.mem_filter, this, true_and, Bool.not_eq_true]
    refine ⟨?_, ?_, ?_⟩
    · intro n
      rw [node?_removeNodes]; split <;> simp
    · intro n
      unfold hasNode
      rw [node?_removeNodes]
      by_cases hn : g.hasNode n = true
      · rw [← hm n hn]
        by_cases hc : n ∈ List.filter (fun n => below lo (degreeVal uw param g n) || above hi (degreeVal uw param g n)) g.nodes.keys
        · simp only [hc, if_true]; simp
        · simp only [hc, if_false]; unfold hasNode at hn; simp [hn]
      · unfold hasNode at hn
        constructor
        · intro h
          split at h
          · simp at h
          · exact absurd h hn
        · intro h; exact absurd h.1 hn
    · intro u v a
      rw [edge?_removeNodes hg]
      constructor
      · rintro ⟨h1, h2, h3⟩
        have := hg.ends_of_edge? (u := u) (v := v) (by rw [h1]; rfl)
        exact ⟨h1, (hm u this.1).1 h2, (hm v this.2).1 h3⟩
      · rintro ⟨h1, h2, h3⟩
        have := hg.ends_of_edge? (u := u) (v := v) (by rw [h1]; rfl)
        exact ⟨h1, (hm u this.1).2 h2, (hm v this.2).2 h3⟩
  · have huw : uw = true := by by_contra h; exact hr (fun h' => absurd h' h)
    subst huw
    have hr' : ∃ n ∈ g.nodes.keys, ∃ e ∈ edgesOf g n, ¬ Readable param inc e.2 := by
      by_contra hc
      apply hr
      intro _ n hn e he
      by_contra hc'
      exact hc ⟨n, hn, e, he, hc'⟩
    obtain ⟨er, h1, h2⟩ := degreeLoop_error lo hi param inc g g.nodes.keys [] hr'
    rw [h1]
    refine ⟨by simp only [reduceCtorEq, false_iff]; exact fun h => hr (fun _ => h trivial), by simp, ?_⟩
    intro er' h'
    simp only [Option.some.injEq] at h'
    subst h'
    refine ⟨rfl, fun hs => h2 (fun e he s => hs _ _ _ s (edge?_of_mem hg he))⟩

/-- In an undirected graph the degree used is over every edge touching the node, whichever way round it is named. -/
theorem C39_undirected (w : Attrs → Int) (g : G ν) (hd : g.directed = false) (n : ν) : outDegree w g n = inDegree w g n := by
  unfold outDegree inDegree
  congr 1
  apply List.map_congr_left
  intro m _
  rw [edge?_symm hd]

/-- **C39, disagreement.** In a directed graph a node that edges only point to has degree 0, although it has an edge. -/
theorem C39_directed :
    let g : G Nat := ⟨true, [(1, []), (2, [])], [((1, 2), [])]⟩
    (dropNodesByDegree (some 1) none true "weight" true g).1.nodes = [(1, [])] := by decide

/-- **C39, disagreement with the documentation.** After the call a node of the graph can have a degree out of range: it lost the edges to
the dropped nodes. -/
theorem C39_degree_after :
    let g : G Nat := ⟨false, [(1, []), (2, []), (3, [])], [((1, 2), []), ((2, 3), [])]⟩
    (dropNodesByDegree (some 2) none true "weight" true g).1 = ⟨false, [(2, [])], []⟩ := by decide

/-- **C39.** `dropNodesByCount` returns exactly when every node has a number as count, or none and `ignoreMissing` is set. It then
keeps, with their attributes, exactly the nodes with a count in range or without a count, and exactly the edges between kept nodes. When
it raises the graph is unchanged. -/
theorem C39_dropNodesByCount (lo hi : Option Int) (param : String) (ig : Bool) (g : G ν) (hg : g.WF) :
    ((dropNodesByCount lo hi param ig g).2 = none ↔ ∀ n a, g.node? n = some a → Weighted param ig a) ∧
    ((dropNodesByCount lo hi param ig g).2 = none →
      (∀ n a, (dropNodesByCount lo hi param ig g).1.node? n = some a ↔
        g.node? n = some a ∧ ∀ c, a.get? param = some (.num c) → InRange lo hi c) ∧
      (∀ u v a, (dropNodesByCount lo hi param ig g).1.edge? u v = some a ↔ g.edge? u v = some a ∧
        (dropNodesByCount lo hi param ig g).1.hasNode u = true ∧ (dropNodesByCount lo hi param ig g).1.hasNode v = true)) ∧
    (∀ er, (dropNodesByCount lo hi param ig g).2 = some er →
      (dropNodesByCount lo hi param ig g).1 = g ∧
      ((∀ n a s, g.node? n = some a → a.get? param ≠ some (.str s)) → er = .keyError)) := by
  unfold dropNodesByCount
  have hmem : ∀ n a, g.node? n = some a ↔ (n, a) ∈ g.nodes := fun n a => Dict.get?_eq_some_iff hg.nodes n a
  have hall : (∀ n a, g.node? n = some a → Weighted param ig a) ↔ ∀ e ∈ g.nodes, Readable param ig e.2 := by
    constructor
    · intro h e he; exact h e.1 e.2 ((hmem _ _).2 he)
    · intro h n a hn; exact h (n, a) ((hmem _ _).1 hn)
  rw [hall]
  by_cases hr : ∀ e ∈ g.nodes, Readable param ig e.2
  · rw [countLoop_ok lo hi param ig _ _ hr]
    simp only [List.nil_append]
    refine ⟨by simp only [true_iff]; exact hr, fun _ => ?_, by simp⟩
    have hm : ∀ n a, g.node? n = some a → (n ∈ (List.filter (fun n => outside lo hi param n.2) g.nodes).map Prod.fst ↔
        outside lo hi param a = true) := by
      intro n a hn
      simp only [List.mem_map, List.mem_filter]
      constructor
      · rintro ⟨e, ⟨h1, h2⟩, rfl⟩
        have := (hmem e.1 e.2).2 h1
        rw [this] at hn; cases hn; exact h2
      · intro h; exact ⟨(n, a), ⟨(hmem _ _).1 hn, h⟩, rfl⟩
    refine ⟨?_, ?_⟩
    · intro n a
      rw [node?_removeNodes, ← outside_iff]
      constructor
      · intro h
        split at h
        · cases h
        · rename_i hc
          refine ⟨h, ?_⟩
          rw [hm n a h] at hc; simpa using hc
      · rintro ⟨h1, h2⟩
        rw [if_neg, h1]
        rw [hm n a h1, h2]; simp
    · intro u v a
      rw [edge?_removeNodes hg]
      unfold hasNode
      rw [node?_removeNodes, node?_removeNodes]
      constructor
      · rintro ⟨h1, h2, h3⟩
        have := hg.ends_of_edge? (u := u) (v := v) (by rw [h1]; rfl)
        refine ⟨h1, ?_, ?_⟩
        · rw [if_neg h2]; exact this.1
        · rw [if_neg h3]; exact this.2
      · rintro ⟨h1, h2, h3⟩
        refine ⟨h1, ?_, ?_⟩
        · intro hc; rw [if_pos hc] at h2; simp at h2
        · intro hc; rw [if_pos hc] at h3; simp at h3
  · obtain ⟨er, h1, h2⟩ := countLoop_error lo hi param ig g.nodes [] (by push Not at hr; exact hr)
    rw [h1]
    refine ⟨by simp only [reduceCtorEq, false_iff]; exact hr, by simp, ?_⟩
    intro er' h'
    simp only [Option.some.injEq] at h'
    subst h'
    exact ⟨rfl, fun hs => h2 (fun e he s => hs _ _ s ((hmem e.1 e.2).2 he))⟩

example : (dropNodesByCount (some 3) (some 5) "count" true exG).1.nodes = [(2, []), (3, [("count", .num 5)])] ∧
    (dropNodesByCount (some 3) (some 5) "count" true exG).1.edges = [((3, 2), [("weight", .num 4)])] ∧
    (dropNodesByCount (some 3) (some 5) "count" false exG).2 = some .keyError := by decide

example : outDegree (weight "weight") exG 1 = 6 ∧ outDegree (weight "weight") exG 3 = 5 ∧
    (dropNodesByDegree (some 6) none true "weight" true exG).1 =
      ⟨false, [(1, [("count", .num 2)])], [((1, 1), [("weight", .num 4)])]⟩ ∧
    (dropNodesByDegree (some 6) none true "weight" false exG).2 = some .keyError := by decide

end Verif.Props
