import Verif.Lemmas.NetworkAttrs

/-! Lemmas for `edgeAttribute` in `networkTwoMode` and `networkMultiMode`. -/
set_option autoImplicit false
set_option linter.unusedSectionVars false
set_option linter.unusedSimpArgs false
namespace Verif.Model.NetworkAttrs
open Verif.Py Verif.Spec Verif.Spec.NetworkAttrs Verif.Model.Series
open Verif.Model.Networks hiding networkMultiLevel networkOneMode

variable {ρ α ν σ τ : Type} [DecidableEq ν] [DecidableEq σ]

/-- The updates one record makes. -/
def twoKeyEvs (ks : List σ) (c1 c2 : List ν) : List (MultiGraph.Ev ν σ Bool) :=
  c1.flatMap (fun x => c2.flatMap (fun y => ks.map (fun k => .edge x y k)) ++ [.node x false]) ++ c2.map (fun y => .node y true)

theorem foldl_keys (w : Bool) (f : τ → Option NodeAttr → NodeAttr) (x y : ν) (ks : List σ) (g : MultiNet ν σ) :
    ks.foldl (fun g k => MultiGraph.bump w g x y k) g = MultiGraph.run w f g (ks.map (fun k => .edge x y k)) := by
  induction ks generalizing g with
  | nil => rfl
  | cons k ks ih => rw [List.foldl_cons, ih, List.map_cons, MultiGraph.run_cons]; rfl

theorem foldl_keys_star (w : Bool) (f : τ → Option NodeAttr → NodeAttr) (x : ν) (ks : List σ) (l : List ν) (g : MultiNet ν σ) :
    l.foldl (fun g y => ks.foldl (fun g k => MultiGraph.bump w g x y k) g) g =
      MultiGraph.run w f g (l.flatMap (fun y => ks.map (fun k => .edge x y k))) := by
  induction l generalizing g with
  | nil => rfl
  | cons y l ih => rw [List.foldl_cons, ih, List.flatMap_cons, MultiGraph.run_append, ← foldl_keys]

theorem twoModeKeyedRecord_eq [DecidableEq α] (c w r : Bool) (tag1 tag2 : String) (ks : List α) (g : MultiNet ν α)
    (c1 c2 : List ν) : twoModeKeyedRecord c w r tag1 tag2 ks g c1 c2 =
      MultiGraph.run w (twoNode c r tag1 tag2) g (twoKeyEvs ks c1 c2) := by
  unfold twoModeKeyedRecord twoKeyEvs
  rw [MultiGraph.run_append]
  have h1 : ∀ (l : List ν) (g : MultiNet ν α), l.foldl (fun g node2 => g.setNode node2 (tag2Node c r tag2 (g.node? node2))) g =
      MultiGraph.run w (twoNode c r tag1 tag2) g (l.map (fun y => .node y true)) := by
    intro l
    induction l with
    | nil => intro g; rfl
    | cons y l ih => intro g; rw [List.foldl_cons, ih, List.map_cons, MultiGraph.run_cons]; rfl
  have h2 : ∀ (l : List ν) (g : MultiNet ν α), l.foldl (fun g node1 =>
      let g := c2.foldl (fun g node2 => ks.foldl (fun g edgeVal => MultiGraph.bump w g node1 node2 edgeVal) g) g
      g.setNode node1 (tag1Node c r tag1 (g.node? node1))) g =
      MultiGraph.run w (twoNode c r tag1 tag2) g
        (l.flatMap (fun x => c2.flatMap (fun y => ks.map (fun k => .edge x y k)) ++ [.node x false])) := by
    intro l
    induction l with
    | nil => intro g; rfl
    | cons x l ih =>
      intro g
      rw [List.foldl_cons, ih, List.flatMap_cons, MultiGraph.run_append, MultiGraph.run_append, ← foldl_keys_star]; rfl
  rw [h1]
  congr 1
  exact h2 c1 g

theorem twoModeVals_eq (f : Option (FieldVal α)) : twoModeVals f = vals f := by
  cases f with
  | none => rfl
  | some v => cases v <;> rfl

theorem countP_twoKeyEvs (d : Bool) (u v : ν) (k : σ) (ks : List σ) (c1 c2 : List ν) :
    (twoKeyEvs ks c1 c2).countP (MultiGraph.Ev.isEdge d u v k) = crossShared d c1 c2 u v * ks.count k := by
  rw [← countP_cross, twoKeyEvs, List.countP_append]
  have h1 : (c2.map (fun y => (MultiGraph.Ev.node y true : MultiGraph.Ev ν σ Bool))).countP (MultiGraph.Ev.isEdge d u v k) = 0 := by
    rw [List.countP_eq_zero]; simp [MultiGraph.Ev.isEdge]
  rw [h1, Nat.add_zero]
  induction c1 with
  | nil => simp
  | cons x l ih =>
    rw [List.flatMap_cons, List.flatMap_cons, List.countP_append, List.countP_append, ih, List.countP_append,
      countP_keys_star, Nat.add_mul]
    simp [MultiGraph.Ev.isEdge]

theorem nodeEvs_twoKeyEvs (m : ν) (ks : List σ) (c1 c2 : List ν) :
    nodeEvs m ((twoKeyEvs ks c1 c2).map MultiGraph.Ev.plain) = c1.count m + c2.count m := by
  rw [twoKeyEvs, List.map_append, nodeEvs_append]
  congr 1
  · induction c1 with
    | nil => rfl
    | cons x l ih =>
      rw [List.flatMap_cons, List.map_append, nodeEvs_append, ih, List.map_append, nodeEvs_append, nodeEvs_edges,
        List.count_cons]
      have : nodeEvs m ([(MultiGraph.Ev.node x false : MultiGraph.Ev ν σ Bool)].map MultiGraph.Ev.plain) = if x = m then 1 else 0 := by
        simp [nodeEvs, MultiGraph.Ev.plain, Graph.Ev.isNode]
      rw [this]
      by_cases h : x = m <;> simp [h]; omega
  · unfold nodeEvs
    rw [List.map_map, List.countP_map, List.count_eq_countP]
    congr 1

theorem find?_repeat {A B C : Type} (p : B → Bool) (f : A → B) (ks : List C) (hks : ks ≠ []) (l : List A) :
    (l.flatMap (fun y => ks.map (fun _ => f y))).find? p = (l.map f).find? p := by
  induction l with
  | nil => rfl
  | cons y l ih =>
    rw [List.flatMap_cons, List.find?_append, ih, List.map_cons, List.find?_cons]
    cases hp : p (f y)
    · have : (ks.map (fun _ => f y)).find? p = none := by
        rw [List.find?_eq_none]
        intro b hb
        obtain ⟨_, _, rfl⟩ := List.mem_map.1 hb
        simp [hp]
      rw [this]; rfl
    · cases ks with
      | nil => exact absurd rfl hks
      | cons k ks => simp [hp]

theorem find?_twoKeyEvs (p : Graph.Ev ν Bool → Bool) (ks : List σ) (hks : ks ≠ []) (c1 c2 : List ν) :
    ((twoKeyEvs ks c1 c2).map MultiGraph.Ev.plain).find? p = (twoEvs c1 c2).find? p := by
  rw [twoKeyEvs, twoEvs, List.map_append, List.find?_append, List.find?_append]
  congr 1
  · induction c1 with
    | nil => rfl
    | cons x l ih =>
      rw [List.flatMap_cons, List.flatMap_cons, List.map_append, List.find?_append, ih, List.find?_append]
      congr 1
      rw [List.map_append, List.find?_append, List.find?_append]
      congr 1
      rw [List.map_flatMap]
      simp only [List.map_map]
      exact find?_repeat p (fun y => Graph.Ev.edge x y) ks hks c2
  · rw [List.map_map]; rfl

theorem plain_twoKeyEvs_nil (c1 c2 : List ν) : (twoKeyEvs ([] : List σ) c1 c2).map MultiGraph.Ev.plain =
    c1.map (fun x => Graph.Ev.node x false) ++ c2.map (fun y => Graph.Ev.node y true) := by
  rw [twoKeyEvs, List.map_append, List.map_map]
  congr 1
  induction c1 with
  | nil => rfl
  | cons x l ih =>
    rw [List.flatMap_cons, List.map_append, ih]
    simp [MultiGraph.Ev.plain]

theorem find?_node (m : ν) (t : τ) (l : List ν) :
    (l.map (fun x => (Graph.Ev.node x t : Graph.Ev ν τ))).find? (Graph.Ev.mentions m) =
      if m ∈ l then some (.node m t) else none := by
  induction l with
  | nil => rfl
  | cons x l ih =>
    rw [List.map_cons, List.find?_cons, ih]
    by_cases h : x = m
    · subst h; simp [Graph.Ev.mentions]
    · simp [Graph.Ev.mentions, h, show ¬ m = x from fun h' => h h'.symm]

theorem mentions_twoKeyEvs (m : ν) (ks : List σ) (c1 c2 : List ν) :
    (((twoKeyEvs ks c1 c2).map MultiGraph.Ev.plain).find? (Graph.Ev.mentions m)).isSome = true ↔ m ∈ c1 ∨ m ∈ c2 := by
  by_cases hks : ks = []
  · subst hks
    rw [plain_twoKeyEvs_nil, List.find?_append, find?_node, find?_node]
    by_cases h1 : m ∈ c1 <;> by_cases h2 : m ∈ c2 <;> simp [h1, h2]
  · rw [find?_twoKeyEvs _ ks hks, mentions_twoEvs]

/-- Whether the first mention forgets a count: exactly when the node is a value of the first tag and no edge is made. -/
theorem lossy_twoKeyEvs (m : ν) (ks : List σ) (c1 c2 : List ν) (h : m ∈ c1 ∨ m ∈ c2) :
    Ev.lossyFirst (fun b => !b) (((twoKeyEvs ks c1 c2).map MultiGraph.Ev.plain).find? (Graph.Ev.mentions m)) =
      if m ∈ c1 ∧ (c2 = [] ∨ ks = []) then 1 else 0 := by
  by_cases hks : ks = []
  · subst hks
    rw [plain_twoKeyEvs_nil, List.find?_append, find?_node, find?_node]
    by_cases h1 : m ∈ c1
    · simp [h1, Ev.lossyFirst]
    · have h2 := h.resolve_left h1
      simp [h1, h2, Ev.lossyFirst]
  · rw [find?_twoKeyEvs _ ks hks, lossy_twoEvs m c1 c2 h]
    by_cases hc : c2 = []
    · have h1 : m ∈ c1 := by
        rcases h with h | h
        · exact h
        · rw [hc] at h; simp at h
      simp [hc, h1]
    · simp [hc, hks]

theorem foldl_multi (w : Bool) (f : τ → Option NodeAttr → NodeAttr) (evs : ρ → List (MultiGraph.Ev ν σ τ)) (recs : List ρ)
    (g : MultiNet ν σ) :
    recs.foldl (fun g r => MultiGraph.run w f g (evs r)) g = MultiGraph.run w f g (recs.flatMap evs) := by
  induction recs generalizing g with
  | nil => rfl
  | cons r recs ih => rw [List.foldl_cons, ih, List.flatMap_cons, MultiGraph.run_append]

/-! ## networkMultiMode -/

/-- A multigraph and a graph with the same nodes and no edges. -/
def SameNodes (g : MultiNet ν σ) (g' : Net ν) : Prop :=
  g.directed = false ∧ g'.directed = false ∧ g.nodes = g'.nodes ∧ g.edges = [] ∧ g'.edges = []

theorem sameNodes_setNode {g : MultiNet ν σ} {g' : Net ν} (h : SameNodes g g') (c r : Bool) (tag : String) (n : ν) :
    SameNodes (g.setNode n (multiModeNode c r tag (g.node? n))) (g'.setNode n (multiModeNode c r tag (g'.node? n))) := by
  obtain ⟨h1, h2, h3, h4, h5⟩ := h
  refine ⟨h1, h2, ?_, h4, h5⟩
  simp only [MultiGraph.setNode, Graph.setNode, MultiGraph.node?, Graph.node?, h3]

theorem multiModeKeyedNodes_ok (c r : Bool) (tag : String) (rest : List (String × List ν)) (hrest : rest = [])
    (l : List ν) (g : MultiNet ν σ) (g' : Net ν) (h : SameNodes g g') :
    ∃ g1, multiModeKeyedNodes c r tag rest g l = .ok g1 ∧
      SameNodes g1 (l.foldl (fun g n => g.setNode n (multiModeNode c r tag (g.node? n))) g') := by
  subst hrest
  induction l generalizing g g' with
  | nil => exact ⟨g, rfl, h⟩
  | cons n l ih =>
    rw [multiModeKeyedNodes]
    simp only [modeEdgesFrom, List.all_nil, if_true, List.foldl_cons]
    exact ih _ _ (sameNodes_setNode h c r tag n)

theorem multiModeKeyedRecord_ok (c w r : Bool) (cs : List (String × List ν)) (hcs : cs.length ≤ 1) (g : MultiNet ν σ)
    (g' : Net ν) (h : SameNodes g g') :
    ∃ g1, multiModeKeyedRecord c r g cs = .ok g1 ∧ SameNodes g1 (multiModeRecord c w r g' cs) := by
  cases cs with
  | nil => exact ⟨g, rfl, h⟩
  | cons p cs =>
    have : cs = [] := by
      simp at hcs; exact hcs
    subst this
    obtain ⟨g1, h1, h2⟩ := multiModeKeyedNodes_ok c r p.1 [] rfl p.2 g g' h
    refine ⟨g1, ?_, ?_⟩
    · simp only [multiModeKeyedRecord, h1]
    · simpa only [multiModeRecord, List.foldl_nil] using h2

theorem multiModeKeyedRecord_error (c r : Bool) (p q : String × List ν) (cs : List (String × List ν)) (hp : p.2 ≠ [])
    (hq : q.2 ≠ []) (g : MultiNet ν σ) : multiModeKeyedRecord c r g (p :: q :: cs) = .error .nameError := by
  obtain ⟨t, l⟩ := p
  cases l with
  | nil => exact absurd rfl hp
  | cons n l =>
    have hf : modeEdgesFrom (q :: cs) g = .error .nameError := by
      unfold modeEdgesFrom
      rw [if_neg]
      simp only [List.all_cons, Bool.and_eq_true, List.isEmpty_iff, not_and]
      intro h; exact absurd h hq
    simp only [multiModeKeyedRecord, multiModeKeyedNodes, hf]

end Verif.Model.NetworkAttrs
