import Verif.Props.GraphDrops
import Verif.Props.Networks

/-! # C40: merging graphs -/
set_option autoImplicit false
set_option linter.unusedSectionVars false
set_option linter.unusedSimpArgs false
namespace Verif.Props
open Verif.Py Verif.Py.Graph Verif.Model.GraphHelpers Verif.Spec

variable {ν : Type} [DecidableEq ν]

theorem incrAttr_spec (key : String) (t : Option Attrs) (a : Attrs) (ha : Dict.WF a) :
    (∃ er, incrAttr key t a = .error er) ∧ (∃ x, t = some x ∧ Clash key x a) ∧ incrAttr key t a = .error .typeError ∨
    (¬ ∃ x, t = some x ∧ Clash key x a) ∧ ∃ o, incrAttr key t a = .ok o ∧
      merged key t (some a) = some (match o with | some b => b | none => (t.getD []).update a) := by
  cases t with
  | none =>
    right
    refine ⟨by simp, none, rfl, ?_⟩
    simp only [merged, Option.getD_none, Dict.update_nil_left a ha]
  | some t =>
    simp only [incrAttr, merged, Option.getD_some, Option.some.injEq, exists_eq_left']
    unfold Clash
    cases h1 : t.get? key with
    | none => right; simp
    | some x =>
      cases h2 : a.get? key with
      | none => right; cases x <;> simp
      | some y => cases x <;> cases y <;> simp [addVal, bind, Except.bind, pure, Except.pure]

theorem mergeNode_spec (key : String) (g : G ν) (n : ν) (a : Attrs) (ha : Dict.WF a) :
    ((∃ x, g.node? n = some x ∧ Clash key x a) ∧ mergeNode (some key) g (n, a) = .error .typeError) ∨
    ((¬ ∃ x, g.node? n = some x ∧ Clash key x a) ∧ ∃ b, merged key (g.node? n) (some a) = some b ∧
      mergeNode (some key) g (n, a) = .ok (g.setNode n b)) := by
  rcases incrAttr_spec key (g.node? n) a ha with ⟨_, h1, h2⟩ | ⟨h1, o, h2, h3⟩
  · left; exact ⟨h1, by simp [mergeNode, h2, bind, Except.bind]⟩
  · right
    refine ⟨h1, _, h3, ?_⟩
    cases o <;> simp [mergeNode, h2, bind, Except.bind, pure, Except.pure, addNode]

theorem nodes_fold (key : String) (l : List (ν × Attrs)) (hl : (l.map Prod.fst).Nodup) (hw : ∀ e ∈ l, Dict.WF e.2) (g : G ν)
    (hg : g.WF) :
    ((∃ e ∈ l, ∃ x, g.node? e.1 = some x ∧ Clash key x e.2) ∧ l.foldlM (mergeNode (some key)) g = .error .typeError) ∨
    ((¬ ∃ e ∈ l, ∃ x, g.node? e.1 = some x ∧ Clash key x e.2) ∧ ∃ r, l.foldlM (mergeNode (some key)) g = .ok r ∧ r.WF ∧
      r.directed = g.directed ∧ r.edges = g.edges ∧ ∀ m, r.node? m = merged key (g.node? m) (Dict.get? l m)) := by
  induction l generalizing g with
  | nil =>
    right
    refine ⟨by simp, g, rfl, hg, rfl, rfl, ?_⟩
    intro m; cases g.node? m <;> rfl
  | cons e l ih =>
    obtain ⟨n, a⟩ := e
    simp only [List.map_cons, List.nodup_cons] at hl
    rcases mergeNode_spec key g n a (hw (n, a) (by simp)) with ⟨h1, h2⟩ | ⟨h1, b, h2, h3⟩
    · left
      refine ⟨⟨(n, a), by simp, h1⟩, ?_⟩
      simp [List.foldlM_cons, h2, bind, Except.bind]
    · have hne : ∀ e ∈ l, n ≠ e.1 := by
        rintro e he rfl; exact hl.1 (List.mem_map.2 ⟨e, he, rfl⟩)
      have hsame : ∀ e ∈ l, (g.setNode n b).node? e.1 = g.node? e.1 := by
        intro e he; rw [node?_setNode, if_neg (hne e he)]
      have hfold : List.foldlM (mergeNode (some key)) g ((n, a) :: l) = List.foldlM (mergeNode (some key)) (g.setNode n b) l := by
        simp only [List.foldlM_cons, h3, bind, Except.bind]
      rw [hfold]
      have hiff : (∃ e ∈ l, ∃ x, (g.setNode n b).node? e.1 = some x ∧ Clash key x e.2) ↔
          (∃ e ∈ (n, a) :: l, ∃ x, g.node? e.1 = some x ∧ Clash key x e.2) := by
        constructor
        · rintro ⟨e, he, x, hx⟩; rw [hsame e he] at hx; exact ⟨e, by simp [he], x, hx⟩
        · rintro ⟨e, he, x, hx⟩
          rcases List.mem_cons.1 he with rfl | he
          · exact absurd ⟨x, hx⟩ h1
          · exact ⟨e, he, x, by rw [hsame e he]; exact hx⟩
      rw [← hiff]
      rcases ih hl.2 (fun e he => hw e (by simp [he])) (g.setNode n b) (WF_setNode hg n b) with h | ⟨i1, r, i2, i3, i4, i5, i6⟩
      · left; exact h
      · right
        refine ⟨i1, r, i2, i3, i4, i5, ?_⟩
        intro m
        rw [i6, node?_setNode]
        by_cases hm : n = m
        · subst hm
          have : Dict.get? l n = none := by rw [Dict.get?_eq_none_iff]; exact hl.1
          simp only [if_true, this, Dict.get?, h2]; rfl
        · simp only [if_neg hm, Dict.get?]

theorem mergeEdge_spec (key : String) (g : G ν) (u v : ν) (a : Attrs) (ha : Dict.WF a) :
    ((∃ x, g.edge? u v = some x ∧ Clash key x a) ∧ mergeEdge (some key) g ((u, v), a) = .error .typeError) ∨
    ((¬ ∃ x, g.edge? u v = some x ∧ Clash key x a) ∧ ∃ b, merged key (g.edge? u v) (some a) = some b ∧
      mergeEdge (some key) g ((u, v), a) = .ok (g.setEdge u v b)) := by
  rcases incrAttr_spec key (g.edge? u v) a ha with ⟨_, h1, h2⟩ | ⟨h1, o, h2, h3⟩
  · left; exact ⟨h1, by simp [mergeEdge, h2, bind, Except.bind]⟩
  · right
    refine ⟨h1, _, h3, ?_⟩
    cases o <;> simp [mergeEdge, h2, bind, Except.bind, pure, Except.pure, addEdge]

theorem edges_fold (key : String) (l : List ((ν × ν) × Attrs)) (g : G ν)
    (hl : l.Pairwise (fun a b => sameEdge g.directed a.1 b.1 = false)) (hw : ∀ e ∈ l, Dict.WF e.2) (hg : g.WF)
    (hend : ∀ e ∈ l, g.hasNode e.1.1 = true ∧ g.hasNode e.1.2 = true) :
    ((∃ e ∈ l, ∃ x, g.edge? e.1.1 e.1.2 = some x ∧ Clash key x e.2) ∧ l.foldlM (mergeEdge (some key)) g = .error .typeError) ∨
    ((¬ ∃ e ∈ l, ∃ x, g.edge? e.1.1 e.1.2 = some x ∧ Clash key x e.2) ∧ ∃ r, l.foldlM (mergeEdge (some key)) g = .ok r ∧ r.WF ∧
      r.directed = g.directed ∧ (∀ m, r.node? m = g.node? m) ∧
      ∀ u v, r.edge? u v = merged key (g.edge? u v) (getE g.directed l (u, v))) := by
  induction l generalizing g with
  | nil =>
    right
    refine ⟨by simp, g, rfl, hg, rfl, fun _ => rfl, ?_⟩
    intro u v; cases g.edge? u v <;> rfl
  | cons e l ih =>
    obtain ⟨⟨p, q⟩, a⟩ := e
    rw [List.pairwise_cons] at hl
    rcases mergeEdge_spec key g p q a (hw ((p, q), a) (by simp)) with ⟨h1, h2⟩ | ⟨h1, b, h2, h3⟩
    · left
      refine ⟨⟨((p, q), a), by simp, h1⟩, ?_⟩
      simp [List.foldlM_cons, h2, bind, Except.bind]
    · have hpq := hend ((p, q), a) (by simp)
      have hnode : ∀ m, (g.setEdge p q b).node? m = g.node? m := by
        intro m
        rw [node?_setEdge]
        split
        · rename_i hm
          have : g.hasNode m = true := by rcases hm with rfl | rfl; exacts [hpq.1, hpq.2]
          unfold hasNode at this
          cases hn : g.node? m with
          | none => rw [hn] at this; simp at this
          | some x => rfl
        · rfl
      have hsame : ∀ e ∈ l, (g.setEdge p q b).edge? e.1.1 e.1.2 = g.edge? e.1.1 e.1.2 := by
        intro e he; rw [edge?_setEdge]
        have := hl.1 e he
        simp only [] at this
        simp [this]
      have hfold : List.foldlM (mergeEdge (some key)) g (((p, q), a) :: l) = List.foldlM (mergeEdge (some key)) (g.setEdge p q b) l := by
        simp only [List.foldlM_cons, h3, bind, Except.bind]
      rw [hfold]
      have hiff : (∃ e ∈ l, ∃ x, (g.setEdge p q b).edge? e.1.1 e.1.2 = some x ∧ Clash key x e.2) ↔
          (∃ e ∈ ((p, q), a) :: l, ∃ x, g.edge? e.1.1 e.1.2 = some x ∧ Clash key x e.2) := by
        constructor
        · rintro ⟨e, he, x, hx⟩; rw [hsame e he] at hx; exact ⟨e, by simp [he], x, hx⟩
        · rintro ⟨e, he, x, hx⟩
          rcases List.mem_cons.1 he with rfl | he
          · exact absurd ⟨x, hx⟩ h1
          · exact ⟨e, he, x, by rw [hsame e he]; exact hx⟩
      rw [← hiff]
      rcases ih (g.setEdge p q b) (by rw [directed_setEdge]; exact hl.2) (fun e he => hw e (by simp [he])) (WF_setEdge hg p q b)
        (fun e he => by unfold hasNode; rw [hnode, hnode]; exact hend e (by simp [he])) with h | ⟨i1, r, i2, i3, i4, i5, i6⟩
      · left; exact h
      · right
        refine ⟨i1, r, i2, i3, by rw [i4, directed_setEdge], fun m => by rw [i5, hnode], ?_⟩
        intro u v
        rw [i6, edge?_setEdge, directed_setEdge]
        by_cases hm : sameEdge g.directed (p, q) (u, v) = true
        · have hnone : getE g.directed l (u, v) = none := by
            cases hg' : getE g.directed l (u, v) with
            | none => rfl
            | some b' =>
              obtain ⟨e', k1, k2, _⟩ := getE_mem hg'
              have := hl.1 e' k1
              simp only [] at this
              rw [sameEdge_trans hm (sameEdge_symm k2)] at this
              cases this
          have heq : g.edge? u v = g.edge? p q := (getE_congr hm g.edges).symm
          simp only [hm, if_true, hnone, getE, heq, h2]; rfl
        · simp only [hm, getE]; simp

/-- **C40.** `mergeGraphs(T, A)` raises exactly when some shared node or edge has a number under the incremented key on one side and a
string on the other; otherwise nodes and edges are the union, with `merged` attributes: the counts of shared nodes and the weights of
shared edges are added, everything else in only one of the graphs is as it was. -/
theorem C40_mergeGraphs (nk ek : String) (t a : G ν) (ht : t.WF) (ha : a.WF) (haw : AttrsWF a) (hd : a.directed = t.directed) :
    ((∃ r, mergeGraphs (some nk) (some ek) t a = .ok r) ↔
      (∀ n x y, t.node? n = some x → a.node? n = some y → ¬ Clash nk x y) ∧
      (∀ u v x y, t.edge? u v = some x → a.edge? u v = some y → ¬ Clash ek x y)) ∧
    (∀ r, mergeGraphs (some nk) (some ek) t a = .ok r → r.WF ∧ r.directed = t.directed ∧
      (∀ n, r.node? n = merged nk (t.node? n) (a.node? n)) ∧
      (∀ u v, r.edge? u v = merged ek (t.edge? u v) (a.edge? u v))) := by
  have hn : (∃ e ∈ a.nodes, ∃ x, t.node? e.1 = some x ∧ Clash nk x e.2) ↔
      ∃ n x y, t.node? n = some x ∧ a.node? n = some y ∧ Clash nk x y := by
    constructor
    · rintro ⟨e, he, x, h1, h2⟩; exact ⟨e.1, x, e.2, h1, (Dict.get?_eq_some_iff ha.nodes _ _).2 he, h2⟩
    · rintro ⟨n, x, y, h1, h2, h3⟩; exact ⟨(n, y), (Dict.get?_eq_some_iff ha.nodes _ _).1 h2, x, h1, h3⟩
  have he : (∃ e ∈ a.edges, ∃ x, t.edge? e.1.1 e.1.2 = some x ∧ Clash ek x e.2) ↔
      ∃ u v x y, t.edge? u v = some x ∧ a.edge? u v = some y ∧ Clash ek x y := by
    constructor
    · rintro ⟨e, he, x, h1, h2⟩; exact ⟨e.1.1, e.1.2, x, e.2, h1, edge?_of_mem ha he, h2⟩
    · rintro ⟨u, v, x, y, h1, h2, h3⟩
      obtain ⟨e, k1, k2, rfl⟩ := (edge?_eq_some_iff ha _ _ _).1 h2
      refine ⟨e, k1, x, ?_, h3⟩
      rw [hd] at k2
      rw [← h1]; exact getE_congr k2 t.edges
  unfold mergeGraphs
  rcases nodes_fold nk a.nodes ha.nodes haw.1 t ht with ⟨h1, h2⟩ | ⟨h1, r, h2, h3, h4, h5, h6⟩
  · rw [h2]
    rw [hn] at h1
    simp only [bind, Except.bind, reduceCtorEq, exists_false, false_iff, false_imp_iff, implies_true, and_true]
    rintro ⟨h, _⟩
    obtain ⟨n, x, y, k1, k2, k3⟩ := h1
    exact h n x y k1 k2 k3
  · rw [h2]
    simp only [bind, Except.bind]
    have hsame : ∀ u v, r.edge? u v = t.edge? u v := by intro u v; unfold edge?; rw [h4, h5]
    have hends : ∀ e ∈ a.edges, r.hasNode e.1.1 = true ∧ r.hasNode e.1.2 = true := by
      intro e he
      have := ha.ends e he
      unfold hasNode at this ⊢
      rw [h6, h6]
      have key : ∀ n, (a.node? n).isSome = true → (merged nk (t.node? n) (Dict.get? a.nodes n)).isSome = true := by
        intro n hn
        change (merged nk (t.node? n) (a.node? n)).isSome = true
        cases h1 : a.node? n with
        | none => rw [h1] at hn; simp at hn
        | some y =>
          cases h2 : t.node? n with
          | none => rfl
          | some x =>
            simp only [merged]
            cases x.get? nk with
            | none => rfl
            | some v => cases y.get? nk with
              | none => cases v <;> rfl
              | some w => cases v <;> cases w <;> rfl
      exact ⟨key _ this.1, key _ this.2⟩
    rcases edges_fold ek a.edges r (by rw [h4, ← hd]; exact ha.edges) haw.2 h3 hends with ⟨i1, i2⟩ | ⟨i1, r', i2, i3, i4, i5, i6⟩
    · rw [i2]
      simp only [hsame] at i1
      rw [he] at i1
      simp only [reduceCtorEq, exists_false, false_iff, false_imp_iff, implies_true, and_true]
      rintro ⟨_, h⟩
      obtain ⟨u, v, x, y, k1, k2, k3⟩ := i1
      exact h u v x y k1 k2 k3
    · rw [i2]
      simp only [hsame] at i1
      rw [he] at i1
      rw [hn] at h1
      refine ⟨?_, ?_⟩
      · simp only [Except.ok.injEq, exists_eq', true_iff]
        exact ⟨fun n x y k1 k2 k3 => h1 ⟨n, x, y, k1, k2, k3⟩, fun u v x y k1 k2 k3 => i1 ⟨u, v, x, y, k1, k2, k3⟩⟩
      · intro r'' hr
        simp only [Except.ok.injEq] at hr
        subst hr
        refine ⟨i3, i4.trans h4, fun n => by rw [i5, h6]; rfl, ?_⟩
        intro u v
        rw [i6, hsame, h4]
        unfold edge?
        rw [hd]

/-- **C40**, read off: shared numeric counts and weights are added and the other attributes of the target stay. -/
theorem C40_sums (nk ek : String) (t a r : G ν) (ht : t.WF) (ha : a.WF) (haw : AttrsWF a) (hd : a.directed = t.directed)
    (hr : mergeGraphs (some nk) (some ek) t a = .ok r) :
    (∀ n, r.hasNode n = true ↔ t.hasNode n = true ∨ a.hasNode n = true) ∧
    (∀ u v, r.hasEdge u v = true ↔ t.hasEdge u v = true ∨ a.hasEdge u v = true) ∧
    (∀ n, a.hasNode n = false → r.node? n = t.node? n) ∧ (∀ n, t.hasNode n = false → r.node? n = a.node? n) ∧
    (∀ u v, a.hasEdge u v = false → r.edge? u v = t.edge? u v) ∧ (∀ u v, t.hasEdge u v = false → r.edge? u v = a.edge? u v) ∧
    (∀ n x y i j, t.node? n = some x → a.node? n = some y → x.get? nk = some (.num i) → y.get? nk = some (.num j) →
      ∃ z, r.node? n = some z ∧ z.get? nk = some (.num (i + j)) ∧ ∀ k, k ≠ nk → z.get? k = x.get? k) ∧
    (∀ u v x y i j, t.edge? u v = some x → a.edge? u v = some y → x.get? ek = some (.num i) → y.get? ek = some (.num j) →
      ∃ z, r.edge? u v = some z ∧ z.get? ek = some (.num (i + j)) ∧ ∀ k, k ≠ ek → z.get? k = x.get? k) := by
  obtain ⟨_, _, hn, he⟩ := (C40_mergeGraphs nk ek t a ht ha haw hd).2 r hr
  have some_iff : ∀ k (x y : Option Attrs), (merged k x y).isSome = true ↔ x.isSome = true ∨ y.isSome = true := by
    intro k x y
    cases x with
    | none => simp [merged]
    | some x =>
      cases y with
      | none => simp [merged]
      | some y =>
        simp only [merged]
        cases x.get? k with
        | none => simp
        | some v => cases y.get? k with
          | none => cases v <;> simp
          | some w => cases v <;> cases w <;> simp
  have left : ∀ k (x : Option Attrs), merged k x none = x := by intro k x; cases x <;> rfl
  refine ⟨?_, ?_, ?_, ?_, ?_, ?_, ?_, ?_⟩
  · intro n; unfold hasNode; rw [hn]; exact some_iff _ _ _
  · intro u v; unfold hasEdge; rw [he]; exact some_iff _ _ _
  · intro n h; unfold hasNode at h; simp only [Option.isSome_eq_false_iff, Option.isNone_iff_eq_none] at h; rw [hn, h, left]
  · intro n h; unfold hasNode at h; simp only [Option.isSome_eq_false_iff, Option.isNone_iff_eq_none] at h; rw [hn, h]; rfl
  · intro u v h; unfold hasEdge at h; simp only [Option.isSome_eq_false_iff, Option.isNone_iff_eq_none] at h; rw [he, h, left]
  · intro u v h; unfold hasEdge at h; simp only [Option.isSome_eq_false_iff, Option.isNone_iff_eq_none] at h; rw [he, h]; rfl
  · intro n x y i j h1 h2 h3 h4
    refine ⟨x.set nk (.num (i + j)), by rw [hn, h1, h2]; simp [merged, h3, h4], by simp, ?_⟩
    intro k hk; rw [Dict.get?_set_ne _ _ (Ne.symm hk)]
  · intro u v x y i j h1 h2 h3 h4
    refine ⟨x.set ek (.num (i + j)), by rw [he, h1, h2]; simp [merged, h3, h4], by simp, ?_⟩
    intro k hk; rw [Dict.get?_set_ne _ _ (Ne.symm hk)]

/-- **C40, disagreement with the documentation.** The target has precedence only where both sides have the incremented value: when either
lacks it, every attribute of the added node replaces the target's. -/
theorem C40_missing_overwrites (nk ek : String) (t a r : G ν) (ht : t.WF) (ha : a.WF) (haw : AttrsWF a) (hd : a.directed = t.directed)
    (hr : mergeGraphs (some nk) (some ek) t a = .ok r) (n : ν) (x y : Attrs) (hx : t.node? n = some x) (hy : a.node? n = some y)
    (hm : x.get? nk = none ∨ y.get? nk = none) :
    ∃ z, r.node? n = some z ∧ ∀ k, z.get? k = (y.get? k).or (x.get? k) := by
  obtain ⟨_, _, hn, _⟩ := (C40_mergeGraphs nk ek t a ht ha haw hd).2 r hr
  have hyw : Dict.WF y := haw.1 (n, y) ((Dict.get?_eq_some_iff ha.nodes _ _).1 hy)
  refine ⟨x.update y, ?_, ?_⟩
  · rw [hn, hx, hy]
    simp only [merged]
    cases h1 : x.get? nk with
    | none => rfl
    | some v =>
      cases h2 : y.get? nk with
      | none => cases v <;> rfl
      | some w => rw [h1, h2] at hm; simp at hm
  · intro k; rw [Dict.get?_update _ _ hyw]

/-- **C40.** With a false `incrementedNodeVal` shared nodes keep the target's attributes. -/
theorem C40_no_node_key (ek : String) (t a r : G ν) (ht : t.WF) (ha : a.WF) (haw : AttrsWF a) (hd : a.directed = t.directed)
    (hr : mergeGraphs none (some ek) t a = .ok r) :
    (∀ n, r.node? n = (t.node? n).or (a.node? n)) ∧ (∀ u v, r.edge? u v = merged ek (t.edge? u v) (a.edge? u v)) := by
  have key : ∀ (l : List (ν × Attrs)) (g : G ν), g.WF → (∀ e ∈ l, Dict.WF e.2) → (l.map Prod.fst).Nodup →
      ∃ r, l.foldlM (mergeNode none) g = .ok r ∧ r.WF ∧ r.directed = g.directed ∧ r.edges = g.edges ∧
        ∀ n, r.node? n = (g.node? n).or (Dict.get? l n) := by
    intro l
    induction l with
    | nil => intro g hg _ _; exact ⟨g, rfl, hg, rfl, rfl, by simp⟩
    | cons e l ih =>
      obtain ⟨n, b⟩ := e
      intro g hg hw hl
      simp only [List.map_cons, List.nodup_cons] at hl
      simp only [List.foldlM_cons, mergeNode]
      by_cases hh : g.hasNode n = true
      · obtain ⟨r, h1, h2, h3, h4, h5⟩ := ih g hg (fun e he => hw e (by simp [he])) hl.2
        refine ⟨r, by simpa [hh, bind, Except.bind] using h1, h2, h3, h4, ?_⟩
        intro m
        rw [h5]
        simp only [Dict.get?]
        by_cases hm : n = m
        · subst hm
          unfold hasNode at hh
          cases hx : g.node? n with
          | none => rw [hx] at hh; simp at hh
          | some x => simp
        · simp [hm]
      · have hnone : g.node? n = none := by unfold hasNode at hh; simpa using hh
        obtain ⟨r, h1, h2, h3, h4, h5⟩ := ih (g.setNode n b) (WF_setNode hg _ _) (fun e he => hw e (by simp [he])) hl.2
        refine ⟨r, ?_, h2, h3, h4, ?_⟩
        · have hb : addNode g n b = g.setNode n b := by
            unfold addNode; rw [hnone]; simp only [Option.getD_none, Dict.update_nil_left b (hw (n, b) (by simp))]
          simpa [hh, bind, Except.bind, hb] using h1
        · intro m
          rw [h5, node?_setNode]
          simp only [Dict.get?]
          by_cases hm : n = m
          · subst hm; simp [hnone]
          · simp [hm]
  obtain ⟨r1, h1, h2, h3, h4, h5⟩ := key a.nodes t ht haw.1 ha.nodes
  unfold mergeGraphs at hr
  rw [h1] at hr
  simp only [bind, Except.bind] at hr
  have hends : ∀ e ∈ a.edges, r1.hasNode e.1.1 = true ∧ r1.hasNode e.1.2 = true := by
    intro e he
    have := ha.ends e he
    unfold hasNode at this ⊢
    rw [h5, h5]
    have k : ∀ n, (a.node? n).isSome = true → ((t.node? n).or (Dict.get? a.nodes n)).isSome = true := by
      intro n hn
      change ((t.node? n).or (a.node? n)).isSome = true
      cases t.node? n <;> simp [hn]
    exact ⟨k _ this.1, k _ this.2⟩
  rcases edges_fold ek a.edges r1 (by rw [h3, ← hd]; exact ha.edges) haw.2 h2 hends with ⟨i1, i2⟩ | ⟨i1, r', i2, i3, i4, i5, i6⟩
  · rw [i2] at hr; cases hr
  · rw [i2] at hr
    simp only [Except.ok.injEq] at hr
    subst hr
    refine ⟨fun n => by rw [i5, h5]; rfl, ?_⟩
    intro u v
    rw [i6, h3]
    unfold edge?
    rw [hd, h3, h4]

/-- **C40, disagreement.** A false `incrementedEdgeVal` makes the call raise `AttributeError` as soon as the added graph has an edge. -/
theorem C40_no_edge_key (nk : String) (t a : G ν) (h : a.edges ≠ []) :
    ∃ er, mergeGraphs (some nk) none t a = .error er := by
  unfold mergeGraphs
  cases a.nodes.foldlM (mergeNode (some nk)) t with
  | error er => exact ⟨er, rfl⟩
  | ok g =>
    cases he : a.edges with
    | nil => exact absurd he h
    | cons e l => exact ⟨.attributeError, rfl⟩

/-! ## Merging the networks of two collections -/
section union
open Verif.Model.Networks Verif.Model.Series

/-- The attribute dictionary of a node built by the network functions. -/
def nodeAttrs (a : NodeAttr) : Attrs :=
  (match a.count with | some c => [("count", .num c)] | none => []) ++ (match a.type with | some t => [("type", .str t)] | none => [])

/-- The attribute dictionary of an edge built by the network functions. -/
def edgeAttrs (w : Option Nat) : Attrs := match w with | some c => [("weight", .num c)] | none => []

/-- A network as a graph with attribute dictionaries. -/
def toG (g : Net ν) : G ν :=
  ⟨g.directed, g.nodes.map (fun n => (n.1, nodeAttrs n.2)), g.edges.map (fun e => (e.1, edgeAttrs e.2))⟩

theorem node?_toG (g : Net ν) (n : ν) : (toG g).node? n = (g.node? n).map nodeAttrs := by
  unfold toG node?
  simp only []
  induction g.nodes with
  | nil => rfl
  | cons x l ih =>
    simp only [List.map_cons, Dict.get?, ih]
    split <;> simp

theorem edge?_toG (g : Net ν) (u v : ν) : (toG g).edge? u v = (g.edge? u v).map edgeAttrs := by
  unfold toG edge?
  simp only []
  induction g.edges with
  | nil => rfl
  | cons x l ih =>
    obtain ⟨k, b⟩ := x
    simp only [List.map_cons, getE, ih]
    split <;> simp

theorem WF_toG {g : Net ν} (hg : g.WF) : (toG g).WF ∧ AttrsWF (toG g) := by
  refine ⟨⟨?_, ?_, ?_⟩, ?_, ?_⟩
  · have := hg.nodes
    unfold Dict.WF Dict.keys at *
    simpa [toG, Function.comp_def] using this
  · simp only [toG, List.pairwise_map]; exact hg.edges
  · intro e he
    simp only [toG, List.mem_map] at he
    obtain ⟨e', h1, rfl⟩ := he
    have := hg.ends e' h1
    unfold hasNode at *
    simpa [node?_toG] using this
  · intro n hn
    simp only [toG, List.mem_map] at hn
    obtain ⟨n', _, rfl⟩ := hn
    simp only [nodeAttrs, Dict.WF, Dict.keys]
    cases n'.2.count <;> cases n'.2.type <;> simp
  · intro n hn
    simp only [toG, List.mem_map] at hn
    obtain ⟨n', _, rfl⟩ := hn
    simp only [edgeAttrs, Dict.WF, Dict.keys]
    cases n'.2 <;> simp

variable {ρ α τ : Type}

/-- **C40.** Merging the co-occurrence networks of two lists of records gives the network of all the records together. -/
theorem C40_union (nodeCount edgeWeight : Bool) (ident : α → ν) (field : ρ → τ → Option (FieldVal α)) (modes : List τ)
    (recs recs' : List ρ) :
    ∃ r, mergeGraphs (some "count") (some "weight") (toG (networkMultiLevel nodeCount edgeWeight ident field modes recs))
        (toG (networkMultiLevel nodeCount edgeWeight ident field modes recs')) = .ok r ∧
      (∀ n, r.node? n = (toG (networkMultiLevel nodeCount edgeWeight ident field modes (recs ++ recs'))).node? n) ∧
      (∀ u v, r.edge? u v = (toG (networkMultiLevel nodeCount edgeWeight ident field modes (recs ++ recs'))).edge? u v) := by
  obtain ⟨w1, d1, e1, n1⟩ := C12_multi_level nodeCount edgeWeight ident field modes recs
  obtain ⟨w2, d2, e2, n2⟩ := C12_multi_level nodeCount edgeWeight ident field modes recs'
  obtain ⟨w3, d3, e3, n3⟩ := C12_multi_level nodeCount edgeWeight ident field modes (recs ++ recs')
  have hm := C40_mergeGraphs "count" "weight" (toG (networkMultiLevel nodeCount edgeWeight ident field modes recs))
    (toG (networkMultiLevel nodeCount edgeWeight ident field modes recs')) (WF_toG w1).1 (WF_toG w2).1 (WF_toG w2).2
    (by simp [toG, d1, d2])
  have hclash : ∃ r, mergeGraphs (some "count") (some "weight") (toG (networkMultiLevel nodeCount edgeWeight ident field modes recs))
        (toG (networkMultiLevel nodeCount edgeWeight ident field modes recs')) = .ok r := by
    rw [hm.1]
    constructor
    · intro n x y hx hy
      rw [node?_toG, n1] at hx
      rw [node?_toG, n2] at hy
      simp only [] at hx hy
      split at hx
      · simp at hx
      · split at hy
        · simp at hy
        · simp only [Option.map_some, Option.some.injEq] at hx hy
          subst hx hy
          cases nodeCount <;> simp [Clash, nodeAttrs, Dict.get?]
    · intro u v x y hx hy
      rw [edge?_toG, e1] at hx
      rw [edge?_toG, e2] at hy
      unfold edgeFor at hx hy
      split at hx
      · simp at hx
      · split at hy
        · simp at hy
        · simp only [Option.map_some, Option.some.injEq] at hx hy
          subst hx hy
          cases edgeWeight <;> simp [Clash, edgeAttrs, Dict.get?]
  obtain ⟨r, hr⟩ := hclash
  obtain ⟨_, _, hn, he⟩ := hm.2 r hr
  refine ⟨r, hr, ?_, ?_⟩
  · intro n
    rw [hn, node?_toG, node?_toG, node?_toG, n1, n2, n3]
    simp only [List.map_append, List.sum_append]
    generalize (recs.map (fun r => (names ident field modes r).count n)).sum = i
    generalize (recs'.map (fun r => (names ident field modes r).count n)).sum = j
    by_cases hi : i = 0
    · subst hi; simp [merged]
    · by_cases hj : j = 0
      · subst hj; simp [merged, hi]
      · have : i + j ≠ 0 := by omega
        cases nodeCount <;> simp [merged, hi, hj, nodeAttrs, Dict.get?, Dict.set, this, Dict.update]
  · intro u v
    rw [he, edge?_toG, edge?_toG, edge?_toG, e1, e2, e3]
    simp only [List.map_append, List.sum_append]
    generalize (recs.map (fun r => pairsShared (names ident field modes r) u v)).sum = i
    generalize (recs'.map (fun r => pairsShared (names ident field modes r) u v)).sum = j
    unfold edgeFor
    by_cases hi : i = 0
    · subst hi; simp [merged]
    · by_cases hj : j = 0
      · subst hj; simp [merged, hi]
      · have : i + j ≠ 0 := by omega
        cases edgeWeight <;> simp [merged, hi, hj, edgeAttrs, Dict.get?, Dict.set, this, Dict.update]

end union

/-- A second graph sharing a node with a count, one without, and an edge with `exG`. -/
def exA : G Nat :=
  ⟨false, [(3, [("count", .num 1), ("t", .str "b")]), (2, [("count", .num 7)]), (4, [])], [((2, 3), [("weight", .num 10)]), ((3, 4), [])]⟩

theorem exA_wf : exA.WF ∧ AttrsWF exA ∧ exA.directed = exG.directed := by
  refine ⟨⟨by decide, by decide, by decide⟩, ?_, rfl⟩
  unfold AttrsWF Dict.WF
  decide

example : ∃ r, mergeGraphs (some "count") (some "weight") exG exA = .ok r ∧ r.node? 3 = some [("count", .num 6)] ∧
    r.node? 2 = some [("count", .num 7)] ∧ r.edge? 2 3 = some [("weight", .num 14)] ∧ r.edge? 4 3 = some [] :=
  ⟨_, rfl, by decide⟩

end Verif.Props
