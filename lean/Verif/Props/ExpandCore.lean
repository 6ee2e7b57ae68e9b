import Verif.Model.ExpandCore

/-! # C66: expanding the core of a citation network -/
set_option autoImplicit false
set_option linter.unusedSimpArgs false
set_option linter.unusedSectionVars false
namespace Verif.Props.ExpandCore
open Verif.Py Verif.Py.Graph Verif.Model.ExpandCore

variable {ν A : Type} [DecidableEq ν] [Inhabited A]
abbrev G (ν A : Type) := Graph ν A (Option Nat)

/-! ## Edges and neighbours -/

theorem getE_isSome {B : Type} (d : Bool) (l : List ((ν × ν) × B)) (p : ν × ν) :
    (getE d l p).isSome = true ↔ ∃ e ∈ l, sameEdge d e.1 p = true := by
  induction l with
  | nil => simp [getE]
  | cons x l ih =>
    obtain ⟨k, b⟩ := x
    unfold getE
    by_cases h : sameEdge d k p = true <;> simp [h, ih]

theorem mem_nbrs (g : G ν A) (a e : ν) : e ∈ nbrs g a ↔ g.hasEdge a e = true := by
  unfold nbrs hasEdge edge?
  rw [List.mem_filterMap, getE_isSome]
  constructor
  · rintro ⟨x, hx, h⟩
    refine ⟨x, hx, ?_⟩
    rw [sameEdge_iff]
    by_cases h1 : x.1.1 = a
    · rw [if_pos h1] at h
      simp only [Option.some.injEq] at h
      exact Or.inl (Prod.ext h1 h)
    · rw [if_neg h1] at h
      by_cases h2 : (!g.directed) = true ∧ x.1.2 = a
      · rw [if_pos h2] at h
        simp only [Option.some.injEq] at h
        exact Or.inr ⟨by simpa using h2.1, h, h2.2⟩
      · rw [if_neg h2] at h; simp at h
  · rintro ⟨x, hx, h⟩
    refine ⟨x, hx, ?_⟩
    rw [sameEdge_iff] at h
    rcases h with h | ⟨hd, h1, h2⟩
    · rw [h]; simp
    · by_cases h3 : x.1.1 = a
      · rw [if_pos h3]; simp only [Option.some.injEq]; rw [h2]; simp only at h1 ⊢; rw [← h1, h3]
      · rw [if_neg h3, if_pos ⟨by simp [hd], h2⟩]; simpa using h1

theorem hasEdge_setEdge (g : G ν A) (u v : ν) (b : Option Nat) (x y : ν) :
    (g.setEdge u v b).hasEdge x y = true ↔ sameEdge g.directed (u, v) (x, y) = true ∨ g.hasEdge x y = true := by
  unfold hasEdge
  rw [edge?_setEdge]
  by_cases h : sameEdge g.directed (u, v) (x, y) = true <;> simp [h]

theorem hasEdge_addEdgeData (g : G ν A) (u v : ν) (o : Option Nat) (x y : ν) :
    (addEdgeData g u v o).hasEdge x y = true ↔ sameEdge g.directed (u, v) (x, y) = true ∨ g.hasEdge x y = true := by
  unfold addEdgeData
  cases o with
  | some w => exact hasEdge_setEdge g u v _ x y
  | none =>
    dsimp only
    cases h : g.edge? u v with
    | none => exact hasEdge_setEdge g u v _ x y
    | some z =>
      constructor
      · exact Or.inr
      · rintro (h' | h')
        · have : g.edge? x y = g.edge? u v := getE_congr (sameEdge_symm h') _
          simp [hasEdge, this, h]
        · exact h'

theorem directed_addEdgeData (g : G ν A) (u v : ν) (o : Option Nat) : (addEdgeData g u v o).directed = g.directed := by
  unfold addEdgeData
  cases o with
  | some w => simp
  | none => dsimp only; cases g.edge? u v <;> simp

theorem node?_setEdge_of {g : G ν A} {u v : ν} (hu : g.hasNode u = true) (hv : g.hasNode v = true) (b : Option Nat) (m : ν) :
    (g.setEdge u v b).node? m = g.node? m := by
  have ht : ∀ {n : ν}, g.hasNode n = true → g.touch n = g := by
    intro n hn
    unfold touch
    unfold hasNode at hn
    cases h : g.node? n with
    | none => rw [h] at hn; simp at hn
    | some a => rfl
  unfold setEdge
  simp only [ht hu, ht hv]
  rfl

theorem node?_addEdgeData {g : G ν A} {u v : ν} (hu : g.hasNode u = true) (hv : g.hasNode v = true) (o : Option Nat) (m : ν) :
    (addEdgeData g u v o).node? m = g.node? m := by
  unfold addEdgeData
  cases o with
  | some w => exact node?_setEdge_of hu hv _ m
  | none =>
    dsimp only
    cases h : g.edge? u v with
    | none => exact node?_setEdge_of hu hv _ m
    | some z => rfl

theorem WF_addEdgeData {g : G ν A} (h : g.WF) (u v : ν) (o : Option Nat) : (addEdgeData g u v o).WF := by
  unfold addEdgeData
  cases o with
  | some w => exact WF_setEdge h u v _
  | none =>
    dsimp only
    cases g.edge? u v with
    | none => exact WF_setEdge h u v _
    | some z => exact h

/-! ## What a step keeps -/

/-- Nothing is lost: same kind of graph, nodes keep their attributes, edges stay. -/
structure Keeps (g g' : G ν A) : Prop where
  directed : g'.directed = g.directed
  nodes : ∀ m x, g.node? m = some x → g'.node? m = some x
  edges : ∀ x y, g.hasEdge x y = true → g'.hasEdge x y = true

theorem Keeps.refl (g : G ν A) : Keeps g g := ⟨rfl, fun _ _ h => h, fun _ _ h => h⟩
theorem Keeps.trans {g h k : G ν A} (a : Keeps g h) (b : Keeps h k) : Keeps g k :=
  ⟨b.directed.trans a.directed, fun m x hx => b.nodes m x (a.nodes m x hx), fun x y hx => b.edges x y (a.edges x y hx)⟩
theorem Keeps.hasNode {g h : G ν A} (a : Keeps g h) {m : ν} (hm : g.hasNode m = true) : h.hasNode m = true := by
  unfold Graph.hasNode at *
  cases e : g.node? m with
  | none => rw [e] at hm; simp at hm
  | some x => rw [a.nodes m x e]; rfl

theorem copyLoop_spec (a b : ν) (n : Nat) (es : List ν) : ∀ (g g' : G ν A), g.WF → g.hasNode b = true →
    copyLoop a b n g es = .ok g' →
    g'.WF ∧ g'.directed = g.directed ∧ (∀ m, g'.node? m = g.node? m) ∧ (∀ x y, g.hasEdge x y = true → g'.hasEdge x y = true) ∧
    (∀ e ∈ es, g.hasEdge a e = true → g'.hasEdge b e = true) ∧
    (∀ x y, g'.hasEdge x y = true → g.hasEdge x y = true ∨ ∃ e ∈ es, sameEdge g.directed (b, e) (x, y) = true) := by
  induction es with
  | nil =>
    intro g g' hw hb h
    simp only [copyLoop, Except.ok.injEq] at h; subst h
    exact ⟨hw, rfl, fun _ => rfl, fun _ _ h => h, by simp, fun _ _ h => Or.inl h⟩
  | cons e es ih =>
    intro g g' hw hb h
    unfold copyLoop at h
    cases hd : g.edge? a e with
    | none =>
      simp only [hd] at h
      obtain ⟨h1, h2, h3, h4, h5, h6⟩ := ih g g' hw hb h
      refine ⟨h1, h2, h3, h4, ?_, ?_⟩
      · intro x hx hax
        rcases List.mem_cons.1 hx with rfl | hx
        · simp [hasEdge, hd] at hax
        · exact h5 x hx hax
      · intro x y hxy
        rcases h6 x y hxy with h | ⟨e', he', h⟩
        · exact Or.inl h
        · exact Or.inr ⟨e', by simp [he'], h⟩
    | some data =>
      simp only [hd] at h
      by_cases hn : (nbrs (addEdgeData g b e data) a).length ≠ n
      · rw [if_pos hn] at h; cases h
      · rw [if_neg hn] at h
        have he : g.hasNode e = true := (hw.ends_of_edge? (by rw [hd]; rfl)).2
        have hb' : (addEdgeData g b e data).hasNode b = true := by
          unfold Graph.hasNode; rw [node?_addEdgeData hb he]; exact hb
        obtain ⟨h1, h2, h3, h4, h5, h6⟩ := ih _ g' (WF_addEdgeData hw b e data) hb' h
        have hmono : ∀ x y, g.hasEdge x y = true → (addEdgeData g b e data).hasEdge x y = true :=
          fun x y hxy => (hasEdge_addEdgeData g b e data x y).2 (Or.inr hxy)
        refine ⟨h1, h2.trans (directed_addEdgeData ..), fun m => (h3 m).trans (node?_addEdgeData hb he data m),
          fun x y hxy => h4 x y (hmono x y hxy), ?_, ?_⟩
        · intro x hx hax
          rcases List.mem_cons.1 hx with rfl | hx
          · exact h4 b x ((hasEdge_addEdgeData g b x data b x).2 (Or.inl (sameEdge_refl _ _)))
          · exact h5 x hx (hmono a x hax)
        · intro x y hxy
          rcases h6 x y hxy with h | ⟨e', he', h⟩
          · rcases (hasEdge_addEdgeData g b e data x y).1 h with h | h
            · exact Or.inr ⟨e, by simp, h⟩
            · exact Or.inl h
          · rw [directed_addEdgeData] at h
            exact Or.inr ⟨e', by simp [he'], h⟩

/-- What `joinPair` does. -/
theorem joinPair_spec (weighted : Bool) (g : G ν A) (a b : ν) (hw : g.WF) (ha : g.hasNode a = true) :
    (joinPair weighted g a b).WF ∧ (joinPair weighted g a b).directed = g.directed ∧
    (∀ m, (joinPair weighted g a b).node? m = if g.hasNode m = true then g.node? m else if m = b then g.node? a else none) ∧
    (∀ x y, (joinPair weighted g a b).hasEdge x y = true ↔
      g.hasEdge x y = true ∨ ((weighted = true ∨ g.hasNode b = false) ∧ sameEdge g.directed (a, b) (x, y) = true)) := by
  unfold joinPair
  cases hb : g.node? b with
  | none =>
    have hbn : g.hasNode b = false := by simp [Graph.hasNode, hb]
    have hA : (g.setNode b ((g.node? a).getD default)).hasNode a = true := (hasNode_setNode ..).2 (Or.inr ha)
    have hB : (g.setNode b ((g.node? a).getD default)).hasNode b = true := (hasNode_setNode ..).2 (Or.inl rfl)
    refine ⟨WF_setEdge (WF_setNode hw _ _) _ _ _, by simp, ?_, ?_⟩
    · intro m
      dsimp only
      rw [node?_setEdge_of hA hB, node?_setNode]
      by_cases hm : b = m
      · subst hm
        rw [if_pos rfl, hbn]
        unfold Graph.hasNode at ha
        cases h : g.node? a with
        | none => rw [h] at ha; simp at ha
        | some x => simp
      · have hm' : ¬ m = b := fun h => hm h.symm
        rw [if_neg hm]
        unfold Graph.hasNode
        cases g.node? m <;> simp [hm']
    · intro x y
      dsimp only
      rw [hasEdge_setEdge]
      have : (g.setNode b ((g.node? a).getD default)).hasEdge x y = g.hasEdge x y := rfl
      rw [this]
      simp [hbn, or_comm]
  | some z =>
    have hbn : g.hasNode b = true := by simp [Graph.hasNode, hb]
    have hnode : ∀ m, g.node? m = if g.hasNode m = true then g.node? m else if m = b then g.node? a else none := by
      intro m
      by_cases hm : g.hasNode m = true
      · rw [if_pos hm]
      · have : m ≠ b := by rintro rfl; exact hm hbn
        rw [if_neg hm, if_neg this]
        unfold Graph.hasNode at hm
        cases h : g.node? m with
        | none => rfl
        | some x => rw [h] at hm; simp at hm
    cases weighted
    · refine ⟨hw, rfl, hnode, fun x y => ?_⟩
      simp [hbn]
    · rw [if_pos rfl]
      have key : ∀ w : Option Nat, (g.setEdge a b w).WF ∧ (g.setEdge a b w).directed = g.directed ∧
          (∀ m, (g.setEdge a b w).node? m = if g.hasNode m = true then g.node? m else if m = b then g.node? a else none) ∧
          (∀ x y, (g.setEdge a b w).hasEdge x y = true ↔ g.hasEdge x y = true ∨ ((true = true ∨ g.hasNode b = false) ∧
            sameEdge g.directed (a, b) (x, y) = true)) := by
        intro w
        refine ⟨WF_setEdge hw _ _ _, by simp, fun m => (node?_setEdge_of ha hbn w m).trans (hnode m), fun x y => ?_⟩
        rw [hasEdge_setEdge]; simp [or_comm]
      cases h : g.edge? a b with
      | none => exact key _
      | some o => cases o <;> exact key _

theorem expandPair_spec (weighted : Bool) (g g' : G ν A) (a b : ν) (hw : g.WF) (ha : g.hasNode a = true)
    (h : expandPair weighted a g b = .ok g') :
    g'.WF ∧ Keeps g g' ∧ (∀ m, g'.node? m = if g.hasNode m = true then g.node? m else if m = b then g.node? a else none) ∧
    (∀ e, g.hasEdge a e = true → g'.hasEdge b e = true) ∧
    (weighted = true ∨ g.hasNode b = false → g'.hasEdge a b = true ∧ g'.hasEdge b b = true) := by
  obtain ⟨j1, j2, j3, j4⟩ := joinPair_spec weighted g a b hw ha
  have hb : (joinPair weighted g a b).hasNode b = true := by
    unfold Graph.hasNode; rw [j3]
    by_cases hb : g.hasNode b = true
    · rw [if_pos hb]; exact hb
    · rw [if_neg hb, if_pos rfl]; exact ha
  obtain ⟨h1, h2, h3, h4, h5, _⟩ := copyLoop_spec a b _ _ _ g' j1 hb h
  refine ⟨h1, ⟨h2.trans j2, ?_, fun x y hxy => h4 x y ((j4 x y).2 (Or.inl hxy))⟩, fun m => (h3 m).trans (j3 m), ?_, ?_⟩
  · intro m x hx
    rw [h3, j3, if_pos (by simp [Graph.hasNode, hx])]; exact hx
  · intro e he
    have := (j4 a e).2 (Or.inl he)
    exact h5 e ((mem_nbrs _ a e).2 this) this
  · intro hc
    have := (j4 a b).2 (Or.inr ⟨hc, sameEdge_refl _ _⟩)
    exact ⟨h4 a b this, h5 b ((mem_nbrs _ a b).2 this) this⟩

/-- The inner loop. -/
theorem foldPair_spec (weighted : Bool) (a : ν) (rest : List ν) : ∀ (g g' : G ν A), g.WF → g.hasNode a = true →
    rest.foldlM (expandPair weighted a) g = .ok g' →
    g'.WF ∧ Keeps g g' ∧ (∀ m, g'.node? m = if g.hasNode m = true then g.node? m else if m ∈ rest then g.node? a else none) ∧
    (∀ b ∈ rest, ∀ e, g.hasEdge a e = true → g'.hasEdge b e = true) ∧
    (∀ b ∈ rest, weighted = true ∨ g.hasNode b = false → g'.hasEdge a b = true ∧ g'.hasEdge b b = true) := by
  induction rest with
  | nil =>
    intro g g' hw ha h
    simp only [List.foldlM_nil] at h
    cases h
    refine ⟨hw, Keeps.refl g, fun m => ?_, by simp, by simp⟩
    unfold Graph.hasNode
    cases g.node? m <;> simp
  | cons b rest ih =>
    intro g g' hw ha h
    rw [List.foldlM_cons] at h
    cases h1 : expandPair weighted a g b with
    | error e => rw [h1] at h; cases h
    | ok g1 =>
      rw [h1] at h
      obtain ⟨p1, p2, p3, p4, p5⟩ := expandPair_spec weighted g g1 a b hw ha h1
      obtain ⟨q1, q2, q3, q4, q5⟩ := ih g1 g' p1 (p2.hasNode ha) h
      have hn1 : ∀ m, g1.hasNode m = true ↔ g.hasNode m = true ∨ m = b := by
        intro m
        unfold Graph.hasNode at *
        rw [p3]
        cases hm : g.node? m with
        | some x => simp
        | none => by_cases e : m = b <;> simp [e, ha]
      have hna : g1.node? a = g.node? a := by rw [p3, if_pos ha]
      refine ⟨q1, p2.trans q2, fun m => ?_, ?_, ?_⟩
      · rw [q3, hna]
        by_cases hm : g.hasNode m = true
        · rw [if_pos hm, if_pos ((hn1 m).2 (Or.inl hm)), p3, if_pos hm]
        · rw [if_neg hm]
          by_cases e : m = b
          · rw [if_pos ((hn1 m).2 (Or.inr e)), p3, if_neg hm, if_pos e, if_pos (by simp [e])]
          · rw [if_neg (by rw [hn1]; exact not_or.2 ⟨hm, e⟩)]
            simp [e]
      · intro x hx e he
        rcases List.mem_cons.1 hx with rfl | hx
        · exact q2.edges _ _ (p4 e he)
        · exact q4 x hx e (p2.edges _ _ he)
      · intro x hx hc
        by_cases e : x = b
        · subst e
          have := p5 hc
          exact ⟨q2.edges _ _ this.1, q2.edges _ _ this.2⟩
        · have hx' : x ∈ rest := by rcases List.mem_cons.1 hx with h | h; exact absurd h e; exact h
          refine q5 x hx' (hc.imp_right (fun h => ?_))
          rw [Bool.eq_false_iff, Ne, hn1]; simp [h, e]

theorem expandList_spec (weighted : Bool) (ids : List ν) : ∀ (g g' : G ν A), g.WF → expandList weighted ids g = .ok g' →
    g'.WF ∧ Keeps g g' ∧
    (∀ p a q, ids = p ++ a :: q → g.hasNode a = true → (∀ b ∈ q, ∀ e, g.hasEdge a e = true → g'.hasEdge b e = true) ∧
      (weighted = true → ∀ b ∈ q, g'.hasEdge a b = true ∧ g'.hasEdge b b = true)) ∧
    ((∀ x ∈ ids, g.hasNode x = false) → g' = g) ∧
    (∀ p a q, ids = p ++ a :: q → g.hasNode a = true → (∀ x ∈ p, g.hasNode x = false) →
      (∀ m, g'.node? m = if g.hasNode m = true then g.node? m else if m ∈ q then g.node? a else none) ∧
      (∀ b ∈ q, g.hasNode b = false → g'.hasEdge a b = true ∧ g'.hasEdge b b = true)) := by
  induction ids with
  | nil =>
    intro g g' hw h
    simp only [expandList, Except.ok.injEq] at h; subst h
    exact ⟨hw, Keeps.refl g, by simp, by simp, by simp⟩
  | cons a rest ih =>
    intro g g' hw h
    unfold expandList at h
    by_cases ha : g.hasNode a = true
    · rw [if_pos ha] at h
      cases h1 : rest.foldlM (expandPair weighted a) g with
      | error e => simp only [h1] at h; cases h
      | ok g1 =>
        simp only [h1] at h
        obtain ⟨p1, p2, p3, p4, p5⟩ := foldPair_spec weighted a rest g g1 hw ha h1
        obtain ⟨q1, q2, q3, q4, q5⟩ := ih g1 g' p1 h
        have hrest : ∀ x ∈ rest, g1.hasNode x = true := by
          intro x hx
          unfold Graph.hasNode; rw [p3]
          by_cases hgx : g.hasNode x = true
          · rw [if_pos hgx]; exact hgx
          · rw [if_neg hgx, if_pos hx]; exact ha
        have hn2 : ∀ m, g'.node? m = g1.node? m := by
          intro m
          cases rest with
          | nil => simp only [expandList, Except.ok.injEq] at h; rw [h]
          | cons c rest' =>
            rw [(q5 [] c rest' rfl (hrest c (by simp)) (by simp)).1 m]
            by_cases hm : g1.hasNode m = true
            · rw [if_pos hm]
            · rw [if_neg hm, if_neg (fun hmem => hm (hrest m (by simp [hmem])))]
              unfold Graph.hasNode at hm
              cases e : g1.node? m with
              | none => rfl
              | some x => rw [e] at hm; simp at hm
        refine ⟨q1, p2.trans q2, ?_, ?_, ?_⟩
        · intro p c q heq hc
          cases p with
          | nil =>
            simp only [List.nil_append, List.cons.injEq] at heq
            obtain ⟨rfl, rfl⟩ := heq
            refine ⟨fun b hb e he => q2.edges _ _ (p4 b hb e he), fun hwt b hb => ?_⟩
            have := p5 b hb (Or.inl hwt)
            exact ⟨q2.edges _ _ this.1, q2.edges _ _ this.2⟩
          | cons x p =>
            simp only [List.cons_append, List.cons.injEq] at heq
            have := q3 p c q heq.2 (p2.hasNode hc)
            exact ⟨fun b hb e he => this.1 b hb e (p2.edges _ _ he), this.2⟩
        · intro hall; rw [hall a (by simp)] at ha; simp at ha
        · intro p c q heq hc hp
          cases p with
          | cons x p =>
            simp only [List.cons_append, List.cons.injEq] at heq
            rw [heq.1, hp x (by simp)] at ha; simp at ha
          | nil =>
            simp only [List.nil_append, List.cons.injEq] at heq
            obtain ⟨rfl, rfl⟩ := heq
            refine ⟨fun m => by rw [hn2, p3], fun b hb hnb => ?_⟩
            have := p5 b hb (Or.inr hnb)
            exact ⟨q2.edges _ _ this.1, q2.edges _ _ this.2⟩
    · rw [if_neg ha] at h
      dsimp only at h
      obtain ⟨q1, q2, q3, q4, q5⟩ := ih g g' hw h
      refine ⟨q1, q2, ?_, ?_, ?_⟩
      · intro p c q heq hc
        cases p with
        | nil =>
          simp only [List.nil_append, List.cons.injEq] at heq
          rw [← heq.1] at hc; exact absurd hc ha
        | cons x p =>
          simp only [List.cons_append, List.cons.injEq] at heq
          exact q3 p c q heq.2 hc
      · intro hall; exact q4 (fun x hx => hall x (by simp [hx]))
      · intro p c q heq hc hp
        cases p with
        | nil =>
          simp only [List.nil_append, List.cons.injEq] at heq
          rw [← heq.1] at hc; exact absurd hc ha
        | cons x p =>
          simp only [List.cons_append, List.cons.injEq] at heq
          exact q5 p c q heq.2 hc (fun y hy => hp y (by simp [hy]))

/-! ## The theorems -/

/-- C66, one record: the nodes after expanding are the ones before with what they had, and the citations that follow the first one of the
record that is in the network, with the attributes of that one. -/
theorem C66_nodes (weighted : Bool) (g g' : G ν A) (hw : g.WF) (p q : List ν) (a : ν) (ha : g.hasNode a = true)
    (hp : ∀ x ∈ p, g.hasNode x = false) (h : expandRecs weighted [p ++ a :: q] g = .ok g') (m : ν) :
    g'.node? m = match g.node? m with
      | some x => some x
      | none => if m ∈ q then g.node? a else none := by
  have h' : (if (p ++ a :: q).length > 1 then expandList weighted (p ++ a :: q) g else .ok g) = .ok g' := by
    unfold expandRecs at h
    simp only [List.foldlM_cons, List.foldlM_nil] at h
    generalize (if (p ++ a :: q).length > 1 then expandList weighted (p ++ a :: q) g else .ok g) = r at h ⊢
    cases r with
    | error e => cases h
    | ok x => cases h; rfl
  by_cases hl : (p ++ a :: q).length > 1
  · rw [if_pos hl] at h'
    rw [((expandList_spec weighted _ g g' hw h').2.2.2.2 p a q rfl ha hp).1 m]
    unfold Graph.hasNode
    cases g.node? m <;> simp
  · rw [if_neg hl] at h'
    cases h'
    have : q = [] := by
      simp only [List.length_append, List.length_cons] at hl
      exact List.length_eq_zero_iff.1 (by omega)
    subst this
    cases g.node? m <;> simp

/-- C66, a record none of whose citations is in the network changes nothing. -/
theorem C66_outside (weighted : Bool) (g g' : G ν A) (hw : g.WF) (ids : List ν) (hall : ∀ x ∈ ids, g.hasNode x = false)
    (h : expandRecs weighted [ids] g = .ok g') : g' = g := by
  unfold expandRecs at h
  simp only [List.foldlM_cons, List.foldlM_nil] at h
  by_cases hl : ids.length > 1
  · rw [if_pos hl] at h
    cases h1 : expandList weighted ids g with
    | error e => rw [h1] at h; cases h
    | ok g1 =>
      rw [h1] at h
      have : g1 = g' := by simpa [bind, Except.bind, pure, Except.pure] using h
      exact this ▸ (expandList_spec weighted ids g g1 hw h1).2.2.2.1 hall
  · rw [if_neg hl] at h; cases h; rfl

/-- C66, nothing is lost: the nodes of the network keep their attributes and its edges stay. -/
theorem C66_keeps (weighted : Bool) (recs : List (List ν)) (g g' : G ν A) (hw : g.WF) (h : expandRecs weighted recs g = .ok g') :
    g'.WF ∧ Keeps g g' := by
  unfold expandRecs at h
  induction recs generalizing g with
  | nil =>
    have : g = g' := by simpa [pure, Except.pure] using h
    exact this ▸ ⟨hw, Keeps.refl g⟩
  | cons ids recs ih =>
    rw [List.foldlM_cons] at h
    by_cases hl : ids.length > 1
    · rw [if_pos hl] at h
      cases h1 : expandList weighted ids g with
      | error e => rw [h1] at h; cases h
      | ok g1 =>
        rw [h1] at h
        obtain ⟨p1, p2, _⟩ := expandList_spec weighted ids g g1 hw h1
        obtain ⟨q1, q2⟩ := ih g1 p1 h
        exact ⟨q1, p2.trans q2⟩
    · rw [if_neg hl] at h
      exact ih g hw h

/-- C66, links: wherever a record is in the order of expansion, a citation of it that is in the network by then passes its links on to the
citations after it, and in a weighted network is joined to them. `g₁` is the network when the record's turn comes. -/
theorem C66_links (weighted : Bool) (before after : List (List ν)) (p q : List ν) (a : ν) (g g₁ g' : G ν A) (hw : g.WF)
    (h1 : expandRecs weighted before g = .ok g₁) (h : expandRecs weighted (before ++ (p ++ a :: q) :: after) g = .ok g')
    (ha : g₁.hasNode a = true) (b : ν) (hb : b ∈ q) :
    (∀ e, g₁.hasEdge a e = true → g'.hasEdge b e = true) ∧ (weighted = true → g'.hasEdge a b = true) ∧
    ((∀ x ∈ p, g₁.hasNode x = false) → g₁.hasNode b = false → g'.hasEdge a b = true) := by
  have hw1 := (C66_keeps weighted before g g₁ hw h1).1
  have hq : q ≠ [] := by rintro rfl; simp at hb
  have hl : (p ++ a :: q).length > 1 := by
    have : q.length ≠ 0 := by simpa using hq
    simp only [List.length_append, List.length_cons]; omega
  have h2 : expandRecs weighted ((p ++ a :: q) :: after) g₁ = .ok g' := by
    unfold expandRecs at h h1 ⊢
    rw [List.foldlM_append, h1] at h
    exact h
  unfold expandRecs at h2
  rw [List.foldlM_cons, if_pos hl] at h2
  cases h3 : expandList weighted (p ++ a :: q) g₁ with
  | error e => rw [h3] at h2; cases h2
  | ok g2 =>
    rw [h3] at h2
    obtain ⟨s1, s2, s3, _, s5⟩ := expandList_spec weighted _ g₁ g2 hw1 h3
    have k := (C66_keeps weighted after g2 g' s1 h2).2
    have t := s3 p a q rfl ha
    exact ⟨fun e he => k.edges _ _ (t.1 b hb e he), fun hwt => k.edges _ _ (t.2 hwt b hb).1,
      fun hp hnb => k.edges _ _ ((s5 p a q rfl ha hp).2 b hb hnb).1⟩

/-- C66, self-links: every citation that is added gets a link to itself, and in a weighted network every citation after one that is in the
network does. -/
theorem C66_self_links (weighted : Bool) (g g' : G ν A) (hw : g.WF) (p q : List ν) (a : ν) (ha : g.hasNode a = true)
    (hp : ∀ x ∈ p, g.hasNode x = false) (h : expandRecs weighted [p ++ a :: q] g = .ok g') (b : ν) (hb : b ∈ q)
    (hc : weighted = true ∨ g.hasNode b = false) : g'.hasEdge b b = true := by
  have hq : q ≠ [] := by rintro rfl; simp at hb
  have hl : (p ++ a :: q).length > 1 := by
    have : q.length ≠ 0 := by simpa using hq
    simp only [List.length_append, List.length_cons]; omega
  unfold expandRecs at h
  rw [List.foldlM_cons, if_pos hl] at h
  cases h3 : expandList weighted (p ++ a :: q) g with
  | error e => rw [h3] at h; cases h
  | ok g2 =>
    rw [h3] at h
    have : g2 = g' := by simpa [bind, Except.bind, pure, Except.pure] using h
    subst this
    obtain ⟨s1, s2, s3, _, s5⟩ := expandList_spec weighted _ g g2 hw h3
    rcases hc with hc | hc
    · exact ((s3 p a q rfl ha).2 hc b hb).2
    · exact ((s5 p a q rfl ha hp).2 b hb hc).2

/-! ## No other links, and their weights -/

/-- The links of `g'` are those of `g₀` and links between a citation of the record and a citation of the record or a neighbour of one. -/
def Bound (g₀ : G ν A) (ids : List ν) (g : G ν A) : Prop :=
  ∀ x y, g.hasEdge x y = true → g₀.hasEdge x y = true ∨
    ∃ b ∈ ids, ∃ e, (e ∈ ids ∨ ∃ a ∈ ids, g₀.hasEdge a e = true) ∧ sameEdge g₀.directed (b, e) (x, y) = true

theorem expandPair_bound (weighted : Bool) (g₀ g g' : G ν A) (ids : List ν) (a b : ν) (hw : g.WF) (ha : g.hasNode a = true)
    (haI : a ∈ ids) (hbI : b ∈ ids) (hd : g.directed = g₀.directed) (hB : Bound g₀ ids g) (h : expandPair weighted a g b = .ok g') :
    Bound g₀ ids g' := by
  obtain ⟨j1, j2, j3, j4⟩ := joinPair_spec weighted g a b hw ha
  have hb : (joinPair weighted g a b).hasNode b = true := by
    unfold Graph.hasNode; rw [j3]
    by_cases hb : g.hasNode b = true
    · rw [if_pos hb]; exact hb
    · rw [if_neg hb, if_pos rfl]; exact ha
  have hj : Bound g₀ ids (joinPair weighted g a b) := by
    intro x y hxy
    rcases (j4 x y).1 hxy with h | ⟨_, h⟩
    · exact hB x y h
    · exact Or.inr ⟨a, haI, b, Or.inl hbI, by rw [← hd]; exact h⟩
  obtain ⟨_, _, _, _, _, h6⟩ := copyLoop_spec a b _ _ _ g' j1 hb h
  intro x y hxy
  rcases h6 x y hxy with h | ⟨e, he, h⟩
  · exact hj x y h
  · rw [j2, hd] at h
    right
    refine ⟨b, hbI, e, ?_, h⟩
    rcases hj a e ((mem_nbrs _ _ _).1 he) with h | ⟨b', hb', e', he', h⟩
    · exact Or.inr ⟨a, haI, h⟩
    · rw [sameEdge_iff] at h
      rcases h with h | ⟨_, h1, h2⟩
      · have : e' = e := congrArg Prod.snd h
        rw [← this]; exact he'
      · left; have : b' = e := h1
        rw [← this]; exact hb'

theorem expandList_bound (weighted : Bool) (g₀ : G ν A) (ids : List ν) : ∀ (l : List ν) (g g' : G ν A), (∀ x ∈ l, x ∈ ids) → g.WF →
    g.directed = g₀.directed → Bound g₀ ids g → expandList weighted l g = .ok g' → Bound g₀ ids g' := by
  have hfold : ∀ (rest : List ν) (a : ν) (g g' : G ν A), a ∈ ids → (∀ x ∈ rest, x ∈ ids) → g.WF → g.hasNode a = true →
      g.directed = g₀.directed → Bound g₀ ids g → rest.foldlM (expandPair weighted a) g = .ok g' → Bound g₀ ids g' := by
    intro rest
    induction rest with
    | nil =>
      intro a g g' _ _ _ _ _ hB h
      have : g = g' := by simpa [pure, Except.pure] using h
      exact this ▸ hB
    | cons b rest ih =>
      intro a g g' haI hsub hw ha hd hB h
      rw [List.foldlM_cons] at h
      cases h1 : expandPair weighted a g b with
      | error e => rw [h1] at h; cases h
      | ok g1 =>
        rw [h1] at h
        obtain ⟨p1, p2, _⟩ := expandPair_spec weighted g g1 a b hw ha h1
        exact ih a g1 g' haI (fun x hx => hsub x (by simp [hx])) p1 (p2.hasNode ha) (p2.directed.trans hd)
          (expandPair_bound weighted g₀ g g1 ids a b hw ha haI (hsub b (by simp)) hd hB h1) h
  intro l
  induction l with
  | nil =>
    intro g g' _ _ _ hB h
    simp only [expandList, Except.ok.injEq] at h; exact h ▸ hB
  | cons a rest ih =>
    intro g g' hsub hw hd hB h
    unfold expandList at h
    by_cases ha : g.hasNode a = true
    · rw [if_pos ha] at h
      cases h1 : rest.foldlM (expandPair weighted a) g with
      | error e => simp only [h1] at h; cases h
      | ok g1 =>
        simp only [h1] at h
        obtain ⟨p1, p2, _⟩ := foldPair_spec weighted a rest g g1 hw ha h1
        exact ih g1 g' (fun x hx => hsub x (by simp [hx])) p1 (p2.directed.trans hd)
          (hfold rest a g g1 (hsub a (by simp)) (fun x hx => hsub x (by simp [hx])) hw ha hd hB h1) h
    · rw [if_neg ha] at h
      exact ih g g' (fun x hx => hsub x (by simp [hx])) hw hd hB h

/-- C66, no other links: a link that expanding a record adds goes from a citation of the record to a citation of the record or to a
neighbour of one. -/
theorem C66_no_others (weighted : Bool) (g g' : G ν A) (hw : g.WF) (ids : List ν) (h : expandRecs weighted [ids] g = .ok g') (x y : ν)
    (hxy : g'.hasEdge x y = true) : g.hasEdge x y = true ∨
      ∃ b ∈ ids, ∃ e, (e ∈ ids ∨ ∃ a ∈ ids, g.hasEdge a e = true) ∧ ((b, e) = (x, y) ∨ g.directed = false ∧ (b, e) = (y, x)) := by
  have hB : Bound g ids g' := by
    unfold expandRecs at h
    simp only [List.foldlM_cons, List.foldlM_nil] at h
    by_cases hl : ids.length > 1
    · rw [if_pos hl] at h
      cases h1 : expandList weighted ids g with
      | error e => rw [h1] at h; cases h
      | ok g1 =>
        rw [h1] at h
        have : g1 = g' := by simpa [bind, Except.bind, pure, Except.pure] using h
        exact this ▸ expandList_bound weighted g ids ids g g1 (fun _ h => h) hw rfl (fun _ _ h => Or.inl h) h1
    · rw [if_neg hl] at h
      have : g = g' := by simpa [bind, Except.bind, pure, Except.pure] using h
      exact this ▸ fun _ _ h => Or.inl h
  rcases hB x y hxy with h | ⟨b, hb, e, he, h⟩
  · exact Or.inl h
  · refine Or.inr ⟨b, hb, e, he, ?_⟩
    rw [sameEdge_iff] at h
    rcases h with h | ⟨h0, h1, h2⟩
    · exact Or.inl h
    · exact Or.inr ⟨h0, Prod.ext h1 h2⟩

theorem edge?_addEdgeData (g : G ν A) (u v : ν) (o : Option Nat) (x y : ν) : (addEdgeData g u v o).edge? x y =
    if sameEdge g.directed (u, v) (x, y) = true then (match o with | some w => some (some w) | none => some ((g.edge? x y).getD none)) else g.edge? x y := by
  unfold addEdgeData
  cases o with
  | some w => rw [edge?_setEdge]
  | none =>
    dsimp only
    cases h : g.edge? u v with
    | none =>
      dsimp only
      rw [edge?_setEdge]
      by_cases hs : sameEdge g.directed (u, v) (x, y) = true
      · have : g.edge? x y = g.edge? u v := getE_congr (sameEdge_symm hs) _
        simp [hs, this, h]
      · simp [hs]
    | some z =>
      dsimp only
      by_cases hs : sameEdge g.directed (u, v) (x, y) = true
      · have : g.edge? x y = g.edge? u v := getE_congr (sameEdge_symm hs) _
        simp [hs, this, h]
      · simp [hs]

theorem not_same {d : Bool} {b e x y : ν} (hx : x ≠ b) (hy : y ≠ b) : ¬ sameEdge d (b, e) (x, y) = true := by
  rw [sameEdge_iff]
  rintro (h | ⟨_, h1, h2⟩)
  · exact hx (congrArg Prod.fst h).symm
  · exact hy h1.symm

theorem copyLoop_weights (a b : ν) (hab : a ≠ b) (n : Nat) (es : List ν) : ∀ (g g' : G ν A),
    (∀ e, e ≠ a → e ≠ b → g.edge? b e = none ∨ g.edge? b e = g.edge? a e) → copyLoop a b n g es = .ok g' →
    (∀ x y, x ≠ b → y ≠ b → g'.edge? x y = g.edge? x y) ∧
    (∀ e, e ≠ a → e ≠ b → (g.edge? b e = g.edge? a e ∨ e ∈ es ∧ g.hasEdge a e = true) → g'.edge? b e = g.edge? a e) ∧
    (g.hasEdge a a = false → g'.edge? a b = g.edge? a b) := by
  induction es with
  | nil =>
    intro g g' hI h
    simp only [copyLoop, Except.ok.injEq] at h; subst h
    refine ⟨fun _ _ _ _ => rfl, ?_, fun _ => rfl⟩
    rintro e h1 h2 (h | ⟨h, _⟩)
    · exact h
    · simp at h
  | cons e es ih =>
    intro g g' hI h
    unfold copyLoop at h
    cases hd : g.edge? a e with
    | none =>
      simp only [hd] at h
      obtain ⟨i1, i2, i3⟩ := ih g g' hI h
      refine ⟨i1, fun x h1 h2 hx => ?_, i3⟩
      refine i2 x h1 h2 (hx.imp_right (fun ⟨hm, he⟩ => ⟨?_, he⟩))
      rcases List.mem_cons.1 hm with rfl | hm
      · simp [hasEdge, hd] at he
      · exact hm
    | some data =>
      simp only [hd] at h
      by_cases hn : (nbrs (addEdgeData g b e data) a).length ≠ n
      · rw [if_pos hn] at h; cases h
      · rw [if_neg hn] at h
        have hx1 : ∀ x y, x ≠ b → y ≠ b → (addEdgeData g b e data).edge? x y = g.edge? x y := by
          intro x y hx hy
          rw [edge?_addEdgeData, if_neg (not_same hx hy)]
        have hx2 : ∀ x, x ≠ a → x ≠ b → (addEdgeData g b e data).edge? b x = if x = e then g.edge? a e else g.edge? b x := by
          intro x h1 h2
          rw [edge?_addEdgeData]
          by_cases hxe : x = e
          · subst hxe
            rw [if_pos (sameEdge_refl _ _), if_pos rfl]
            cases data with
            | some w => rw [hd]
            | none =>
              dsimp only
              rcases hI x h1 h2 with h' | h' <;> rw [h', hd] <;> rfl
          · rw [if_neg hxe, if_neg]
            rw [sameEdge_iff]
            rintro (h' | ⟨_, h3, h4⟩)
            · exact hxe (congrArg Prod.snd h').symm
            · exact h2 h3.symm
        have hI' : ∀ x, x ≠ a → x ≠ b → (addEdgeData g b e data).edge? b x = none ∨
            (addEdgeData g b e data).edge? b x = (addEdgeData g b e data).edge? a x := by
          intro x h1 h2
          rw [hx2 x h1 h2, hx1 a x hab h2]
          by_cases hxe : x = e
          · rw [if_pos hxe, hxe]; exact Or.inr rfl
          · rw [if_neg hxe]; exact hI x h1 h2
        obtain ⟨i1, i2, i3⟩ := ih _ g' hI' h
        refine ⟨fun x y hx hy => (i1 x y hx hy).trans (hx1 x y hx hy), ?_, ?_⟩
        · intro x h1 h2 hx
          rw [i2 x h1 h2 ?_, hx1 a x hab h2]
          rw [hx2 x h1 h2, hx1 a x hab h2]
          unfold hasEdge
          rw [hx1 a x hab h2]
          by_cases hxe : x = e
          · left; rw [if_pos hxe, hxe]
          · rw [if_neg hxe]
            refine hx.imp_right (fun ⟨hm, he⟩ => ⟨?_, he⟩)
            rcases List.mem_cons.1 hm with h' | hm
            · exact absurd h' hxe
            · exact hm
        · intro hl
          have hea : e ≠ a := by rintro rfl; simp [hasEdge, hd] at hl
          rw [i3 (by unfold hasEdge; rw [hx1 a a hab hab]; exact hl), edge?_addEdgeData, if_neg]
          rw [sameEdge_iff]
          rintro (h' | ⟨_, _, h4⟩)
          · exact hab (congrArg Prod.fst h').symm
          · exact hea h4

/-- C66, weights: a citation `b` that is added for a record with the citations `a` and `b` has `a`'s links, with the same weights, and is
joined to `a` with weight 1 (no weight in an unweighted network); no other link changes. Links are read from `b`, so in a directed network
it is the citations made by `a` that are copied. -/
theorem C66_weights (weighted : Bool) (g g' : G ν A) (hw : g.WF) (a b : ν) (ha : g.hasNode a = true) (hb : g.hasNode b = false)
    (h : expandRecs weighted [[a, b]] g = .ok g') :
    (∀ e, e ≠ a → e ≠ b → g'.edge? b e = g.edge? a e) ∧
    (∀ x y, x ≠ b → y ≠ b → g'.edge? x y = g.edge? x y) ∧
    (g.hasEdge a a = false → g'.edge? a b = some (if weighted then some 1 else none)) := by
  have hab : a ≠ b := by rintro rfl; rw [ha] at hb; simp at hb
  have hp : expandPair weighted a g b = .ok g' := by
    unfold expandRecs at h
    simp only [List.foldlM_cons, List.foldlM_nil, List.length_cons, List.length_nil, expandList, ha, if_true] at h
    cases h1 : expandPair weighted a g b with
    | error e => rw [h1] at h; simp [bind, Except.bind, pure, Except.pure] at h
    | ok g1 =>
      rw [h1] at h
      have : g1 = g' := by simpa [bind, Except.bind, pure, Except.pure, expandList] using h
      rw [this]
  have hnone : ∀ x y, x = b ∨ y = b → g.edge? x y = none := by
    intro x y hxy
    cases he : g.edge? x y with
    | none => rfl
    | some w =>
      have := hw.ends_of_edge? (u := x) (v := y) (by rw [he]; rfl)
      rcases hxy with rfl | rfl
      · rw [this.1] at hb; simp at hb
      · rw [this.2] at hb; simp at hb
  have hbn : g.node? b = none := by
    unfold Graph.hasNode at hb
    cases e : g.node? b with
    | none => rfl
    | some x => rw [e] at hb; simp at hb
  have hj : joinPair weighted g a b = (g.setNode b ((g.node? a).getD default)).setEdge a b (if weighted then some 1 else none) := by
    unfold joinPair; rw [hbn]
  have hje : ∀ x y, (joinPair weighted g a b).edge? x y =
      if sameEdge g.directed (a, b) (x, y) = true then some (if weighted then some 1 else none) else g.edge? x y := by
    intro x y; rw [hj, edge?_setEdge]; rfl
  have hj1 : ∀ x y, x ≠ b → y ≠ b → (joinPair weighted g a b).edge? x y = g.edge? x y := by
    intro x y hx hy
    rw [hje, if_neg]
    rw [sameEdge_iff]
    rintro (h' | ⟨_, h3, h4⟩)
    · exact hy (congrArg Prod.snd h').symm
    · exact hx h4.symm
  have hj2 : ∀ e, e ≠ a → e ≠ b → (joinPair weighted g a b).edge? b e = none := by
    intro e h1 h2
    rw [hje, if_neg, hnone _ _ (Or.inl rfl)]
    rw [sameEdge_iff]
    rintro (h' | ⟨_, h3, h4⟩)
    · exact hab (congrArg Prod.fst h')
    · exact h1 h3.symm
  unfold expandPair at hp
  obtain ⟨c1, c2, c3⟩ := copyLoop_weights a b hab _ _ _ g' (fun e h1 h2 => Or.inl (hj2 e h1 h2)) hp
  refine ⟨fun e h1 h2 => ?_, fun x y hx hy => (c1 x y hx hy).trans (hj1 x y hx hy), fun hl => ?_⟩
  · rw [c2 e h1 h2 ?_, hj1 a e hab h2]
    rw [hj2 e h1 h2]
    by_cases he : (joinPair weighted g a b).hasEdge a e = true
    · exact Or.inr ⟨(mem_nbrs _ _ _).2 he, he⟩
    · left
      unfold hasEdge at he
      cases h' : (joinPair weighted g a b).edge? a e with
      | none => rfl
      | some z => rw [h'] at he; simp at he
  · rw [c3 (by unfold hasEdge; rw [hj1 a a hab hab]; exact hl), hje, if_pos (sameEdge_refl _ _)]

/-- What a link becomes when another one is copied over it: its weight is replaced, if the other has one. -/
def over : Option (Option Nat) → Option (Option Nat) → Option (Option Nat)
  | none, old => old
  | some (some w), _ => some (some w)
  | some none, none => some none
  | some none, some old => some old

theorem copyLoop_links (a b : ν) (hab : a ≠ b) (n : Nat) (es : List ν) : ∀ (g g' : G ν A), copyLoop a b n g es = .ok g' →
    (∀ x y, x ≠ b → y ≠ b → g'.edge? x y = g.edge? x y) ∧
    (∀ e, e ≠ a → e ≠ b → g'.edge? b e = if e ∈ es then over (g.edge? a e) (g.edge? b e) else g.edge? b e) ∧
    (g.hasEdge a a = false → g'.edge? a b = g.edge? a b) := by
  induction es with
  | nil =>
    intro g g' h
    simp only [copyLoop, Except.ok.injEq] at h; subst h
    exact ⟨fun _ _ _ _ => rfl, fun e _ _ => by simp, fun _ => rfl⟩
  | cons e es ih =>
    intro g g' h
    unfold copyLoop at h
    cases hd : g.edge? a e with
    | none =>
      simp only [hd] at h
      obtain ⟨i1, i2, i3⟩ := ih g g' h
      refine ⟨i1, fun x h1 h2 => ?_, i3⟩
      rw [i2 x h1 h2]
      by_cases hx : x = e
      · subst hx; rw [hd]; simp [over]
      · simp [hx]
    | some data =>
      simp only [hd] at h
      by_cases hn : (nbrs (addEdgeData g b e data) a).length ≠ n
      · rw [if_pos hn] at h; cases h
      · rw [if_neg hn] at h
        have hx1 : ∀ x y, x ≠ b → y ≠ b → (addEdgeData g b e data).edge? x y = g.edge? x y := by
          intro x y hx hy
          rw [edge?_addEdgeData, if_neg (not_same hx hy)]
        have hx2 : ∀ x, x ≠ a → x ≠ b → (addEdgeData g b e data).edge? b x =
            if x = e then over (g.edge? a x) (g.edge? b x) else g.edge? b x := by
          intro x h1 h2
          rw [edge?_addEdgeData]
          by_cases hxe : x = e
          · subst hxe
            rw [if_pos (sameEdge_refl _ _), if_pos rfl, hd]
            cases data with
            | some w => rfl
            | none => cases g.edge? b x <;> rfl
          · rw [if_neg hxe, if_neg]
            rw [sameEdge_iff]
            rintro (h' | ⟨_, h3, h4⟩)
            · exact hxe (congrArg Prod.snd h').symm
            · exact h2 h3.symm
        obtain ⟨i1, i2, i3⟩ := ih _ g' h
        refine ⟨fun x y hx hy => (i1 x y hx hy).trans (hx1 x y hx hy), ?_, ?_⟩
        · intro x h1 h2
          rw [i2 x h1 h2, hx1 a x hab h2, hx2 x h1 h2]
          have hi : ∀ p o : Option (Option Nat), over p (over p o) = over p o := by
            intro p o; rcases p with _ | _ | w <;> cases o <;> rfl
          by_cases hxe : x = e
          · simp only [hxe, if_true, List.mem_cons, true_or, hi]
            split <;> rfl
          · simp only [hxe, if_false, List.mem_cons, false_or]
        · intro hl
          have hea : e ≠ a := by rintro rfl; simp [hasEdge, hd] at hl
          rw [i3 (by unfold hasEdge; rw [hx1 a a hab hab]; exact hl), edge?_addEdgeData, if_neg]
          rw [sameEdge_iff]
          rintro (h' | ⟨_, _, h4⟩)
          · exact hab (congrArg Prod.fst h').symm
          · exact hea h4

/-- C66, weights when both citations of a record are in the network: in a weighted network the link between them gains 1, in an
unweighted one it does not change; the links of `a` are copied over those of `b`, whose weights are replaced; no other link changes. -/
theorem C66_both (weighted : Bool) (g g' : G ν A) (a b : ν) (hab : a ≠ b) (ha : g.hasNode a = true) (hb : g.hasNode b = true)
    (h : expandRecs weighted [[a, b]] g = .ok g') :
    (∀ e, e ≠ a → e ≠ b → g'.edge? b e = over (g.edge? a e) (g.edge? b e)) ∧
    (∀ x y, x ≠ b → y ≠ b → g'.edge? x y = g.edge? x y) ∧
    (g.hasEdge a a = false → weighted = true → g'.edge? a b = some (some (((g.edge? a b).getD none).getD 0 + 1))) ∧
    (g.hasEdge a a = false → weighted = false → g'.edge? a b = g.edge? a b) := by
  have hp : expandPair weighted a g b = .ok g' := by
    unfold expandRecs at h
    simp only [List.foldlM_cons, List.foldlM_nil, List.length_cons, List.length_nil, expandList, ha, if_true] at h
    cases h1 : expandPair weighted a g b with
    | error e => rw [h1] at h; simp [bind, Except.bind, pure, Except.pure] at h
    | ok g1 =>
      rw [h1] at h
      have : g1 = g' := by
        simp only [bind, Except.bind, pure, Except.pure, expandList, hb] at h
        simpa [pure, Except.pure] using h
      rw [this]
  obtain ⟨z, hz⟩ : ∃ z, g.node? b = some z := Option.isSome_iff_exists.1 hb
  have hje : ∀ x y, (joinPair weighted g a b).edge? x y =
      if weighted = true ∧ sameEdge g.directed (a, b) (x, y) = true then some (some (((g.edge? a b).getD none).getD 0 + 1)) else g.edge? x y := by
    intro x y
    unfold joinPair
    rw [hz]
    cases weighted with
    | false => simp
    | true =>
      dsimp only
      rcases he : g.edge? a b with _ | _ | w <;> simp only [if_true, edge?_setEdge, true_and, Option.getD_none, Option.getD_some] <;> rfl
  have hj1 : ∀ x y, x ≠ b → y ≠ b → (joinPair weighted g a b).edge? x y = g.edge? x y := by
    intro x y hx hy
    rw [hje, if_neg]
    rw [sameEdge_iff]
    rintro ⟨_, h' | ⟨_, h3, h4⟩⟩
    · exact hy (congrArg Prod.snd h').symm
    · exact hx h4.symm
  have hj2 : ∀ e, e ≠ a → e ≠ b → (joinPair weighted g a b).edge? b e = g.edge? b e := by
    intro e h1 h2
    rw [hje, if_neg]
    rw [sameEdge_iff]
    rintro ⟨_, h' | ⟨_, h3, h4⟩⟩
    · exact hab (congrArg Prod.fst h')
    · exact h1 h3.symm
  unfold expandPair at hp
  obtain ⟨c1, c2, c3⟩ := copyLoop_links a b hab _ _ _ g' hp
  have hl : g.hasEdge a a = false → (joinPair weighted g a b).hasEdge a a = false := by
    intro hl; unfold hasEdge; rw [hj1 a a hab hab]; exact hl
  refine ⟨fun e h1 h2 => ?_, fun x y hx hy => (c1 x y hx hy).trans (hj1 x y hx hy), fun hn hw => ?_, fun hn hw => ?_⟩
  · rw [c2 e h1 h2, hj1 a e hab h2, hj2 e h1 h2]
    split
    · rfl
    · rename_i hm
      rw [mem_nbrs] at hm
      unfold hasEdge at hm
      rw [hj1 a e hab h2] at hm
      cases h' : g.edge? a e with
      | none => rfl
      | some z => rw [h'] at hm; simp at hm
  · rw [c3 (hl hn), hje, if_pos ⟨hw, sameEdge_refl _ _⟩]
  · rw [c3 (hl hn), hje, if_neg (by simp [hw])]

/-! ## When it raises -/

theorem nbrs_setE (d : Bool) (l : List ((ν × ν) × Option Nat)) (u v : ν) (w : Option Nat) (a : ν)
    (f : (ν × ν) × Option Nat → Option ν) (hf : ∀ k w w', f (k, w) = f (k, w')) (h : (getE d l (u, v)).isSome = true ∨ f ((u, v), w) = none) :
    (setE d l (u, v) w).filterMap f = l.filterMap f := by
  induction l with
  | nil =>
    rcases h with h | h
    · simp [getE] at h
    · simp [setE, h]
  | cons x l ih =>
    obtain ⟨k, w'⟩ := x
    unfold setE
    by_cases hk : sameEdge d k (u, v) = true
    · rw [if_pos hk]
      simp only [List.filterMap_cons, hf k w w']
    · rw [if_neg hk]
      have : (getE d l (u, v)).isSome = true ∨ f ((u, v), w) = none := by
        rcases h with h | h
        · unfold getE at h; rw [if_neg hk] at h; exact Or.inl h
        · exact Or.inr h
      simp only [List.filterMap_cons, ih this]

theorem nbrs_setEdge (g : G ν A) (u v : ν) (w : Option Nat) (a : ν)
    (h : g.hasEdge u v = true ∨ (u ≠ a ∧ (g.directed = true ∨ v ≠ a))) : nbrs (g.setEdge u v w) a = nbrs g a := by
  have hd : (g.setEdge u v w).directed = g.directed := by simp
  have he : (g.setEdge u v w).edges = setE g.directed g.edges (u, v) w := by
    unfold setEdge
    simp only [directed_touch, edges_touch]
  unfold nbrs
  rw [hd, he]
  apply nbrs_setE (a := a)
  · intro k w w'; rfl
  · rcases h with h | ⟨h1, h2⟩
    · exact Or.inl h
    · right
      rw [if_neg h1, if_neg]
      rintro ⟨h3, h4⟩
      rcases h2 with h2 | h2
      · rw [h2] at h3; simp at h3
      · exact h2 h4

theorem nbrs_addEdgeData (g : G ν A) (u v : ν) (o : Option Nat) (a : ν)
    (h : g.hasEdge u v = true ∨ (u ≠ a ∧ (g.directed = true ∨ v ≠ a))) : nbrs (addEdgeData g u v o) a = nbrs g a := by
  unfold addEdgeData
  cases o with
  | some w => exact nbrs_setEdge g u v _ a h
  | none =>
    dsimp only
    cases he : g.edge? u v with
    | none => exact nbrs_setEdge g u v _ a h
    | some z => rfl

theorem copyLoop_ok (a b : ν) (es : List ν) : ∀ (g : G ν A) (n : Nat), (nbrs g a).length = n →
    (g.directed = true ∨ g.hasEdge a b = true ∨ g.hasEdge a a = false ∨ a = b) → ∃ g', copyLoop a b n g es = .ok g' := by
  induction es with
  | nil => intro g n _ _; exact ⟨g, rfl⟩
  | cons e es ih =>
    intro g n hn hc
    unfold copyLoop
    cases hd : g.edge? a e with
    | none => exact ih g n hn hc
    | some data =>
      have hea : g.hasEdge a e = true := by simp [hasEdge, hd]
      have hnb : nbrs (addEdgeData g b e data) a = nbrs g a := by
        apply nbrs_addEdgeData
        by_cases hab : b = a
        · left; rw [hab]; exact hea
        · rcases hc with h | h | h | h
          · exact Or.inr ⟨hab, Or.inl h⟩
          · by_cases hea' : e = a
            · cases hdir : g.directed with
              | true => exact Or.inr ⟨hab, Or.inl rfl⟩
              | false =>
                left
                rw [hea']
                unfold hasEdge at h ⊢
                rw [edge?_symm hdir]; exact h
            · exact Or.inr ⟨hab, Or.inr hea'⟩
          · refine Or.inr ⟨hab, Or.inr ?_⟩
            rintro rfl; rw [h] at hea; simp at hea
          · exact absurd h.symm hab
      dsimp only
      rw [if_neg (by rw [hnb, hn]; simp)]
      refine ih _ n (by rw [hnb]; exact hn) ?_
      rw [directed_addEdgeData]
      rcases hc with h | h | h | h
      · exact Or.inl h
      · exact Or.inr (Or.inl ((hasEdge_addEdgeData ..).2 (Or.inr h)))
      · by_cases hab : a = b
        · exact Or.inr (Or.inr (Or.inr hab))
        · cases hdir : g.directed with
          | true => exact Or.inl rfl
          | false =>
            refine Or.inr (Or.inr (Or.inl ?_))
            rw [Bool.eq_false_iff, Ne, hasEdge_addEdgeData, sameEdge_iff]
            rintro ((h' | ⟨_, h1, h2⟩) | h')
            · exact hab (congrArg Prod.fst h').symm
            · exact hab h1.symm
            · rw [h] at h'; simp at h'
      · exact Or.inr (Or.inr (Or.inr h))

/-- C66, no failure: expanding a directed network, or a weighted one, never raises. -/
theorem C66_never_raises (weighted : Bool) (recs : List (List ν)) (g : G ν A) (hw : g.WF) (hc : weighted = true ∨ g.directed = true) :
    ∃ g', expandRecs weighted recs g = .ok g' := by
  have hpair : ∀ (g : G ν A) (a b : ν), g.WF → g.hasNode a = true → (weighted = true ∨ g.directed = true) → ∃ g', expandPair weighted a g b = .ok g' := by
    intro g a b hw ha hc
    unfold expandPair
    obtain ⟨j1, j2, j3, j4⟩ := joinPair_spec weighted g a b hw ha
    refine copyLoop_ok a b _ _ _ rfl ?_
    rcases hc with h | h
    · exact Or.inr (Or.inl ((j4 a b).2 (Or.inr ⟨Or.inl h, sameEdge_refl _ _⟩)))
    · exact Or.inl (j2.trans h)
  have hfold : ∀ (rest : List ν) (g : G ν A) (a : ν), g.WF → g.hasNode a = true → (weighted = true ∨ g.directed = true) →
      ∃ g', rest.foldlM (expandPair weighted a) g = .ok g' := by
    intro rest
    induction rest with
    | nil => intro g a _ _ _; exact ⟨g, rfl⟩
    | cons b rest ih =>
      intro g a hw ha hc
      obtain ⟨g1, h1⟩ := hpair g a b hw ha hc
      obtain ⟨p1, p2, _⟩ := expandPair_spec weighted g g1 a b hw ha h1
      obtain ⟨g2, h2⟩ := ih g1 a p1 (p2.hasNode ha) (by rw [p2.directed]; exact hc)
      exact ⟨g2, by rw [List.foldlM_cons, h1]; exact h2⟩
  have hlist : ∀ (ids : List ν) (g : G ν A), g.WF → (weighted = true ∨ g.directed = true) → ∃ g', expandList weighted ids g = .ok g' := by
    intro ids
    induction ids with
    | nil => intro g _ _; exact ⟨g, rfl⟩
    | cons a rest ih =>
      intro g hw hc
      unfold expandList
      by_cases ha : g.hasNode a = true
      · rw [if_pos ha]
        obtain ⟨g1, h1⟩ := hfold rest g a hw ha hc
        obtain ⟨p1, p2, _⟩ := foldPair_spec weighted a rest g g1 hw ha h1
        rw [h1]
        exact ih g1 p1 (by rw [p2.directed]; exact hc)
      · rw [if_neg ha]; exact ih g hw hc
  unfold expandRecs
  induction recs generalizing g with
  | nil => exact ⟨g, rfl⟩
  | cons ids recs ih =>
    rw [List.foldlM_cons]
    by_cases hl : ids.length > 1
    · rw [if_pos hl]
      obtain ⟨g1, h1⟩ := hlist ids g hw hc
      obtain ⟨p1, p2, _⟩ := expandList_spec weighted ids g g1 hw h1
      rw [h1]
      exact ih g1 p1 (by rw [p2.directed]; exact hc)
    · rw [if_neg hl]; exact ih g hw hc

/-! ## Where the code departs from the documentation -/

private def g0 (w : Option Nat) : G Nat Nat := ((Graph.empty false).setNode 1 10 |>.setNode 2 20 |>.setNode 3 30).setEdge 1 2 w

theorem g0_WF (w : Option Nat) : (g0 w).WF := WF_setEdge (WF_setNode (WF_setNode (WF_setNode (WF_empty _) _ _) _ _) _ _) _ _ _

/-- C66 fails for unweighted, undirected networks: a record whose citations are 1 and 4, then one whose citations are 4 and 3. The first
gives 4 a link to itself; the second, with 3 in the network and not joined to 4, raises `RuntimeError`. -/
theorem C66_raises : (expandRecs false [[1, 4], [4, 3]] (g0 none)) = .error .runtimeError := by rfl

/-- C66 fails for unweighted networks: "edges will be created between each of the nodes" does not hold when both are there already. -/
theorem C66_not_joined : (expandRecs false [[1, 3]] (g0 none)).map (fun g => (g.hasEdge 1 3, g.hasEdge 3 2)) = .ok (false, true) := by rfl

/-- C66 fails for a record only whose second citation is in the network: the first is not added. -/
theorem C66_only_later : (expandRecs true [[5, 1]] (g0 (some 7))) = .ok (g0 (some 7)) := by rfl

/-- C66 fails for weights: 3 was cited with 2 five times, 1 once; expanding a record with the citations 1 and 3 makes this one time. -/
theorem C66_weight_overwritten :
    (expandRecs true [[1, 3]] ((g0 (some 1)).setEdge 3 2 (some 5))).map (fun g => g.edge? 3 2) = .ok (some (some 1)) := by rfl

/-! ## Examples -/

example : (expandRecs true [[9, 1, 4]] (g0 (some 7))).map (fun g => (g.node? 4, g.edge? 4 2, g.edge? 4 1, g.edge? 4 4, g.hasNode 9)) =
    .ok (some 10, some (some 7), some (some 1), some (some 1), false) := by rfl
/-- Both ends of a record's citations 1 and 3 are in, the link 1-2 has weight 7, 3-2 weight 5, 1-3 weight 4. -/
example : (expandRecs true [[1, 3]] (((g0 (some 7)).setEdge 3 2 (some 5)).setEdge 1 3 (some 4))).map
    (fun g => (g.edge? 1 3, g.edge? 3 2, g.edge? 1 2)) = .ok (some (some 5), some (some 7), some (some 7)) := by rfl
example : (g0 (some 7)).hasNode 1 = true ∧ (g0 (some 7)).hasNode 9 = false ∧ (g0 (some 7)).hasNode 4 = false := by decide +kernel

end Verif.Props.ExpandCore
