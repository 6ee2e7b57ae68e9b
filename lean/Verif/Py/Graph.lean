import Verif.Py.Dict

/-!
# networkx graphs

`Graph` stands for `networkx.Graph` (`directed = false`) and `networkx.DiGraph` (`directed = true`): nodes and edges with
attributes, in insertion order. In an undirected graph an edge is found under either orientation. The attribute
dictionaries are a type `A` for nodes and `B` for edges, chosen by each model; `default : A` is the empty dictionary,
which networkx gives to the nodes an edge creates.
-/
set_option autoImplicit false
set_option linter.unusedSectionVars false
namespace Verif.Py

/-- Whether two ordered pairs name the same edge. -/
def sameEdge {ν : Type} [DecidableEq ν] (directed : Bool) (p q : ν × ν) : Bool :=
  decide (p = q) || (!directed && decide (p.1 = q.2 ∧ p.2 = q.1))

structure Graph (ν A B : Type) where
  directed : Bool
  nodes : Dict ν A
  edges : List ((ν × ν) × B)
deriving DecidableEq

namespace Graph
variable {ν A B : Type} [DecidableEq ν]

theorem sameEdge_iff (d : Bool) (p q : ν × ν) :
    sameEdge d p q = true ↔ p = q ∨ (d = false ∧ p.1 = q.2 ∧ p.2 = q.1) := by
  unfold sameEdge; cases d <;> simp

theorem sameEdge_refl (d : Bool) (p : ν × ν) : sameEdge d p p = true := by simp [sameEdge]

theorem sameEdge_symm {d : Bool} {p q : ν × ν} (h : sameEdge d p q = true) : sameEdge d q p = true := by
  rw [sameEdge_iff] at *
  rcases h with h | ⟨h1, h2, h3⟩
  · exact Or.inl h.symm
  · exact Or.inr ⟨h1, h3.symm, h2.symm⟩

theorem sameEdge_comm (d : Bool) (p q : ν × ν) : sameEdge d p q = sameEdge d q p := by
  rw [Bool.eq_iff_iff]; exact ⟨sameEdge_symm, sameEdge_symm⟩

theorem sameEdge_trans {d : Bool} {p q r : ν × ν} (h : sameEdge d p q = true) (h' : sameEdge d q r = true) :
    sameEdge d p r = true := by
  rw [sameEdge_iff] at *
  rcases h with rfl | ⟨h1, h2, h3⟩
  · exact h'
  · rcases h' with rfl | ⟨_, h4, h5⟩
    · exact Or.inr ⟨h1, h2, h3⟩
    · left; exact Prod.ext (h2.trans h5) (h3.trans h4)

/-- Lookup in the list of edges. -/
def getE (d : Bool) : List ((ν × ν) × B) → ν × ν → Option B
  | [], _ => none
  | (k, b) :: rest, p => if sameEdge d k p then some b else getE d rest p

/-- Storing the attributes of an edge: in place when the edge is there, at the end otherwise. -/
def setE (d : Bool) : List ((ν × ν) × B) → ν × ν → B → List ((ν × ν) × B)
  | [], p, b => [(p, b)]
  | (k, b') :: rest, p, b => if sameEdge d k p then (k, b) :: rest else (k, b') :: setE d rest p b

/-- The empty `networkx.Graph()` or `networkx.DiGraph()`. -/
def empty (directed : Bool) : Graph ν A B := ⟨directed, [], []⟩

/-- `g.nodes[n]`, with `none` for a missing node. -/
def node? (g : Graph ν A B) (n : ν) : Option A := g.nodes.get? n
/-- `n in g`, `g.has_node(n)`. -/
def hasNode (g : Graph ν A B) (n : ν) : Bool := (g.node? n).isSome
/-- `g.edges[u, v]`, with `none` for a missing edge. -/
def edge? (g : Graph ν A B) (u v : ν) : Option B := getE g.directed g.edges (u, v)
/-- `g.has_edge(u, v)`. -/
def hasEdge (g : Graph ν A B) (u v : ν) : Bool := (g.edge? u v).isSome

/-- Storing the attributes of a node. -/
def setNode (g : Graph ν A B) (n : ν) (a : A) : Graph ν A B := { g with nodes := g.nodes.set n a }

/-- `g.add_node(n)` without attributes. -/
def touch [Inhabited A] (g : Graph ν A B) (n : ν) : Graph ν A B :=
  match g.node? n with
  | some _ => g
  | none => g.setNode n default

/-- Storing the attributes of an edge; networkx adds missing ends with no attributes, the source first. -/
def setEdge [Inhabited A] (g : Graph ν A B) (u v : ν) (b : B) : Graph ν A B :=
  let g := (g.touch u).touch v
  { g with edges := setE g.directed g.edges (u, v) b }

/-- A graph networkx can hold: no node or edge is stored twice and the ends of edges are nodes. -/
structure WF (g : Graph ν A B) : Prop where
  nodes : Dict.WF g.nodes
  edges : g.edges.Pairwise (fun a b => sameEdge g.directed a.1 b.1 = false)
  ends : ∀ e ∈ g.edges, g.hasNode e.1.1 = true ∧ g.hasNode e.1.2 = true

theorem getE_congr {d : Bool} {p q : ν × ν} (h : sameEdge d p q = true) (l : List ((ν × ν) × B)) :
    getE d l p = getE d l q := by
  induction l with
  | nil => rfl
  | cons x l ih =>
    obtain ⟨k, b⟩ := x
    simp only [getE, ih]
    have : sameEdge d k p = sameEdge d k q := by
      rw [Bool.eq_iff_iff]
      exact ⟨fun h' => sameEdge_trans h' h, fun h' => sameEdge_trans h' (sameEdge_symm h)⟩
    rw [this]

theorem getE_setE (d : Bool) (l : List ((ν × ν) × B)) (p q : ν × ν) (b : B) :
    getE d (setE d l p b) q = if sameEdge d p q then some b else getE d l q := by
  induction l with
  | nil => simp [setE, getE]
  | cons x l ih =>
    obtain ⟨k, b'⟩ := x
    unfold setE
    by_cases hk : sameEdge d k p = true
    · simp only [hk, if_true, getE]
      by_cases hq : sameEdge d p q = true
      · simp [hq, sameEdge_trans hk hq]
      · have : ¬ sameEdge d k q = true := fun h => hq (sameEdge_trans (sameEdge_symm hk) h)
        simp [hq, this]
    · simp only [hk, getE]
      by_cases hq : sameEdge d p q = true
      · have : ¬ sameEdge d k q = true := fun h => hk (sameEdge_trans h (sameEdge_symm hq))
        simp [hq, this, getE, ih]
      · simp only [Bool.false_eq_true, if_false, getE, ih, hq]

theorem setE_keys_pairwise (d : Bool) (l : List ((ν × ν) × B)) (p : ν × ν) (b : B)
    (h : l.Pairwise (fun a b => sameEdge d a.1 b.1 = false)) :
    (setE d l p b).Pairwise (fun a b => sameEdge d a.1 b.1 = false) ∧
    ∀ e ∈ setE d l p b, e.1 = p ∨ ∃ e' ∈ l, e'.1 = e.1 := by
  induction l with
  | nil => simp [setE]
  | cons x l ih =>
    obtain ⟨k, b'⟩ := x
    rw [List.pairwise_cons] at h
    obtain ⟨i1, i2⟩ := ih h.2
    unfold setE
    split
    · refine ⟨List.pairwise_cons.2 ⟨h.1, h.2⟩, ?_⟩
      intro e he
      rcases List.mem_cons.1 he with rfl | he
      · right; exact ⟨(k, b'), by simp, rfl⟩
      · right; exact ⟨e, by simp [he], rfl⟩
    · rename_i hk
      refine ⟨List.pairwise_cons.2 ⟨?_, i1⟩, ?_⟩
      · intro e he
        rcases i2 e he with h1 | ⟨e', h1, h2⟩
        · rw [h1]; simpa using hk
        · rw [← h2]; exact h.1 e' h1
      · intro e he
        rcases List.mem_cons.1 he with rfl | he
        · right; exact ⟨(k, b'), by simp, rfl⟩
        · rcases i2 e he with h1 | ⟨e', h1, h2⟩
          · exact Or.inl h1
          · right; exact ⟨e', by simp [h1], h2⟩

@[simp] theorem node?_empty (d : Bool) (n : ν) : (empty d : Graph ν A B).node? n = none := rfl
@[simp] theorem edge?_empty (d : Bool) (u v : ν) : (empty d : Graph ν A B).edge? u v = none := rfl

@[simp] theorem directed_setNode (g : Graph ν A B) (n : ν) (a : A) : (g.setNode n a).directed = g.directed := rfl
@[simp] theorem edge?_setNode (g : Graph ν A B) (n : ν) (a : A) (u v : ν) : (g.setNode n a).edge? u v = g.edge? u v := rfl
theorem node?_setNode (g : Graph ν A B) (n : ν) (a : A) (m : ν) :
    (g.setNode n a).node? m = if n = m then some a else g.node? m := by
  unfold node? setNode; rw [Dict.get?_set]

variable [Inhabited A]

@[simp] theorem directed_touch (g : Graph ν A B) (n : ν) : (g.touch n).directed = g.directed := by
  unfold touch; split <;> rfl
@[simp] theorem edge?_touch (g : Graph ν A B) (n u v : ν) : (g.touch n).edge? u v = g.edge? u v := by
  unfold touch; split <;> rfl
theorem edges_touch (g : Graph ν A B) (n : ν) : (g.touch n).edges = g.edges := by
  unfold touch; split <;> rfl

theorem node?_touch (g : Graph ν A B) (n m : ν) :
    (g.touch n).node? m = if n = m then some ((g.node? m).getD default) else g.node? m := by
  unfold touch
  cases h : g.node? n with
  | some a =>
    by_cases hm : n = m
    · subst hm; simp [h]
    · simp [hm]
  | none =>
    rw [node?_setNode]
    by_cases hm : n = m
    · subst hm; simp [h]
    · simp [hm]

@[simp] theorem directed_setEdge (g : Graph ν A B) (u v : ν) (b : B) : (g.setEdge u v b).directed = g.directed := by
  simp [setEdge]

theorem edge?_setEdge (g : Graph ν A B) (u v : ν) (b : B) (x y : ν) :
    (g.setEdge u v b).edge? x y = if sameEdge g.directed (u, v) (x, y) then some b else g.edge? x y := by
  unfold setEdge edge?
  simp only [directed_touch, getE_setE, edges_touch]

theorem node?_setEdge (g : Graph ν A B) (u v : ν) (b : B) (m : ν) :
    (g.setEdge u v b).node? m = if u = m ∨ v = m then some ((g.node? m).getD default) else g.node? m := by
  have : (g.setEdge u v b).node? m = ((g.touch u).touch v).node? m := rfl
  rw [this, node?_touch, node?_touch]
  by_cases hv : v = m
  · by_cases hu : u = m <;> simp [hv, hu]
  · by_cases hu : u = m <;> simp [hv, hu]

theorem hasNode_setNode (g : Graph ν A B) (n : ν) (a : A) (m : ν) :
    (g.setNode n a).hasNode m = true ↔ n = m ∨ g.hasNode m = true := by
  unfold hasNode; rw [node?_setNode]; split <;> simp [*]

theorem hasNode_touch (g : Graph ν A B) (n m : ν) : (g.touch n).hasNode m = true ↔ n = m ∨ g.hasNode m = true := by
  unfold hasNode; rw [node?_touch]; split <;> simp [*]

theorem WF_empty (d : Bool) : (empty d : Graph ν A B).WF := ⟨Dict.WF_nil, by simp [empty], by simp [empty]⟩

theorem WF_setNode {g : Graph ν A B} (h : g.WF) (n : ν) (a : A) : (g.setNode n a).WF := by
  refine ⟨Dict.WF_set h.nodes n a, h.edges, ?_⟩
  intro e he
  have := h.ends e he
  simp only [hasNode_setNode]
  exact ⟨Or.inr this.1, Or.inr this.2⟩

theorem WF_touch {g : Graph ν A B} (h : g.WF) (n : ν) : (g.touch n).WF := by
  unfold touch; split
  · exact h
  · exact WF_setNode h n _

theorem WF_setEdge {g : Graph ν A B} (h : g.WF) (u v : ν) (b : B) : (g.setEdge u v b).WF := by
  have h' := WF_touch (WF_touch h u) v
  have hp := setE_keys_pairwise ((g.touch u).touch v).directed ((g.touch u).touch v).edges (u, v) b h'.edges
  refine ⟨h'.nodes, hp.1, ?_⟩
  intro e he
  rcases hp.2 e he with h1 | ⟨e', h1, h2⟩
  · rw [h1]
    constructor
    · show ((g.touch u).touch v).hasNode u = true
      simp [hasNode_touch]
    · show ((g.touch u).touch v).hasNode v = true
      simp [hasNode_touch]
  · rw [← h2]; exact h'.ends e' h1

/-- In a well formed graph the ends of an edge are nodes. -/
theorem WF.ends_of_edge? {g : Graph ν A B} (h : g.WF) {u v : ν} (he : (g.edge? u v).isSome) :
    g.hasNode u = true ∧ g.hasNode v = true := by
  have key : ∀ l : List ((ν × ν) × B), (getE g.directed l (u, v)).isSome → ∃ e ∈ l, sameEdge g.directed e.1 (u, v) = true := by
    intro l
    induction l with
    | nil => simp [getE]
    | cons x l ih =>
      obtain ⟨k, b⟩ := x
      unfold getE
      split
      · rename_i hk; intro _; exact ⟨(k, b), by simp, hk⟩
      · intro h; obtain ⟨e, h1, h2⟩ := ih h; exact ⟨e, by simp [h1], h2⟩
  obtain ⟨e, h1, h2⟩ := key g.edges he
  have := h.ends e h1
  rw [sameEdge_iff] at h2
  rcases h2 with h2 | ⟨_, h3, h4⟩
  · rw [h2] at this; exact this
  · rw [h3, h4] at this; exact ⟨this.2, this.1⟩

theorem edge?_symm {g : Graph ν A B} (h : g.directed = false) (u v : ν) : g.edge? u v = g.edge? v u := by
  unfold edge?
  apply getE_congr
  rw [sameEdge_iff]; right; exact ⟨h, rfl, rfl⟩

end Graph

/-- All pairs of positions `i < j` of a list. -/
def pairs {α : Type} : List α → List (α × α)
  | [] => []
  | x :: xs => xs.map (fun y => (x, y)) ++ pairs xs

end Verif.Py
