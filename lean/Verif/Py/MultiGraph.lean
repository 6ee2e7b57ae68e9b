import Verif.Py.GraphEvents

/-!
# networkx multigraphs

`MultiGraph` stands for `networkx.MultiGraph` (`directed = false`) and `networkx.MultiDiGraph` (`directed = true`): between
two nodes there can be several edges, told apart by a key. The attribute of an edge is its weight, `none` when it has
none. As in networkx 2, an argument `key` of `add_edge` is the key of the edge and not one of its attributes, and
`g.edges[u, v]` without a key raises `ValueError`.
-/
set_option autoImplicit false
set_option linter.unusedSectionVars false
namespace Verif.Py

structure MultiGraph (ν κ A : Type) where
  directed : Bool
  nodes : Dict ν A
  edges : List ((ν × ν × κ) × Option Nat)
deriving DecidableEq

namespace MultiGraph
variable {ν κ A τ : Type} [DecidableEq ν] [DecidableEq κ]

/-- Whether two triples of ends and key name the same edge. -/
def same (d : Bool) (p q : ν × ν × κ) : Bool := sameEdge d (p.1, p.2.1) (q.1, q.2.1) && decide (p.2.2 = q.2.2)

/-- Lookup in the list of edges. -/
def getK (d : Bool) : List ((ν × ν × κ) × Option Nat) → ν × ν × κ → Option (Option Nat)
  | [], _ => none
  | (k, b) :: rest, p => if same d k p then some b else getK d rest p

/-- Storing the weight of an edge: in place when the edge is there, at the end otherwise. -/
def setK (d : Bool) : List ((ν × ν × κ) × Option Nat) → ν × ν × κ → Option Nat → List ((ν × ν × κ) × Option Nat)
  | [], p, b => [(p, b)]
  | (k, b') :: rest, p, b => if same d k p then (k, b) :: rest else (k, b') :: setK d rest p b

/-- The empty `networkx.MultiGraph()` or `networkx.MultiDiGraph()`. -/
def empty (directed : Bool) : MultiGraph ν κ A := ⟨directed, [], []⟩

/-- `g.nodes[n]`, with `none` for a missing node. -/
def node? (g : MultiGraph ν κ A) (n : ν) : Option A := g.nodes.get? n
/-- `n in g`, `g.has_node(n)`. -/
def hasNode (g : MultiGraph ν κ A) (n : ν) : Bool := (g.node? n).isSome
/-- `g.edges[u, v, k]`, with `none` for a missing edge; `g.has_edge(u, v, key = k)` tells whether it is there. -/
def edge? (g : MultiGraph ν κ A) (u v : ν) (k : κ) : Option (Option Nat) := getK g.directed g.edges (u, v, k)

/-- Storing the attributes of a node. -/
def setNode (g : MultiGraph ν κ A) (n : ν) (a : A) : MultiGraph ν κ A := { g with nodes := g.nodes.set n a }

/-- `g.add_node(n)` without attributes. -/
def touch [Inhabited A] (g : MultiGraph ν κ A) (n : ν) : MultiGraph ν κ A :=
  match g.node? n with
  | some _ => g
  | none => g.setNode n default

/-- Storing the weight of an edge; networkx adds missing ends with no attributes, the source first. -/
def setEdge [Inhabited A] (g : MultiGraph ν κ A) (u v : ν) (k : κ) (b : Option Nat) : MultiGraph ν κ A :=
  let g := (g.touch u).touch v
  { g with edges := setK g.directed g.edges (u, v, k) b }

/-- A multigraph networkx can hold: no node or edge is stored twice and the ends of edges are nodes. -/
structure WF (g : MultiGraph ν κ A) : Prop where
  nodes : Dict.WF g.nodes
  edges : g.edges.Pairwise (fun a b => same g.directed a.1 b.1 = false)
  ends : ∀ e ∈ g.edges, g.hasNode e.1.1 = true ∧ g.hasNode e.1.2.1 = true

theorem same_iff (d : Bool) (p q : ν × ν × κ) :
    same d p q = true ↔ sameEdge d (p.1, p.2.1) (q.1, q.2.1) = true ∧ p.2.2 = q.2.2 := by simp [same]

theorem same_symm {d : Bool} {p q : ν × ν × κ} (h : same d p q = true) : same d q p = true := by
  rw [same_iff] at *; exact ⟨Graph.sameEdge_symm h.1, h.2.symm⟩

theorem same_trans {d : Bool} {p q r : ν × ν × κ} (h : same d p q = true) (h' : same d q r = true) : same d p r = true := by
  rw [same_iff] at *; exact ⟨Graph.sameEdge_trans h.1 h'.1, h.2.trans h'.2⟩

theorem same_refl (d : Bool) (p : ν × ν × κ) : same d p p = true := by
  rw [same_iff]; exact ⟨Graph.sameEdge_refl _ _, rfl⟩

theorem getK_congr {d : Bool} {p q : ν × ν × κ} (h : same d p q = true) (l : List ((ν × ν × κ) × Option Nat)) :
    getK d l p = getK d l q := by
  induction l with
  | nil => rfl
  | cons x l ih =>
    obtain ⟨k, b⟩ := x
    simp only [getK, ih]
    have : same d k p = same d k q := by
      rw [Bool.eq_iff_iff]
      exact ⟨fun h' => same_trans h' h, fun h' => same_trans h' (same_symm h)⟩
    rw [this]

theorem getK_setK (d : Bool) (l : List ((ν × ν × κ) × Option Nat)) (p q : ν × ν × κ) (b : Option Nat) :
    getK d (setK d l p b) q = if same d p q then some b else getK d l q := by
  induction l with
  | nil => simp [setK, getK]
  | cons x l ih =>
    obtain ⟨k, b'⟩ := x
    unfold setK
    by_cases hk : same d k p = true
    · simp only [hk, if_true, getK]
      by_cases hq : same d p q = true
      · simp [hq, same_trans hk hq]
      · have : ¬ same d k q = true := fun h => hq (same_trans (same_symm hk) h)
        simp [hq, this]
    · simp only [hk, getK]
      by_cases hq : same d p q = true
      · have : ¬ same d k q = true := fun h => hk (same_trans h (same_symm hq))
        simp [hq, this, getK, ih]
      · simp only [Bool.false_eq_true, if_false, getK, ih, hq]

theorem setK_keys_pairwise (d : Bool) (l : List ((ν × ν × κ) × Option Nat)) (p : ν × ν × κ) (b : Option Nat)
    (h : l.Pairwise (fun a b => same d a.1 b.1 = false)) :
    (setK d l p b).Pairwise (fun a b => same d a.1 b.1 = false) ∧
    ∀ e ∈ setK d l p b, e.1 = p ∨ ∃ e' ∈ l, e'.1 = e.1 := by
  induction l with
  | nil => simp [setK]
  | cons x l ih =>
    obtain ⟨k, b'⟩ := x
    rw [List.pairwise_cons] at h
    obtain ⟨i1, i2⟩ := ih h.2
    unfold setK
    split
    · refine ⟨List.pairwise_cons.2 ⟨h.1, h.2⟩, ?_⟩
      intro e he
      rcases List.mem_cons.1 he with rfl | he
      · right; exact ⟨(k, b'), by simp, rfl⟩
      · right; exact ⟨e, by simp [he], rfl⟩
    · rename_i hk
      refine ⟨List.pairwise_cons.2 ⟨?_, i1⟩, ?_⟩
      · intro e he
        rcases i2 e he with h1 | ⟨e', h1, h2⟩
        · rw [h1]; simpa using hk
        · rw [← h2]; exact h.1 e' h1
      · intro e he
        rcases List.mem_cons.1 he with rfl | he
        · right; exact ⟨(k, b'), by simp, rfl⟩
        · rcases i2 e he with h1 | ⟨e', h1, h2⟩
          · exact Or.inl h1
          · right; exact ⟨e', by simp [h1], h2⟩

@[simp] theorem directed_setNode (g : MultiGraph ν κ A) (n : ν) (a : A) : (g.setNode n a).directed = g.directed := rfl
@[simp] theorem edge?_setNode (g : MultiGraph ν κ A) (n : ν) (a : A) (u v : ν) (k : κ) :
    (g.setNode n a).edge? u v k = g.edge? u v k := rfl
theorem node?_setNode (g : MultiGraph ν κ A) (n : ν) (a : A) (m : ν) :
    (g.setNode n a).node? m = if n = m then some a else g.node? m := by
  unfold node? setNode; rw [Dict.get?_set]

variable [Inhabited A]

@[simp] theorem directed_touch (g : MultiGraph ν κ A) (n : ν) : (g.touch n).directed = g.directed := by
  unfold touch; split <;> rfl
theorem edges_touch (g : MultiGraph ν κ A) (n : ν) : (g.touch n).edges = g.edges := by
  unfold touch; split <;> rfl

theorem node?_touch (g : MultiGraph ν κ A) (n m : ν) :
    (g.touch n).node? m = if n = m then some ((g.node? m).getD default) else g.node? m := by
  unfold touch
  cases h : g.node? n with
  | some a =>
    by_cases hm : n = m
    · subst hm; simp [h]
    · simp [hm]
  | none =>
    rw [node?_setNode]
    by_cases hm : n = m
    · subst hm; simp [h]
    · simp [hm]

@[simp] theorem directed_setEdge (g : MultiGraph ν κ A) (u v : ν) (k : κ) (b : Option Nat) :
    (g.setEdge u v k b).directed = g.directed := by simp [setEdge]

theorem edge?_setEdge (g : MultiGraph ν κ A) (u v : ν) (k : κ) (b : Option Nat) (x y : ν) (j : κ) :
    (g.setEdge u v k b).edge? x y j = if same g.directed (u, v, k) (x, y, j) then some b else g.edge? x y j := by
  unfold setEdge edge?
  simp only [directed_touch, getK_setK, edges_touch]

theorem node?_setEdge (g : MultiGraph ν κ A) (u v : ν) (k : κ) (b : Option Nat) (m : ν) :
    (g.setEdge u v k b).node? m = if u = m ∨ v = m then some ((g.node? m).getD default) else g.node? m := by
  have : (g.setEdge u v k b).node? m = ((g.touch u).touch v).node? m := rfl
  rw [this, node?_touch, node?_touch]
  by_cases hv : v = m
  · by_cases hu : u = m <;> simp [hv, hu]
  · by_cases hu : u = m <;> simp [hv, hu]

theorem hasNode_setNode (g : MultiGraph ν κ A) (n : ν) (a : A) (m : ν) :
    (g.setNode n a).hasNode m = true ↔ n = m ∨ g.hasNode m = true := by
  unfold hasNode; rw [node?_setNode]; split <;> simp [*]

theorem hasNode_touch (g : MultiGraph ν κ A) (n m : ν) : (g.touch n).hasNode m = true ↔ n = m ∨ g.hasNode m = true := by
  unfold hasNode; rw [node?_touch]; split <;> simp [*]

theorem WF_empty (d : Bool) : (empty d : MultiGraph ν κ A).WF := ⟨Dict.WF_nil, by simp [empty], by simp [empty]⟩

theorem WF_setNode {g : MultiGraph ν κ A} (h : g.WF) (n : ν) (a : A) : (g.setNode n a).WF := by
  refine ⟨Dict.WF_set h.nodes n a, h.edges, ?_⟩
  intro e he
  have := h.ends e he
  simp only [hasNode_setNode]
  exact ⟨Or.inr this.1, Or.inr this.2⟩

theorem WF_touch {g : MultiGraph ν κ A} (h : g.WF) (n : ν) : (g.touch n).WF := by
  unfold touch; split
  · exact h
  · exact WF_setNode h n _

theorem WF_setEdge {g : MultiGraph ν κ A} (h : g.WF) (u v : ν) (k : κ) (b : Option Nat) : (g.setEdge u v k b).WF := by
  have h' := WF_touch (WF_touch h u) v
  have hp := setK_keys_pairwise ((g.touch u).touch v).directed ((g.touch u).touch v).edges (u, v, k) b h'.edges
  refine ⟨h'.nodes, hp.1, ?_⟩
  intro e he
  rcases hp.2 e he with h1 | ⟨e', h1, h2⟩
  · rw [h1]
    constructor
    · show ((g.touch u).touch v).hasNode u = true
      simp [hasNode_touch]
    · show ((g.touch u).touch v).hasNode v = true
      simp [hasNode_touch]
  · rw [← h2]; exact h'.ends e' h1

/-- In a well formed multigraph the ends of an edge are nodes. -/
theorem WF.ends_of_edge? {g : MultiGraph ν κ A} (h : g.WF) {u v : ν} {k : κ} (he : (g.edge? u v k).isSome) :
    g.hasNode u = true ∧ g.hasNode v = true := by
  have key : ∀ l : List ((ν × ν × κ) × Option Nat), (getK g.directed l (u, v, k)).isSome →
      ∃ e ∈ l, same g.directed e.1 (u, v, k) = true := by
    intro l
    induction l with
    | nil => simp [getK]
    | cons x l ih =>
      obtain ⟨k', b⟩ := x
      unfold getK
      split
      · rename_i hk; intro _; exact ⟨(k', b), by simp, hk⟩
      · intro h; obtain ⟨e, h1, h2⟩ := ih h; exact ⟨e, by simp [h1], h2⟩
  obtain ⟨e, h1, h2⟩ := key g.edges he
  have := h.ends e h1
  rw [same_iff, Graph.sameEdge_iff] at h2
  rcases h2.1 with h2 | ⟨_, h3, h4⟩
  · simp only [Prod.mk.injEq] at h2
    rw [h2.1, h2.2] at this; exact this
  · simp only at h3 h4
    rw [h3, h4] at this; exact ⟨this.2, this.1⟩

/-! ## Sequences of updates -/

/-- One update: an edge with a key is counted, or the attributes of a node are replaced by a function of the old ones. -/
inductive Ev (ν κ τ : Type) where
  | edge (u v : ν) (k : κ)
  | node (n : ν) (t : τ)

/-- Counting an edge: it is added with weight 1, or without a weight, when it is not there; otherwise its weight, if it has
one, grows by 1. -/
def bump (weighted : Bool) (g : MultiGraph ν κ A) (u v : ν) (k : κ) : MultiGraph ν κ A :=
  match g.edge? u v k with
  | some (some w) => if weighted then g.setEdge u v k (some (w + 1)) else g
  | some none => g
  | none => g.setEdge u v k (if weighted then some 1 else none)

/-- Performing an update. -/
def apply (weighted : Bool) (f : τ → Option A → A) (g : MultiGraph ν κ A) : Ev ν κ τ → MultiGraph ν κ A
  | .edge u v k => bump weighted g u v k
  | .node n t => g.setNode n (f t (g.node? n))

/-- Performing updates in order. -/
def run (weighted : Bool) (f : τ → Option A → A) (g : MultiGraph ν κ A) (evs : List (Ev ν κ τ)) : MultiGraph ν κ A :=
  evs.foldl (apply weighted f) g

/-- An update of the edge between `u` and `v` with key `k`. -/
def Ev.isEdge (d : Bool) (u v : ν) (k : κ) : Ev ν κ τ → Bool
  | .edge x y j => same d (x, y, j) (u, v, k)
  | .node _ _ => false

/-- The same update without its key. -/
def Ev.plain : Ev ν κ τ → Graph.Ev ν τ
  | .edge u v _ => .edge u v
  | .node n t => .node n t

theorem run_append (w : Bool) (f : τ → Option A → A) (g : MultiGraph ν κ A) (l l' : List (Ev ν κ τ)) :
    run w f g (l ++ l') = run w f (run w f g l) l' := List.foldl_append

@[simp] theorem run_nil (w : Bool) (f : τ → Option A → A) (g : MultiGraph ν κ A) : run w f g [] = g := rfl
theorem run_cons (w : Bool) (f : τ → Option A → A) (g : MultiGraph ν κ A) (e : Ev ν κ τ) (l : List (Ev ν κ τ)) :
    run w f g (e :: l) = run w f (apply w f g e) l := rfl

theorem WF_bump {w : Bool} {g : MultiGraph ν κ A} (h : g.WF) (u v : ν) (k : κ) : (bump w g u v k).WF := by
  unfold bump
  split
  · split
    · exact WF_setEdge h _ _ _ _
    · exact h
  · exact h
  · exact WF_setEdge h _ _ _ _

@[simp] theorem directed_bump (w : Bool) (g : MultiGraph ν κ A) (u v : ν) (k : κ) :
    (bump w g u v k).directed = g.directed := by
  unfold bump
  split
  · split <;> simp
  · rfl
  · simp

theorem node?_bump {w : Bool} {g : MultiGraph ν κ A} (h : g.WF) (u v : ν) (k : κ) (m : ν) :
    (bump w g u v k).node? m = if u = m ∨ v = m then some ((g.node? m).getD default) else g.node? m := by
  have stay : (g.edge? u v k).isSome → g.node? m = if u = m ∨ v = m then some ((g.node? m).getD default) else g.node? m := by
    intro hb
    have := h.ends_of_edge? hb
    unfold hasNode at this
    split
    · rename_i hm
      rcases hm with rfl | rfl
      · cases h2 : g.node? u with
        | none => rw [h2] at this; simp at this
        | some a => rfl
      · cases h2 : g.node? v with
        | none => rw [h2] at this; simp at this
        | some a => rfl
    · rfl
  unfold bump
  split
  · rename_i wt hb
    split
    · exact node?_setEdge _ _ _ _ _ _
    · exact stay (by rw [hb]; rfl)
  · rename_i hb
    exact stay (by rw [hb]; rfl)
  · exact node?_setEdge _ _ _ _ _ _

theorem edge?_bump (w : Bool) (g : MultiGraph ν κ A) (u v : ν) (k : κ) (x y : ν) (j : κ) (n : Nat)
    (h : g.edge? x y j = Graph.weightOf w n) :
    (bump w g u v k).edge? x y j = Graph.weightOf w (n + if same g.directed (u, v, k) (x, y, j) then 1 else 0) := by
  by_cases hs : same g.directed (u, v, k) (x, y, j) = true
  · have huv : g.edge? u v k = Graph.weightOf w n := by
      rw [← h]; exact getK_congr hs _
    unfold bump
    by_cases hn : n = 0
    · have : g.edge? u v k = none := by rw [huv]; simp [Graph.weightOf, hn]
      rw [this]
      simp [edge?_setEdge, hs, hn, Graph.weightOf]
    · cases w
      · have : g.edge? u v k = some none := by rw [huv]; simp [Graph.weightOf, hn]
        rw [this]
        simp [h, Graph.weightOf, hn]
      · have : g.edge? u v k = some (some n) := by rw [huv]; simp [Graph.weightOf, hn]
        rw [this]
        simp [edge?_setEdge, hs, Graph.weightOf]
  · rw [if_neg hs, Nat.add_zero, ← h]
    unfold bump
    split
    · split
      · simp [edge?_setEdge, hs]
      · rfl
    · rfl
    · simp [edge?_setEdge, hs]

/-- The final multigraph of a sequence of updates from the empty one: an edge is there exactly when it was counted, with
weight the number of times; the attributes of a node are those its own updates, in order, leave. -/
theorem run_spec (w d : Bool) (f : τ → Option A → A) (evs : List (Ev ν κ τ)) :
    let g := run w f (empty d : MultiGraph ν κ A) evs
    g.WF ∧ g.directed = d ∧
    (∀ u v k, g.edge? u v k = Graph.weightOf w (evs.countP (Ev.isEdge d u v k))) ∧
    (∀ m, g.node? m = (evs.map Ev.plain).foldl (Graph.Ev.onNode f m) none) := by
  induction evs using List.reverseRecOn with
  | nil => exact ⟨WF_empty d, rfl, fun u v k => by simp [Graph.weightOf]; rfl, fun m => rfl⟩
  | append_singleton l e ih =>
    obtain ⟨h1, h2, h3, h4⟩ := ih
    simp only [run_append, run_cons, run_nil, List.foldl_append, List.foldl_cons, List.foldl_nil, List.countP_append,
      List.map_append, List.map_cons, List.map_nil]
    cases e with
    | edge a b c =>
      refine ⟨WF_bump h1 a b c, by simp [apply, h2], fun u v k => ?_, fun m => ?_⟩
      · rw [apply, edge?_bump w _ a b c u v k _ (h3 u v k), h2]
        simp only [List.countP_cons, List.countP_nil, Ev.isEdge, Nat.zero_add]
        rfl
      · rw [apply, node?_bump h1, h4 m]; rfl
    | node n t =>
      refine ⟨WF_setNode h1 _ _, by simp [apply, h2], fun u v k => ?_, fun m => ?_⟩
      · rw [apply, edge?_setNode, h3]
        simp [Ev.isEdge]
      · rw [apply, node?_setNode, h4 n, Ev.plain, Graph.Ev.onNode, ← h4 m]
        by_cases hn : n = m
        · subst hn; rw [if_pos rfl, if_pos rfl, ← h4 n]
        · rw [if_neg hn, if_neg hn]

end MultiGraph
end Verif.Py
