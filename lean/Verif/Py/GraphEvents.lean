import Verif.Py.Graph
import Mathlib.Data.List.Induction

/-!
# Graphs built by a sequence of edge and node updates

Most network functions of the library are loops that do two things: count a co-occurrence on an edge, and update the
attributes of a node. `bumpEdge` is the first. The lemma `run_spec` gives the final graph of any sequence of such updates.
-/
set_option autoImplicit false
set_option linter.unusedSectionVars false
namespace Verif.Py.Graph

variable {ν A τ : Type} [DecidableEq ν] [Inhabited A]

/-- Counting one co-occurrence on an edge. Weighted: `g.edges[u, v]['weight'] += 1`, on `KeyError`
`g.add_edge(u, v, weight = 1)`. Unweighted: `g.add_edge(u, v)` when the edge is not there. The attribute of an edge is its
weight, `none` when it has none. -/
def bumpEdge (weighted : Bool) (g : Graph ν A (Option Nat)) (u v : ν) : Graph ν A (Option Nat) :=
  if weighted then
    match g.edge? u v with
    | some (some w) => g.setEdge u v (some (w + 1))
    | _ => g.setEdge u v (some 1)
  else
    match g.edge? u v with
    | some _ => g
    | none => g.setEdge u v none

/-- One update: an edge is counted, or the attributes of a node are replaced by a function of the old ones. -/
inductive Ev (ν τ : Type) where
  | edge (u v : ν)
  | node (n : ν) (t : τ)
deriving DecidableEq

/-- Performing an update; `f t` is what a node update with argument `t` does to the attributes (`none`: no such node). -/
def apply (weighted : Bool) (f : τ → Option A → A) (g : Graph ν A (Option Nat)) : Ev ν τ → Graph ν A (Option Nat)
  | .edge u v => bumpEdge weighted g u v
  | .node n t => g.setNode n (f t (g.node? n))

/-- Performing updates in order. -/
def run (weighted : Bool) (f : τ → Option A → A) (g : Graph ν A (Option Nat)) (evs : List (Ev ν τ)) :
    Graph ν A (Option Nat) := evs.foldl (apply weighted f) g

/-- An update of the edge between `u` and `v`. -/
def Ev.isEdge (d : Bool) (u v : ν) : Ev ν τ → Bool
  | .edge x y => sameEdge d (x, y) (u, v)
  | .node _ _ => false

/-- What an update does to the attributes of node `m`. -/
def Ev.onNode (f : τ → Option A → A) (m : ν) (o : Option A) : Ev ν τ → Option A
  | .edge u v => if u = m ∨ v = m then some (o.getD default) else o
  | .node n t => if n = m then some (f t o) else o

theorem run_append (w : Bool) (f : τ → Option A → A) (g : Graph ν A (Option Nat)) (l l' : List (Ev ν τ)) :
    run w f g (l ++ l') = run w f (run w f g l) l' := List.foldl_append

@[simp] theorem run_nil (w : Bool) (f : τ → Option A → A) (g : Graph ν A (Option Nat)) : run w f g [] = g := rfl
theorem run_cons (w : Bool) (f : τ → Option A → A) (g : Graph ν A (Option Nat)) (e : Ev ν τ) (l : List (Ev ν τ)) :
    run w f g (e :: l) = run w f (apply w f g e) l := rfl

theorem WF_bumpEdge {w : Bool} {g : Graph ν A (Option Nat)} (h : g.WF) (u v : ν) : (bumpEdge w g u v).WF := by
  unfold bumpEdge
  split
  · split <;> exact WF_setEdge h _ _ _
  · split
    · exact h
    · exact WF_setEdge h _ _ _

@[simp] theorem directed_bumpEdge (w : Bool) (g : Graph ν A (Option Nat)) (u v : ν) :
    (bumpEdge w g u v).directed = g.directed := by
  unfold bumpEdge
  split
  · split <;> simp
  · split <;> simp

theorem node?_bumpEdge {w : Bool} {g : Graph ν A (Option Nat)} (h : g.WF) (u v m : ν) :
    (bumpEdge w g u v).node? m = if u = m ∨ v = m then some ((g.node? m).getD default) else g.node? m := by
  unfold bumpEdge
  split
  · split <;> exact node?_setEdge _ _ _ _ _
  · split
    · rename_i b hb
      have := h.ends_of_edge? (u := u) (v := v) (by rw [hb]; rfl)
      unfold hasNode at this
      split
      · rename_i hm
        rcases hm with rfl | rfl
        · cases h2 : g.node? u with
          | none => rw [h2] at this; simp at this
          | some a => rfl
        · cases h2 : g.node? v with
          | none => rw [h2] at this; simp at this
          | some a => rfl
      · rfl
    · exact node?_setEdge _ _ _ _ _

/-- The attribute of an edge counted `n` times. -/
def weightOf (w : Bool) (n : Nat) : Option (Option Nat) := if n = 0 then none else some (if w then some n else none)

theorem edge?_bumpEdge (w : Bool) (g : Graph ν A (Option Nat)) (u v x y : ν) (n : Nat)
    (h : g.edge? x y = weightOf w n) :
    (bumpEdge w g u v).edge? x y = weightOf w (n + if sameEdge g.directed (u, v) (x, y) then 1 else 0) := by
  by_cases hs : sameEdge g.directed (u, v) (x, y) = true
  · have huv : g.edge? u v = weightOf w n := by
      rw [← h]; exact getE_congr hs _
    unfold bumpEdge
    cases w
    · simp only [Bool.false_eq_true, if_false, huv, weightOf]
      by_cases hn : n = 0
      · simp [hn, edge?_setEdge, hs]
      · simp [hn, h, weightOf, hs]
    · simp only [if_true, huv, weightOf]
      by_cases hn : n = 0
      · simp [hn, edge?_setEdge, hs]
      · simp [hn, edge?_setEdge, hs]
  · rw [if_neg hs, Nat.add_zero, ← h]
    unfold bumpEdge
    split
    · split <;> simp [edge?_setEdge, hs]
    · split
      · rfl
      · simp [edge?_setEdge, hs]

/-- The final graph of a sequence of updates from the empty graph: an edge is there exactly when it was counted, with
weight the number of times; the attributes of a node are those its own updates, in order, leave. -/
theorem run_spec (w d : Bool) (f : τ → Option A → A) (evs : List (Ev ν τ)) :
    let g := run w f (empty d : Graph ν A (Option Nat)) evs
    g.WF ∧ g.directed = d ∧
    (∀ u v, g.edge? u v = weightOf w (evs.countP (Ev.isEdge d u v))) ∧
    (∀ m, g.node? m = evs.foldl (Ev.onNode f m) none) := by
  induction evs using List.reverseRecOn with
  | nil => exact ⟨WF_empty d, rfl, fun u v => by simp [weightOf], fun m => rfl⟩
  | append_singleton l e ih =>
    obtain ⟨h1, h2, h3, h4⟩ := ih
    simp only [run_append, run_cons, run_nil, List.foldl_append, List.foldl_cons, List.foldl_nil, List.countP_append]
    cases e with
    | edge a b =>
      refine ⟨WF_bumpEdge h1 a b, by simp [apply, h2], fun u v => ?_, fun m => ?_⟩
      · rw [apply, edge?_bumpEdge w _ a b u v _ (h3 u v), h2]
        simp only [List.countP_cons, List.countP_nil, Ev.isEdge, Nat.zero_add]
        rfl
      · rw [apply, node?_bumpEdge h1, h4 m]; rfl
    | node n t =>
      refine ⟨WF_setNode h1 _ _, by simp [apply, h2], fun u v => ?_, fun m => ?_⟩
      · rw [apply, edge?_setNode, h3]
        simp [Ev.isEdge]
      · rw [apply, node?_setNode, h4 n, Ev.onNode, ← h4 m]
        by_cases hn : n = m
        · subst hn; rw [if_pos rfl, if_pos rfl, ← h4 n]
        · rw [if_neg hn, if_neg hn]

/-- The node is mentioned by an update. -/
def Ev.mentions (m : ν) : Ev ν τ → Bool
  | .edge u v => decide (u = m ∨ v = m)
  | .node n _ => decide (n = m)

/-- The update is a node update of `m`. -/
def Ev.isNode (m : ν) : Ev ν τ → Bool
  | .edge _ _ => false
  | .node n _ => decide (n = m)

theorem onNode_isSome (f : τ → Option A → A) (m : ν) (evs : List (Ev ν τ)) (o : Option A) :
    (evs.foldl (Ev.onNode f m) o).isSome = true ↔ o.isSome = true ∨ ∃ e ∈ evs, e.mentions m = true := by
  induction evs generalizing o with
  | nil => simp
  | cons e l ih =>
    rw [List.foldl_cons, ih]
    cases e with
    | edge u v =>
      simp only [Ev.onNode, List.mem_cons, exists_eq_or_imp, Ev.mentions, decide_eq_true_eq]
      by_cases h : u = m ∨ v = m <;> simp [h]
    | node n t =>
      simp only [Ev.onNode, List.mem_cons, exists_eq_or_imp, Ev.mentions, decide_eq_true_eq]
      by_cases h : n = m <;> simp [h]

end Verif.Py.Graph
