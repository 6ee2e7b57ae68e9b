import Verif.Spec.Graphs

/-! # When two graphs are the same for a user (C112) -/
set_option autoImplicit false
namespace Verif.Spec.MergeNetworks
open Verif.Py Verif.Py.Graph Verif.Model.GraphHelpers
variable {ν : Type} [DecidableEq ν]

/-- Both are missing, or both are there and have the same values under the same names. -/
def SameAttrs : Option Attrs → Option Attrs → Prop
  | none, none => True
  | some x, some y => ∀ k, x.get? k = y.get? k
  | _, _ => False

/-- The same kind of graph with the same nodes, and the same edges with the same attributes, weights in particular. -/
structure SameEdges (g h : G ν) : Prop where
  directed : g.directed = h.directed
  nodes : ∀ n, g.hasNode n = h.hasNode n
  edges : ∀ u v, SameAttrs (g.edge? u v) (h.edge? u v)

/-- Besides, the nodes have the same attributes, counts in particular. -/
structure SameGraph (g h : G ν) : Prop extends SameEdges g h where
  attributes : ∀ n, SameAttrs (g.node? n) (h.node? n)

end Verif.Spec.MergeNetworks
