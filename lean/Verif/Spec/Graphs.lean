import Verif.Model.GraphHelpers

/-! # What the graph helpers should compute, in terms of the nodes and edges of a graph -/
set_option autoImplicit false
namespace Verif.Spec
open Verif.Py Verif.Py.Graph Verif.Model.GraphHelpers

variable {ν : Type} [DecidableEq ν]

/-- `lo ≤ n ≤ hi`, where `none` means no bound. -/
def InRange (lo hi : Option Int) (n : Int) : Prop := (∀ l, lo = some l → l ≤ n) ∧ (∀ h, hi = some h → n ≤ h)

/-- Every edge carries a number under `param`, or nothing when `missingOk`. -/
def Weighted (param : String) (missingOk : Bool) (a : Attrs) : Prop :=
  (∃ n, a.get? param = some (.num n)) ∨ (a.get? param = none ∧ missingOk = true)

/-- What an edge counts for: its weight, 1 without one. -/
def weight (param : String) (a : Attrs) : Int :=
  match a.get? param with
  | some (.num n) => n
  | some (.str _) => 0
  | none => 1

/-- The sum over all nodes `m` of the value of the edge from `n` to `m`, where there is one. In an undirected graph these are all edges
of `n`. -/
def outDegree (w : Attrs → Int) (g : G ν) (n : ν) : Int :=
  (g.nodes.keys.map (fun m => match g.edge? n m with | none => 0 | some a => w a)).sum

/-- The sum over all nodes `m` of the value of the edge from `m` to `n`. -/
def inDegree (w : Attrs → Int) (g : G ν) (n : ν) : Int :=
  (g.nodes.keys.map (fun m => match g.edge? m n with | none => 0 | some a => w a)).sum

/-- The value of the edge between two nodes, 0 without one. -/
def edgeVal? (w : Attrs → Int) (g : G ν) (u v : ν) : Int := match g.edge? u v with | none => 0 | some a => w a

end Verif.Spec

namespace Verif.Spec
open Verif.Py Verif.Py.Graph Verif.Model.GraphHelpers
variable {ν : Type} [DecidableEq ν]

/-- A number under `key` on one side, a string on the other. -/
def Clash (key : String) (t a : Attrs) : Prop :=
  (∃ x y, t.get? key = some (.num x) ∧ a.get? key = some (.str y)) ∨
  (∃ x y, t.get? key = some (.str x) ∧ a.get? key = some (.num y))

/-- The attributes after merging those of `t` (the target, when it has the node or edge) and those of `a` (the added graph, likewise). When
both have a value under `key` the target's attributes are kept, except that the values are added; when one lacks it the added graph's
attributes are written over the target's. -/
def merged (key : String) : Option Attrs → Option Attrs → Option Attrs
  | none, a => a
  | t, none => t
  | some t, some a =>
    match t.get? key, a.get? key with
    | some (.num x), some (.num y) => some (t.set key (.num (x + y)))
    | some (.str x), some (.str y) => some (t.set key (.str (x ++ y)))
    | some _, some _ => some t
    | _, _ => some (t.update a)

/-- The attribute dictionaries of a graph have no key twice. -/
def AttrsWF (g : G ν) : Prop := (∀ n ∈ g.nodes, Dict.WF n.2) ∧ (∀ e ∈ g.edges, Dict.WF e.2)

end Verif.Spec

namespace Verif.Spec
open Verif.Py Verif.Py.Graph Verif.Model.GraphHelpers
variable {ν : Type} [DecidableEq ν]

/-- The mode of a node, `none` when it has none. -/
def modeOf (modeName : String) (g : G ν) (n : ν) : Option Val := (g.node? n).bind (fun a => a.get? modeName)

/-- The graph has exactly the two modes `m1` and `m2`, `m1` being the mode asked for as source or, when none is asked for, that of the
first node. -/
def TwoMode (modeName : String) (source : Option Val) (g : G ν) (m1 m2 : Val) : Prop :=
  m1 ≠ m2 ∧ (∀ n, g.hasNode n = true → modeOf modeName g n = some m1 ∨ modeOf modeName g n = some m2) ∧
  (∃ n, modeOf modeName g n = some m2) ∧
  (match source with
    | some s => s = m1
    | none => ∃ n a, g.nodes.head? = some (n, a) ∧ a.get? modeName = some m1)

/-- The number of a node: its position, from 1. -/
def tnetId (g : G ν) (n : ν) : Nat := g.nodes.keys.idxOf n + 1

end Verif.Spec
