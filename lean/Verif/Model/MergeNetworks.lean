import Verif.Model.GraphHelpers
import Verif.Model.Networks
import Verif.Model.CoNetworks

/-!
# Making a network part by part

What a user writes to make the network of a large collection from the networks of its parts: the networks of the models `Networks`, `CoNetworks` and `CiteNetworks` as
networkx graphs with dictionaries of attributes, merged with `mergeGraphs`.
-/
set_option autoImplicit false
namespace Verif.Model.MergeNetworks
open Verif.Py Verif.Py.Graph Verif.Model.GraphHelpers Verif.Model.Networks Verif.Model.CoNetworks

/-- The dictionary of a node of `networkMultiLevel`, `networkTwoMode` and `networkMultiMode` (mkCollection.py:906-929, 1128-1172, 1282-1305). -/
def netAttrs (a : NodeAttr) : Attrs :=
  (match a.count with | some n => [("count", .num (n : Int))] | none => []) ++ (match a.type with | some t => [("type", .str t)] | none => [])

/-- The dictionary of a node of the other networks: what is made of the record or citation, and the count (recordCollection.py:988-1018, 1708-1761;
grantCollection.py:195-209). -/
def coAttrs (a : CoAttr Attrs) : Attrs := a.info ++ (match a.count with | some n => [("count", .num (n : Int))] | none => [])

/-- The dictionary of an edge: its weight, or nothing. -/
def weightAttrs (w : Option Nat) : Attrs := match w with | some n => [("weight", .num (n : Int))] | none => []

variable {ν A ρ : Type} [DecidableEq ν]

/-- A network as the graph `mergeGraphs` is given. -/
def asGraph (na : A → Attrs) (g : Graph ν A (Option Nat)) : G ν :=
  ⟨g.directed, g.nodes.map (fun p => (p.1, na p.2)), g.edges.map (fun e => (e.1, weightAttrs e.2))⟩

/-- `G = part0.network(…)`, then `mergeGraphs(G, part.network(…))` for the other parts (graphHelpers.py:691-732). `none`: something raised an exception. -/
def mergeParts (net : List ρ → Option (G ν)) (part0 : List ρ) (parts : List (List ρ)) : Option (G ν) := do
  let g ← net part0
  parts.foldlM (fun g p => do
    let h ← net p
    (mergeGraphs (some "count") (some "weight") g h).toOption) g

end Verif.Model.MergeNetworks
