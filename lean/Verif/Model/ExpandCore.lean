import Verif.Py.Graph

/-!
# Model of `expandRecs` of `metaknowledge/recordCollection.py`

The last step of `networkCoCitation` and `networkCitation` with `expandedCore` (recordCollection.py:1171-1174, 1287-1290). A record is given by
the IDs of its citations, one for each author (`createCitation(multiCite = True)` under `makeID`). Edge attributes are the weight, if there
is one.
-/
set_option autoImplicit false
namespace Verif.Model.ExpandCore
open Verif.Py

variable {ν A : Type} [DecidableEq ν] [Inhabited A]

/-- `RuntimeError: dictionary changed size during iteration`. -/
inductive ExpandErr where
  | runtimeError
deriving DecidableEq, Repr

/-- The second ends of `G.edges(a)`, in the order of the adjacency dictionary. -/
def nbrs (g : Graph ν A (Option Nat)) (a : ν) : List ν :=
  g.edges.filterMap (fun e => if e.1.1 = a then some e.1.2 else if !g.directed ∧ e.1.2 = a then some e.1.1 else none)

/-- `G.add_edge(u, v, **data)`: the attributes of an edge that is there are updated. -/
def addEdgeData (g : Graph ν A (Option Nat)) (u v : ν) (data : Option Nat) : Graph ν A (Option Nat) :=
  match data with
  | some w => g.setEdge u v (some w)
  | none => match g.edge? u v with
    | some _ => g
    | none => g.setEdge u v none

/-- `for e1, e2, data in G.edges(a, data = True): G.add_edge(b, e2, **data)` (recordCollection.py:1811-1812). The dictionary of the
neighbours of `a` is iterated while edges are added; `n` is its size at the start. -/
def copyLoop (a b : ν) (n : Nat) : Graph ν A (Option Nat) → List ν → Except ExpandErr (Graph ν A (Option Nat))
  | g, [] => .ok g
  | g, e :: es =>
    match g.edge? a e with
    | none => copyLoop a b n g es
    | some data =>
      let g' := addEdgeData g b e data
      if (nbrs g' a).length ≠ n then .error .runtimeError else copyLoop a b n g' es

/-- The edge or node that a second citation gets (recordCollection.py:1800-1810). -/
def joinPair (weighted : Bool) (g : Graph ν A (Option Nat)) (a b : ν) : Graph ν A (Option Nat) :=
  match g.node? b with
  | none => (g.setNode b ((g.node? a).getD default)).setEdge a b (if weighted then some 1 else none)
  | some _ =>
    if weighted then
      match g.edge? a b with
      | some (some w) => g.setEdge a b (some (w + 1))
      | _ => g.setEdge a b (some 1)
    else g

/-- The body of the inner loop (recordCollection.py:1799-1812). -/
def expandPair (weighted : Bool) (a : ν) (g : Graph ν A (Option Nat)) (b : ν) : Except ExpandErr (Graph ν A (Option Nat)) :=
  let g := joinPair weighted g a b
  copyLoop a b (nbrs g a).length g (nbrs g a)

/-- The loops over the citations of one record (recordCollection.py:1797-1812). -/
def expandList (weighted : Bool) : List ν → Graph ν A (Option Nat) → Except ExpandErr (Graph ν A (Option Nat))
  | [], g => .ok g
  | a :: rest, g =>
    match (if g.hasNode a then rest.foldlM (expandPair weighted a) g else .ok g) with
    | .error e => .error e
    | .ok g' => expandList weighted rest g'

/-- `expandRecs` (recordCollection.py:1792-1812). -/
def expandRecs (weighted : Bool) (recs : List (List ν)) (g : Graph ν A (Option Nat)) : Except ExpandErr (Graph ν A (Option Nat)) :=
  recs.foldlM (fun g ids => if ids.length > 1 then expandList weighted ids g else .ok g) g

end Verif.Model.ExpandCore
