import Verif.Model.CiteNetworks

/-!
# Model of the edge attribute `yearDiff` of `RecordCollection.networkCitation`

`metaknowledge/recordCollection.py`: `addToNetwork` and `networkCitation` once more, with both attributes an edge can have. `Model/CiteNetworks` has
the weight only.
-/
set_option autoImplicit false
namespace Verif.Model.YearDiff
open Verif.Py Verif.Model.Citation Verif.Model.CoNetworks Verif.Model.CiteNetworks

/-- The attributes of an edge: `weight`, `none` if it has none, and `yearDiff`: `none` if it has none, `some none` if it is `None`. -/
structure EdgeData where
  weight : Option Nat
  yearDiff : Option (Option Nat)
deriving DecidableEq, Repr

variable {ρ ι : Type} [Inhabited ι]
abbrev YearNet (ι : Type) := Graph NodeId (CoAttr ι) EdgeData

/-- `abs(hYear - nYear)`, `None` when that raises (recordCollection.py:1625-1626, 1637-1641, 1655-1659): a missing attribute `year` of a cited work counts as `None`. -/
def yearDiff (hd n : Cite) : Option Nat :=
  match hd.year, n.year with
  | some (some hYear), some (some nYear) => some (hYear - nYear).natAbs
  | _, _ => none

/-- The head node (recordCollection.py:1627-1629). -/
def addHead (count : Bool) (g : YearNet ι) (h : NodeId) (info : ι) : YearNet ι :=
  match g.node? h with
  | none => g.setNode h { count := if count then some 1 else none, info := info }
  | some _ => g

/-- A cited node (recordCollection.py:1643-1648). -/
def addCited (count : Bool) (g : YearNet ι) (n : NodeId) (info : ι) : YearNet ι :=
  match g.node? n with
  | none => g.setNode n { count := if count then some 1 else none, info := info }
  | some a => if count then g.setNode n { a with count := some (a.count.getD 0 + 1) } else g

/-- `grph[u][v]['weight'] += 1`, and on `KeyError` `grph.add_edge(x, y, weight=1)` with `yearDiff=d` if `d` is given (recordCollection.py:1661-1671, 1675-1685, 1691-1695).
Without it an edge that is there keeps its `yearDiff`. -/
def bump (g : YearNet ι) (u v x y : NodeId) (d : Option (Option Nat)) : YearNet ι :=
  match g.edge? u v with
  | some ⟨some w, old⟩ => g.setEdge u v ⟨some (w + 1), old⟩
  | _ => g.setEdge x y ⟨some 1, d.or ((g.edge? x y).bind EdgeData.yearDiff)⟩

/-- `grph.add_edges_from` without attributes (recordCollection.py:1698). -/
def addEdges (g : YearNet ι) (es : List (NodeId × NodeId)) : YearNet ι :=
  es.foldl (fun g e => match g.edge? e.1 e.2 with
    | some _ => g
    | none => g.setEdge e.1 e.2 ⟨none, none⟩) g

/-- The edges between the head and the cited nodes (recordCollection.py:1651-1687, then 1698). Each cited node comes with its `yearDiff`. -/
def linkHead (whole weighted recordToCite : Bool) (g : YearNet ι) (h : NodeId) (ids : List (NodeId × Option Nat)) :
    Except NetErr (YearNet ι) :=
  if whole then
    if weighted then
      .ok (ids.foldl (fun g n => if recordToCite then bump g h n.1 h n.1 (some n.2) else bump g n.1 h n.1 h (some n.2)) g)
    else .ok (addEdges g ((ids.filter (fun n => !g.hasEdge h n.1)).map (fun n => (h, n.1))))
  else if weighted then
    .ok (ids.foldl (fun g n => if recordToCite then bump g h n.1 h n.1 none else bump g n.1 h h n.1 none) g)
  else if ids.any (fun n => !g.hasEdge h n.1) then .error .unboundLocal
  else .ok g

/-- The edges between the cited nodes, when there is no head or its name is empty (recordCollection.py:1688-1698). -/
def linkAll (weighted : Bool) (g : YearNet ι) (ids : List NodeId) : YearNet ι :=
  if weighted then (pairs ids).foldl (fun g p => bump g p.1 p.2 p.1 p.2 none) g
  else addEdges g ((pairs ids).filter (fun p => !g.hasEdge p.1 p.2))

/-- `addToNetwork` with a head (recordCollection.py:1618-1698). As in `Model/CiteNetworks` the names are computed before the graph is touched. -/
def addToNetwork (nt : NodeType) (count weighted recordToCite : Bool) (info : Cite → ι) (hd : Cite) (nds : List Cite) (g : YearNet ι) :
    Except NetErr (YearNet ι) := do
  let h ← makeID nt hd
  if nt.whole && hd.year.isNone then throw .attributeError
  let g := addHead count g h (info hd)
  let ids ← nds.mapM (makeID nt)
  let g := (ids.zip (nds.map info)).foldl (fun g n => addCited count g n.1 n.2) g
  if h.truthy then linkHead nt.whole weighted recordToCite g h (ids.zip (nds.map (yearDiff hd)))
  else return linkAll weighted g ids

/-- `RecordCollection.networkCitation` (recordCollection.py:1179-1292), after the check of `nodeType`. -/
def networkCitation (env : Env) (o : Opts) (directed recordToCite : Bool) (info : Cite → ι) (own : ρ → Cite)
    (cites : ρ → Option (List Cite)) (recs : List ρ) : Except NetErr (YearNet ι) :=
  recs.foldlM (fun g r =>
    if (keep env o own recs [own r]).length == 0 then .ok g
    else
      match cites r with
      | none => .ok g
      | some [] => .ok g
      | some cs => addToNetwork o.nodeType o.count o.weighted recordToCite info (own r) (keep env o own recs cs) g)
    (Graph.empty directed)

end Verif.Model.YearDiff
