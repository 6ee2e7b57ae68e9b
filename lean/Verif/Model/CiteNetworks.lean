import Verif.Py.GraphEvents
import Verif.Model.Citation
import Verif.Model.CoNetworks
import Mathlib.Data.List.Infix

/-!
# Model of the citation networks of `metaknowledge/recordCollection.py`

`filterCites`, `makeID`, `addToNetwork`, `networkCoCitation`, `networkCitation`, `networkBibCoupling`. A collection is the list of
its records in iteration order; `own r` is `R.createCitation()` and `cites r` is `R.get('citations')`. Left out: `expandedCore`,
the progress bar; the edge attribute `yearDiff` is in `Model/YearDiff`. What `makeNodeTuple` puts on a new node besides the count is an
abstract value `info c` of the citation.
-/
set_option autoImplicit false
namespace Verif.Model.CiteNetworks
open Verif.Py Verif.Model.Citation Verif.Model.CoNetworks

/-- The allowed values of `nodeType` (recordCollection.py:1133, 1237). -/
inductive NodeType where
  | full | original | author | journal | year
deriving DecidableEq, Repr

/-- Exceptions: an absent attribute; `networkx` refusing `None` as a node; `yearDiff` used before assignment. -/
inductive NetErr where
  | attributeError | noneNode | unboundLocal
deriving DecidableEq, Repr

/-- A node is a string or, for years, a number. -/
inductive NodeId where
  | str (s : Str)
  | num (n : Int)
deriving DecidableEq, Repr

/-- The `keyWords` argument. -/
inductive KeyWords where
  | none
  | one (s : Str)
  | many (l : List Str)

/-- What the code takes from outside: Python's `str.upper`, the journal test (databases whose entries are non-empty, as
`getj9dict` builds them), Python's `hash` of a string. -/
structure Env where
  upper : Str → Str
  isJournal : Cite → Bool
  hash : Str → Int

/-- `hasattr(c, nodeType) and not getattr(c, nodeType)` (recordCollection.py:1766). -/
def emptyAttr (nt : NodeType) (c : Cite) : Bool :=
  match nt with
  | .full => false
  | .original => c.original.isEmpty
  | .author => match c.author with
    | some none => true
    | some (some s) => s.isEmpty
    | none => false
  | .journal => match c.journal with
    | some none => true
    | some (some s) => s.isEmpty
    | none => false
  | .year => match c.year with
    | some none => true
    | some (some y) => y == 0
    | none => false

/-- The body of the loop of `filterCites` (recordCollection.py:1766-1788). -/
def filterStep (env : Env) (nodeType : NodeType) (dropAnon dropNonJournals : Bool) (keyWords : KeyWords)
    (coreCites : Option (List Cite)) (filteredCites : List Cite) (c : Cite) : List Cite :=
  if nodeType ≠ .full && emptyAttr nodeType c then filteredCites
  else if dropNonJournals && !env.isJournal c then filteredCites
  else if dropAnon && isAnonymous c then filteredCites
  else if (match coreCites with
    | none => false
    | some core => !(core.any (fun d => citeEq env.hash c d))) then filteredCites
  else
    match keyWords with
    | .none => filteredCites ++ [c]
    | .one [] => filteredCites ++ [c]
    | .one k => if decide (env.upper k <:+: env.upper c.original) then filteredCites else filteredCites ++ [c]
    | .many [] => filteredCites ++ [c]
    | .many ks => if ks.any (fun k => decide (env.upper k <:+: env.upper c.original)) then filteredCites
      else filteredCites ++ [c]

/-- `filterCites` (recordCollection.py:1763-1789). -/
def filterCites (env : Env) (nodeType : NodeType) (dropAnon dropNonJournals : Bool) (keyWords : KeyWords)
    (coreCites : Option (List Cite)) (cites : List Cite) : List Cite :=
  cites.foldl (filterStep env nodeType dropAnon dropNonJournals keyWords coreCites) []

/-- `makeID` (recordCollection.py:1701-1706). -/
def makeID (nt : NodeType) (c : Cite) : Except NetErr NodeId :=
  match nt with
  | .full => .ok (.str c.id)
  | .original => .ok (.str c.original)
  | .author => match c.author with
    | none => .error .attributeError
    | some none => .error .noneNode
    | some (some s) => .ok (.str s)
  | .journal => match c.journal with
    | none => .error .attributeError
    | some none => .error .noneNode
    | some (some s) => .ok (.str s)
  | .year => match c.year with
    | none => .error .attributeError
    | some none => .error .noneNode
    | some (some y) => .ok (.num y)

/-- `bool(hID)`. -/
def NodeId.truthy : NodeId → Bool
  | .str s => !s.isEmpty
  | .num n => n != 0

/-- `nodeType == 'full' or nodeType == 'original'`. -/
def NodeType.whole : NodeType → Bool
  | .full => true
  | .original => true
  | _ => false

variable {ρ ι : Type} [Inhabited ι]
abbrev CiteNet (ι : Type) := Graph NodeId (CoAttr ι) (Option Nat)

/-- The head node is added when missing; its count is not touched when it is there (recordCollection.py:1627-1629). -/
def addHead (count : Bool) (g : CiteNet ι) (h : NodeId) (info : ι) : CiteNet ι :=
  match g.node? h with
  | none => g.setNode h { count := if count then some 1 else none, info := info }
  | some _ => g

/-- The cited nodes are added or counted (recordCollection.py:1643-1648); the same as for authors. -/
def addCited (count : Bool) (g : CiteNet ι) (n : NodeId) (info : ι) : CiteNet ι := coNode count g n info

/-- Adding edges that were collected: `grph.add_edges_from` without attributes (recordCollection.py:1698). -/
def addEdges (g : CiteNet ι) (es : List (NodeId × NodeId)) : CiteNet ι :=
  es.foldl (fun g e => match g.edge? e.1 e.2 with
    | some _ => g
    | none => g.setEdge e.1 e.2 none) g

/-- The edges between the head and the cited nodes (recordCollection.py:1651-1687, then 1698). For the node types `full` and
`original`: weighted edges follow `recordToCite`, unweighted edges always go from the head. For the others: weighted with
`recordToCite` false looks the edge up in one direction and adds it in the other; unweighted raises as soon as an edge is
missing, because `yearDiff` has no value. -/
def linkHead (whole weighted recordToCite : Bool) (g : CiteNet ι) (h : NodeId) (ids : List NodeId) :
    Except NetErr (CiteNet ι) :=
  if whole then
    if weighted then
      .ok (ids.foldl (fun g n => if recordToCite then Graph.bumpEdge true g h n else Graph.bumpEdge true g n h) g)
    else .ok (addEdges g ((ids.filter (fun n => !g.hasEdge h n)).map (fun n => (h, n))))
  else if weighted then
    .ok (ids.foldl (fun g n =>
      if recordToCite then Graph.bumpEdge true g h n
      else
        match g.edge? n h with
        | some (some w) => g.setEdge n h (some (w + 1))
        | _ => g.setEdge h n (some 1)) g)
  else if ids.any (fun n => !g.hasEdge h n) then .error .unboundLocal
  else .ok g

/-- The edges between the cited nodes, when there is no head (recordCollection.py:1688-1698). -/
def linkAll (weighted : Bool) (g : CiteNet ι) (ids : List NodeId) : CiteNet ι :=
  if weighted then (pairs ids).foldl (fun g p => Graph.bumpEdge true g p.1 p.2) g
  else addEdges g ((pairs ids).filter (fun p => !g.hasEdge p.1 p.2))

/-- `addToNetwork` (recordCollection.py:1618-1698). The node names are computed before the graph is touched: the graph is
lost when an exception is raised, so the order makes no difference. -/
def addToNetwork (nt : NodeType) (count weighted recordToCite : Bool) (info : Cite → ι) (head : Option Cite)
    (nds : List Cite) (g : CiteNet ι) : Except NetErr (CiteNet ι) := do
  match head with
  | some hd =>
    let h ← makeID nt hd
    if nt.whole && hd.year.isNone then throw .attributeError
    let g := addHead count g h (info hd)
    let ids ← nds.mapM (makeID nt)
    let g := (ids.zip (nds.map info)).foldl (fun g n => addCited count g n.1 n.2) g
    if h.truthy then linkHead nt.whole weighted recordToCite g h ids
    else return linkAll weighted g ids
  | none =>
    let ids ← nds.mapM (makeID nt)
    let g := (ids.zip (nds.map info)).foldl (fun g n => addCited count g n.1 n.2) g
    return linkAll weighted g ids

/-- The options both networks share. -/
structure Opts where
  nodeType : NodeType
  dropAnon : Bool
  dropNonJournals : Bool
  keyWords : KeyWords
  coreOnly : Bool
  count : Bool
  weighted : Bool

/-- The call of `filterCites` (recordCollection.py:1151-1166, 1258-1282): with `coreOnly` the core is the citations of the
records themselves. -/
def keep (env : Env) (o : Opts) (own : ρ → Cite) (recs : List ρ) (cs : List Cite) : List Cite :=
  filterCites env o.nodeType o.dropAnon o.dropNonJournals o.keyWords (if o.coreOnly then some (recs.map own) else none) cs

/-- `RecordCollection.networkCoCitation` (recordCollection.py:1075-1177), after the check of `nodeType`. -/
def networkCoCitation (env : Env) (o : Opts) (info : Cite → ι) (own : ρ → Cite) (cites : ρ → Option (List Cite))
    (recs : List ρ) : Except NetErr (CiteNet ι) :=
  recs.foldlM (fun g r =>
    match cites r with
    | none => .ok g
    | some [] => .ok g
    | some cs => addToNetwork o.nodeType o.count o.weighted true info none (keep env o own recs cs) g) (Graph.empty false)

/-- `RecordCollection.networkCitation` (recordCollection.py:1179-1292), after the check of `nodeType`. -/
def networkCitation (env : Env) (o : Opts) (directed recordToCite : Bool) (info : Cite → ι) (own : ρ → Cite)
    (cites : ρ → Option (List Cite)) (recs : List ρ) : Except NetErr (CiteNet ι) :=
  recs.foldlM (fun g r =>
    if (keep env o own recs [own r]).length == 0 then .ok g
    else
      match cites r with
      | none => .ok g
      | some [] => .ok g
      | some cs => addToNetwork o.nodeType o.count o.weighted recordToCite info (some (own r)) (keep env o own recs cs) g)
    (Graph.empty directed)

/-- The options `networkBibCoupling` passes to `networkCitation` (recordCollection.py:1316). -/
def couplingOpts : Opts where
  nodeType := .full
  dropAnon := false
  dropNonJournals := false
  keyWords := .none
  coreOnly := false
  count := false
  weighted := false

/-- `citeGrph.in_edges(n)`: the sources. -/
def inSources (g : CiteNet ι) (n : NodeId) : List NodeId := (g.edges.filter (fun e => e.1.2 = n)).map (fun e => e.1.1)

/-- The second half of `networkBibCoupling` (recordCollection.py:1317-1347): nodes in the core are kept with their attributes, and
the sources of the edges into each node are joined pairwise. `order` is the iteration order of `couplingSet`. -/
def couple (weighted : Bool) (inCore : ι → Bool) (order : List NodeId) (citeGrph : CiteNet ι) : CiteNet ι :=
  let working := citeGrph.nodes.foldl (fun w nd => if inCore nd.2.info then w.setNode nd.1 nd.2 else w) (Graph.empty false)
  order.foldl (fun w n => (pairs (inSources citeGrph n)).foldl (fun w p => Graph.bumpEdge weighted w p.1 p.2) w) working

/-- `couplingSet` (recordCollection.py:1328-1329): the nodes with an edge coming in. -/
def couplingSet (citeGrph : CiteNet ι) : List NodeId :=
  citeGrph.nodes.keys.filter (fun n => !(inSources citeGrph n).isEmpty)

/-- `RecordCollection.networkBibCoupling` (recordCollection.py:1294-1348). `shuffle` is the order in which Python visits a set. -/
def networkBibCoupling (env : Env) (weighted : Bool) (inCore : ι → Bool) (shuffle : List NodeId → List NodeId)
    (info : Cite → ι) (own : ρ → Cite) (cites : ρ → Option (List Cite)) (recs : List ρ) : Except NetErr (CiteNet ι) := do
  let citeGrph ← networkCitation env couplingOpts true true info own cites recs
  return couple weighted inCore (shuffle (couplingSet citeGrph)) citeGrph

end Verif.Model.CiteNetworks
