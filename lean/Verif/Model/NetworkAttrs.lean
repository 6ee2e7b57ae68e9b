import Verif.Py.MultiGraph
import Verif.Model.Networks

/-!
# Model of the options `edgeAttribute` and `nodeAttribute` of the network functions of `metaknowledge/mkCollection.py`

`networkMultiLevel`, `networkOneMode`, `networkTwoMode` and `networkMultiMode`, as in `Verif.Model.Networks`, with a tag for
the edges, and for the first two with a tag for the nodes. A tag for the edges makes the network a multigraph. The lists
of values the nodes get are Python objects that several nodes can share, so they are kept in a heap. Left out: an empty
string as tag (it makes a multigraph and is then taken for no tag), the node tag `'count'`, which would collide with the
count, the checks of the arguments, the progress bar, and edge tags whose value is `None`, which networkx takes for no key.
-/
set_option autoImplicit false
namespace Verif.Model.NetworkAttrs
open Verif.Py Verif.Model.Series Verif.Model.Networks

inductive Err where
  | typeError | valueError | nameError
deriving DecidableEq, Repr

variable {ρ α ν σ τ G : Type} [DecidableEq ν] [DecidableEq σ]
abbrev MultiNet (ν κ : Type) := MultiGraph ν κ NodeAttr

/-- `[str(v) for v in R.get(tag, [])]` (mkCollection.py:865, 867). `str` is Python's; `iter` gives what a value that is not a
list yields when it is gone over, as strings (the characters of a string), or `none` when it cannot be (a number). -/
def attrVals (str : α → σ) (iter : α → Option (List σ)) : Option (FieldVal α) → Except Err (List σ)
  | none => .ok []
  | some (.list vs) => .ok (vs.map str)
  | some (.single v) =>
    match iter v with
    | some l => .ok l
    | none => .error .typeError

/-- The attribute the nodes get from `nodeAttribute`: `ref` has, for the nodes that have one, the address of a list and
`lists` the lists. -/
structure Attribs (ν σ : Type) where
  ref : Dict ν Nat
  lists : List (List σ)
deriving DecidableEq

/-- `grph.node[n][nodeAttribute]` as it is found at the end. -/
def Attribs.read (s : Attribs ν σ) (n : ν) : Option (List σ) := (s.ref.get? n).map (fun a => s.lists.getD a [])

/-- `for nodeValue in (n for n in nodeVals if n not in currentAttrib): ….append(nodeValue)` (mkCollection.py:919-920); the
test is made anew for every value, when the ones before it have been appended. -/
def appendNew (cur vals : List σ) : List σ := vals.foldl (fun cur v => if v ∈ cur then cur else cur ++ [v]) cur

/-- Giving a node the values of the record, whose list is at address `addr` (mkCollection.py:913-920 and, for a single
value, 930-937): the first time the node gets the list itself, later the missing values are appended to the list it has.
`none`: there is no `nodeAttribute`. -/
def noteNode (addr : Option Nat) (s : Attribs ν σ) (n : ν) : Attribs ν σ :=
  match addr with
  | none => s
  | some addr =>
    match s.ref.get? n with
    | none => { s with ref := s.ref.set n addr }
    | some a => { s with lists := s.lists.set a (appendNew (s.lists.getD a []) (s.lists.getD addr [])) }

/-- The list `nodeVals` of a record is made (mkCollection.py:866-867). -/
def newVals (str : α → σ) (iter : α → Option (List σ)) (field : ρ → τ → Option (FieldVal α)) (nodeAttribute : Option τ) (r : ρ)
    (s : Attribs ν σ) : Except Err (Attribs ν σ × Option Nat) :=
  match nodeAttribute with
  | none => .ok (s, none)
  | some tag =>
    match attrVals str iter (field r tag) with
    | .error e => .error e
    | .ok vals => .ok ({ s with lists := s.lists ++ [vals] }, some s.lists.length)

/-- The edges from one value of a record to the later ones (mkCollection.py:883-905). -/
def edgesFrom (edge : G → ν → ν → Except Err G) (node1 : ν) : G → List ν → Except Err G
  | g, [] => .ok g
  | g, node2 :: rest =>
    match edge g node1 node2 with
    | .error e => .error e
    | .ok g => edgesFrom edge node1 g rest

/-- The loop over the values of a record (mkCollection.py:882-920 and, for one value, 921-937): edges, count, attribute. -/
def levelLoop (edge : G → ν → ν → Except Err G) (count : G → ν → G) (addr : Option Nat) :
    G → Attribs ν σ → List ν → Except Err (G × Attribs ν σ)
  | g, s, [] => .ok (g, s)
  | g, s, node1 :: rest =>
    match edgesFrom edge node1 g rest with
    | .error e => .error e
    | .ok g => levelLoop edge count addr (count g node1) (noteNode addr s node1) rest

/-- `CollectionWithIDs.networkMultiLevel` without `edgeAttribute` (mkCollection.py:808-963). -/
def networkMultiLevel (nodeCount edgeWeight : Bool) (ident : α → ν) (str : α → σ) (iter : α → Option (List σ))
    (field : ρ → τ → Option (FieldVal α)) (modes : List τ) (nodeAttribute : Option τ) :
    Net ν × Attribs ν σ → List ρ → Except Err (Net ν × Attribs ν σ)
  | st, [] => .ok st
  | (g, s), r :: recs =>
    match newVals str iter field nodeAttribute r s with
    | .error e => .error e
    | .ok (s, addr) =>
      match levelLoop (fun g u v => .ok (Graph.bumpEdge edgeWeight g u v)) (countNode nodeCount) addr g s
        (contentsOf ident field modes r) with
      | .error e => .error e
      | .ok st => networkMultiLevel nodeCount edgeWeight ident str iter field modes nodeAttribute st recs

/-- Joining two values by an edge for a value of the edge tag (mkCollection.py:886-897): an edge that is there already
cannot be counted, for `grph.edges[node1, node2]` raises in a multigraph. -/
def bumpKey (edgeWeight : Bool) (g : MultiNet ν σ) (u v : ν) (k : σ) : Except Err (MultiNet ν σ) :=
  match g.edge? u v k with
  | some _ => if edgeWeight then .error .valueError else .ok g
  | none => .ok (g.setEdge u v k (if edgeWeight then some 1 else none))

/-- One edge for every value of the edge tag (mkCollection.py:884-897). -/
def bumpKeys (edgeWeight : Bool) : List σ → MultiNet ν σ → ν → ν → Except Err (MultiNet ν σ)
  | [], g, _, _ => .ok g
  | k :: ks, g, u, v =>
    match bumpKey edgeWeight g u v k with
    | .error e => .error e
    | .ok g => bumpKeys edgeWeight ks g u v

/-- Counting a node in the multigraph (mkCollection.py:906-912 and, for a single value, 922-929). -/
def countMulti (nodeCount : Bool) (g : MultiNet ν σ) (n : ν) : MultiNet ν σ :=
  let g := g.touch n
  if nodeCount then
    match g.node? n with
    | some a => g.setNode n { a with count := some (a.count.getD 0 + 1) }
    | none => g
  else g

/-- `CollectionWithIDs.networkMultiLevel` with `edgeAttribute` (mkCollection.py:808-963). -/
def networkMultiLevelKeyed (nodeCount edgeWeight : Bool) (ident : α → ν) (str : α → σ) (iter : α → Option (List σ))
    (field : ρ → τ → Option (FieldVal α)) (modes : List τ) (edgeAttribute : τ) (nodeAttribute : Option τ) :
    MultiNet ν σ × Attribs ν σ → List ρ → Except Err (MultiNet ν σ × Attribs ν σ)
  | st, [] => .ok st
  | (g, s), r :: recs =>
    match attrVals str iter (field r edgeAttribute) with
    | .error e => .error e
    | .ok edgeVals =>
      match newVals str iter field nodeAttribute r s with
      | .error e => .error e
      | .ok (s, addr) =>
        match levelLoop (bumpKeys edgeWeight edgeVals) (countMulti nodeCount) addr g s (contentsOf ident field modes r) with
        | .error e => .error e
        | .ok st => networkMultiLevelKeyed nodeCount edgeWeight ident str iter field modes edgeAttribute nodeAttribute st recs

/-- `CollectionWithIDs.networkOneMode` without `edgeAttribute` (mkCollection.py:966-1001). -/
def networkOneMode (nodeCount edgeWeight : Bool) (ident : α → ν) (str : α → σ) (iter : α → Option (List σ))
    (field : ρ → τ → Option (FieldVal α)) (mode : τ) (nodeAttribute : Option τ) (recs : List ρ) :
    Except Err (Net ν × Attribs ν σ) :=
  networkMultiLevel nodeCount edgeWeight ident str iter field [mode] nodeAttribute (Graph.empty false, ⟨[], []⟩) recs

/-- `CollectionWithIDs.networkOneMode` with `edgeAttribute` (mkCollection.py:966-1001). -/
def networkOneModeKeyed (nodeCount edgeWeight : Bool) (ident : α → ν) (str : α → σ) (iter : α → Option (List σ))
    (field : ρ → τ → Option (FieldVal α)) (mode : τ) (edgeAttribute : τ) (nodeAttribute : Option τ) (recs : List ρ) :
    Except Err (MultiNet ν σ × Attribs ν σ) :=
  networkMultiLevelKeyed nodeCount edgeWeight ident str iter field [mode] edgeAttribute nodeAttribute
    (MultiGraph.empty false, ⟨[], []⟩) recs

/-- The values of the edge tag in `networkTwoMode` (mkCollection.py:1089-1092); they are not made strings. -/
def twoModeVals : Option (FieldVal α) → List α
  | none => []
  | some (.list vs) => vs
  | some (.single v) => [v]

/-- One record of `networkTwoMode` with `edgeAttribute` (mkCollection.py:1107-1172). -/
def twoModeKeyedRecord [DecidableEq α] (nodeCount edgeWeight recordType : Bool) (tag1 tag2 : String) (edgeVals : List α)
    (g : MultiNet ν α) (contents1 contents2 : List ν) : MultiNet ν α :=
  let g := contents1.foldl (fun g node1 =>
    let g := contents2.foldl (fun g node2 =>
      edgeVals.foldl (fun g edgeVal => MultiGraph.bump edgeWeight g node1 node2 edgeVal) g) g
    g.setNode node1 (tag1Node nodeCount recordType tag1 (g.node? node1))) g
  contents2.foldl (fun g node2 => g.setNode node2 (tag2Node nodeCount recordType tag2 (g.node? node2))) g

/-- `CollectionWithIDs.networkTwoMode` with `edgeAttribute` (mkCollection.py:1003-1175). -/
def networkTwoModeKeyed [DecidableEq α] (directed nodeCount edgeWeight recordType : Bool) (ident1 ident2 : α → ν)
    (field : ρ → String → Option (FieldVal α)) (tag1 tag2 edgeAttribute : String) (recs : List ρ) : MultiNet ν α :=
  recs.foldl (fun g r => twoModeKeyedRecord nodeCount edgeWeight recordType tag1 tag2 (twoModeVals (field r edgeAttribute)) g
    (twoModeContents ident1 (field r tag1)) (twoModeContents ident2 (field r tag2))) (MultiGraph.empty directed)

/-- The edges from one value in `networkMultiMode` with `edgeAttribute` (mkCollection.py:1258-1261): `edgeVals` is not set in
this function, so the first edge raises. -/
def modeEdgesFrom (rest : List (String × List ν)) (g : MultiNet ν σ) : Except Err (MultiNet ν σ) :=
  if rest.all (fun vlst2 => vlst2.2.isEmpty) then .ok g else .error .nameError

/-- The values of one tag of a record (mkCollection.py:1257-1305). -/
def multiModeKeyedNodes (nodeCount recordType : Bool) (tag : String) (rest : List (String × List ν)) :
    MultiNet ν σ → List ν → Except Err (MultiNet ν σ)
  | g, [] => .ok g
  | g, node1 :: nodes =>
    match modeEdgesFrom rest g with
    | .error e => .error e
    | .ok g =>
      multiModeKeyedNodes nodeCount recordType tag rest
        (g.setNode node1 (multiModeNode nodeCount recordType tag (g.node? node1))) nodes

/-- The loops over one record of `networkMultiMode` with `edgeAttribute` (mkCollection.py:1256-1305). -/
def multiModeKeyedRecord (nodeCount recordType : Bool) : MultiNet ν σ → List (String × List ν) → Except Err (MultiNet ν σ)
  | g, [] => .ok g
  | g, vlst1 :: rest =>
    match multiModeKeyedNodes nodeCount recordType vlst1.1 rest g vlst1.2 with
    | .error e => .error e
    | .ok g => multiModeKeyedRecord nodeCount recordType g rest

/-- `CollectionWithIDs.networkMultiMode` with `edgeAttribute` (mkCollection.py:1177-1308). -/
def networkMultiModeKeyed (nodeCount recordType : Bool) (falsy : α → Bool) (ident : α → ν)
    (field : ρ → String → Option (FieldVal α)) (tags : List String) : MultiNet ν σ → List ρ → Except Err (MultiNet ν σ)
  | g, [] => .ok g
  | g, r :: recs =>
    match multiModeKeyedRecord nodeCount recordType g (multiModeContents falsy ident field tags r) with
    | .error e => .error e
    | .ok g => networkMultiModeKeyed nodeCount recordType falsy ident field tags g recs

end Verif.Model.NetworkAttrs
