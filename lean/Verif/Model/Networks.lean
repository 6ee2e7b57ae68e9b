import Verif.Py.GraphEvents
import Verif.Model.Series

/-!
# Model of the network functions of `metaknowledge/mkCollection.py`

`networkMultiLevel`, `networkOneMode`, `networkTwoMode`, `networkMultiMode`. Records are as in `Verif.Model.Series`; the
list of records is the collection in its iteration order. `ident` stands for `stemmer(str(v))`, or `str(v)` without a
stemmer. The options `edgeAttribute` and `nodeAttribute` are in
`Verif.Model.NetworkAttrs`. Left out: the checks that arguments are strings or callable, the progress bar. A field whose
value is `None`, as a short row of a csv file gives it for a grant, is a missing field for `networkTwoMode` and
`networkMultiMode`; for `networkMultiLevel` and `networkOneMode` it is the single value `None`, whose name is `'None'`.
-/
set_option autoImplicit false
namespace Verif.Model.Networks
open Verif.Py Verif.Model.Series

/-- The attributes `'count'` and `'type'` of a node, `none` when missing. -/
structure NodeAttr where
  count : Option Nat
  type : Option String
deriving DecidableEq, Repr

/-- A node without attributes. -/
instance : Inhabited NodeAttr := ⟨⟨none, none⟩⟩

variable {ρ α ν : Type} [DecidableEq ν]
abbrev Net (ν : Type) := Graph ν NodeAttr (Option Nat)

/-- Counting a node in `networkMultiLevel` (mkCollection.py:906-912 and, for a single value, 922-929). -/
def countNode (nodeCount : Bool) (g : Net ν) (n : ν) : Net ν :=
  let g := g.touch n
  if nodeCount then
    match g.node? n with
    | some a => g.setNode n { a with count := some (a.count.getD 0 + 1) }
    | none => g
  else g

/-- The nested loops over the values of one record (mkCollection.py:882-912), and the case of one value (921-929),
which is the same loop without edges. -/
def multiLevelRecord (nodeCount edgeWeight : Bool) : Net ν → List ν → Net ν
  | g, [] => g
  | g, node1 :: rest =>
    let g := rest.foldl (fun g node2 => Graph.bumpEdge edgeWeight g node1 node2) g
    multiLevelRecord nodeCount edgeWeight (countNode nodeCount g node1) rest

/-- The values of one record over all modes (mkCollection.py:868-880). -/
def contentsOf {τ : Type} (ident : α → ν) (field : ρ → τ → Option (FieldVal α)) (modes : List τ) (r : ρ) : List ν :=
  (modes.foldl (fun contents attr =>
    match field r attr with
    | none => contents
    | some (.list vs) => contents ++ vs
    | some (.single v) => contents ++ [v]) []).map ident

/-- `CollectionWithIDs.networkMultiLevel` (mkCollection.py:808-963). -/
def networkMultiLevel {τ : Type} (nodeCount edgeWeight : Bool) (ident : α → ν) (field : ρ → τ → Option (FieldVal α))
    (modes : List τ) (recs : List ρ) : Net ν :=
  recs.foldl (fun g r => multiLevelRecord nodeCount edgeWeight g (contentsOf ident field modes r)) (Graph.empty false)

/-- `CollectionWithIDs.networkOneMode` (mkCollection.py:966-1001). -/
def networkOneMode {τ : Type} (nodeCount edgeWeight : Bool) (ident : α → ν) (field : ρ → τ → Option (FieldVal α))
    (mode : τ) (recs : List ρ) : Net ν := networkMultiLevel nodeCount edgeWeight ident field [mode] recs

/-- The node update for a value of the first tag (mkCollection.py:1128-1149): when the node is not in the graph yet it is
added without a count. -/
def tag1Node (nodeCount recordType : Bool) (tag : String) (o : Option NodeAttr) : NodeAttr :=
  if nodeCount then
    match o with
    | some a =>
      match a.count with
      | some n => { a with count := some (n + 1) }
      | none => { count := some 1, type := if recordType then some tag else a.type }
    | none => if recordType then { count := none, type := some tag } else { count := none, type := none }
  else
    match o with
    | none => if recordType then { count := none, type := some tag } else { count := none, type := none }
    | some a => if recordType && a.type.isNone then { a with type := some tag } else a

/-- The node update for a value of the second tag (mkCollection.py:1151-1172). -/
def tag2Node (nodeCount recordType : Bool) (tag : String) (o : Option NodeAttr) : NodeAttr :=
  if nodeCount then
    match o with
    | some a =>
      match a.count with
      | some n => { a with count := some (n + 1) }
      | none => { count := some 1, type := if recordType then some tag else a.type }
    | none => { count := some 1, type := if recordType then some tag else none }
  else
    match o with
    | none => if recordType then { count := none, type := some tag } else { count := none, type := none }
    | some a => if recordType && a.type.isNone then { a with type := some tag } else a

/-- The values of a tag in `networkTwoMode` (mkCollection.py:1093-1106). -/
def twoModeContents (ident : α → ν) : Option (FieldVal α) → List ν
  | some (.list vs) => vs.map ident
  | none => []
  | some (.single v) => [ident v]

/-- One record of `networkTwoMode` (mkCollection.py:1107-1172). -/
def twoModeRecord (nodeCount edgeWeight recordType : Bool) (tag1 tag2 : String) (g : Net ν) (contents1 contents2 : List ν) :
    Net ν :=
  let g := contents1.foldl (fun g node1 =>
    let g := contents2.foldl (fun g node2 => Graph.bumpEdge edgeWeight g node1 node2) g
    g.setNode node1 (tag1Node nodeCount recordType tag1 (g.node? node1))) g
  contents2.foldl (fun g node2 => g.setNode node2 (tag2Node nodeCount recordType tag2 (g.node? node2))) g

/-- `CollectionWithIDs.networkTwoMode` (mkCollection.py:1003-1175). -/
def networkTwoMode (directed nodeCount edgeWeight recordType : Bool) (ident1 ident2 : α → ν)
    (field : ρ → String → Option (FieldVal α)) (tag1 tag2 : String) (recs : List ρ) : Net ν :=
  recs.foldl (fun g r => twoModeRecord nodeCount edgeWeight recordType tag1 tag2 g
    (twoModeContents ident1 (field r tag1)) (twoModeContents ident2 (field r tag2))) (Graph.empty directed)

/-- The node update of `networkMultiMode` (mkCollection.py:1282-1305): with counting as for a first tag above; without
counting the type strings are joined together. -/
def multiModeNode (nodeCount recordType : Bool) (tag : String) (o : Option NodeAttr) : NodeAttr :=
  if nodeCount then
    match o with
    | some a =>
      match a.count with
      | some n => { a with count := some (n + 1) }
      | none => { count := some 1, type := if recordType then some tag else a.type }
    | none => if recordType then { count := none, type := some tag } else { count := none, type := none }
  else
    match o with
    | none => if recordType then { count := none, type := some tag } else { count := none, type := none }
    | some a =>
      if recordType then
        match a.type with
        | some t => { a with type := some (t ++ tag) }
        | none => { a with type := some tag }
      else a

/-- `if tmpVal:` and the list of values of each tag (mkCollection.py:1241-1255). `falsy` tells which single values are
false in Python. -/
def multiModeContents (falsy : α → Bool) (ident : α → ν) (field : ρ → String → Option (FieldVal α)) (tags : List String)
    (r : ρ) : List (String × List ν) :=
  tags.foldl (fun contents t =>
    match field r t with
    | none => contents
    | some (.list vs) => if vs.isEmpty then contents else contents ++ [(t, vs.map ident)]
    | some (.single v) => if falsy v then contents else contents ++ [(t, [ident v])]) []

/-- The loops over one record (mkCollection.py:1256-1305). -/
def multiModeRecord (nodeCount edgeWeight recordType : Bool) : Net ν → List (String × List ν) → Net ν
  | g, [] => g
  | g, vlst1 :: rest =>
    let g := vlst1.2.foldl (fun g node1 =>
      let g := rest.foldl (fun g vlst2 => vlst2.2.foldl (fun g node2 => Graph.bumpEdge edgeWeight g node1 node2) g) g
      g.setNode node1 (multiModeNode nodeCount recordType vlst1.1 (g.node? node1))) g
    multiModeRecord nodeCount edgeWeight recordType g rest

/-- `CollectionWithIDs.networkMultiMode` (mkCollection.py:1177-1308). -/
def networkMultiMode (nodeCount edgeWeight recordType : Bool) (falsy : α → Bool) (ident : α → ν)
    (field : ρ → String → Option (FieldVal α)) (tags : List String) (recs : List ρ) : Net ν :=
  recs.foldl (fun g r => multiModeRecord nodeCount edgeWeight recordType g (multiModeContents falsy ident field tags r))
    (Graph.empty false)

end Verif.Model.Networks
