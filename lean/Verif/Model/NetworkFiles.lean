import Verif.Model.Pipeline
import Verif.Model.FileTables
import Verif.Model.GraphHelpers
import Verif.Model.GraphFiles
import Mathlib.Data.List.Dedup

/-!
# From a Web of Science file to the saved files of a network with its weak edges dropped

The usual way to work: `G = RecordCollection(file).networkCoAuthor()` (or another network), `dropEdges(G, minWeight = …)`, `writeGraph(G, name)`, and later `readGraph`. The
graphs of the network functions, whose attributes are the model's records, are given the attribute dictionaries networkx has.
-/
set_option autoImplicit false
namespace Verif.Model.NetworkFiles
open Verif.Py Verif.Model.Wos Verif.Model.WosFields Verif.Model.RecordAccess Verif.Model.Pipeline

/-- The attributes of an edge: `weight` when there are weights (recordCollection.py:1042-1053, mkCollection.py:1100-1130). -/
def edgeAttrs : Option Nat → GraphHelpers.Attrs
  | none => []
  | some w => [("weight", .num w)]

/-- The attributes of an author without detailed information: `count` when counted (recordCollection.py:1027-1041). -/
def authorAttrs (a : CoNetworks.CoAttr Unit) : GraphHelpers.Attrs :=
  match a.count with
  | none => []
  | some c => [("count", .num c)]

/-- The attributes of a node of a network of tags: `count` and `type` when asked for (mkCollection.py:1085-1130). -/
def tagAttrs (a : Networks.NodeAttr) : GraphHelpers.Attrs :=
  (match a.type with
    | none => []
    | some t => [("type", .str t)]) ++
  (match a.count with
    | none => []
    | some c => [("count", .num c)])

/-- The same graph with other attributes. -/
def dress {A B A' B' : Type} (fa : A → A') (fb : B → B') (g : Graph Str A B) : Graph Str A' B' :=
  ⟨g.directed, g.nodes.map (fun n => (n.1, fa n.2)), g.edges.map (fun e => (e.1, fb e.2))⟩

/-- Attributes as `writeGraph` writes them. -/
def cell : GraphHelpers.Val → Cell
  | .num n => .num n
  | .str s => .str s.toList

def cells (a : GraphHelpers.Attrs) : GraphFiles.Attrs := a.map (fun p => (p.1.toList, cell p.2))

/-- Attributes that were read. -/
def uncell : Cell → GraphHelpers.Val
  | .num n => .num n
  | .str s => .str (String.ofList s)

def uncells (a : GraphFiles.Attrs) : GraphHelpers.Attrs := a.map (fun p => (String.ofList p.1, uncell p.2))

/-- The names of the attributes, a set: each once, in an order that is not known (graphHelpers.py:218-224, 310-316). -/
def columns (shuffle : List Str → List Str) (items : List GraphFiles.Attrs) : List Str := shuffle (items.flatMap Dict.keys).dedup

/-- An exception of `dropEdges` or of `writeGraph`. -/
inductive SErr where
  | graph (e : GraphHelpers.GErr)
  | file (e : GraphFiles.FErr)
deriving DecidableEq, Repr

/-- `dropEdges(G, minWeight, maxWeight, ignoreUnweighted, dropSelfLoops)` (graphHelpers.py:497-561), which changes the graph, and `writeGraph(G, name)`
(graphHelpers.py:96-170): the texts of the edge list and of the node file. -/
def save (shuffle : List Str → List Str) (lo hi : Option Int) (ignoreUnweighted dropSelfLoops : Bool) (g : GraphHelpers.G Str) : Except SErr (Str × Str) :=
  match GraphHelpers.dropEdges lo hi "weight" ignoreUnweighted dropSelfLoops g with
  | (_, some e) => .error (.graph e)
  | (g', none) =>
    let h : GraphFiles.G := dress cells cells g'
    match GraphFiles.writeGraph true false (columns shuffle (h.edges.map Prod.snd)) (columns shuffle (h.nodes.map Prod.snd)) h with
    | .ok files => .ok files
    | .error e => .error (.file e)

/-- `readGraph(edgeList, nodeList, directed)` of the two files (graphHelpers.py:11-94). -/
def load (directed : Bool) (files : Str × Str) : Except GraphFiles.FErr GraphFiles.G :=
  GraphFiles.readGraph directed GraphFiles.kID GraphFiles.kSource GraphFiles.kTarget files.1 (some files.2)

/-- The saved network of co-authors of a file. -/
def coAuthorFiles (W : World) (before : Wos.Rec → List (Op String FVal)) (order : List Wos.Rec → List Wos.Rec) (shuffle : List Str → List Str) (useShort count : Bool)
    (lo hi : Option Int) (ignoreUnweighted dropSelfLoops : Bool) (text : Str) : Option (Except AErr (Except SErr (Str × Str))) :=
  (coAuthors W before order useShort true count text).map (fun res => res.map (fun g => save shuffle lo hi ignoreUnweighted dropSelfLoops (dress authorAttrs edgeAttrs g)))

/-- The saved two-mode network of a file. -/
def twoModeFiles (W : World) (before : Wos.Rec → List (Op String FVal)) (order : List Wos.Rec → List Wos.Rec) (shuffle : List Str → List Str)
    (directed nodeCount recordType : Bool) (tag1 tag2 : String) (lo hi : Option Int) (ignoreUnweighted dropSelfLoops : Bool) (text : Str) :
    Option (Except AErr (Except SErr (Str × Str))) :=
  (FileTables.twoMode W before order directed nodeCount true recordType tag1 tag2 text).map (fun res => res.map (fun g =>
    save shuffle lo hi ignoreUnweighted dropSelfLoops (dress tagAttrs edgeAttrs g)))

/-- The graph that was read, given to `dropEdges` again. -/
def dropAgain (lo hi : Option Int) (ignoreUnweighted dropSelfLoops : Bool) (g : GraphFiles.G) : GraphHelpers.G Str × Option GraphHelpers.GErr :=
  GraphHelpers.dropEdges lo hi "weight" ignoreUnweighted dropSelfLoops (dress uncells uncells g)

end Verif.Model.NetworkFiles
