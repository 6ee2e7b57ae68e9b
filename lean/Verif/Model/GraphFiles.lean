import Verif.Py.Csv
import Verif.Py.Graph

/-!
# Model of `writeGraph` and `readGraph` of `metaknowledge/graphHelpers.py`

Graphs with strings as node names and attribute dictionaries whose values are integers or strings (other values are left out). A file is
its text; encodings, paths, the check for existing files and the fallback for characters the encoding lacks are left out. The header columns
come from a Python set: `order` is its iteration order, any order of the attribute names. `add_node(n, **attributes)` clashes with
attribute names such as `self`; that is left out.
-/
set_option autoImplicit false
namespace Verif.Model.GraphFiles
open Verif.Py Verif.Py.Graph

abbrev Attrs := Dict Str Cell
abbrev G := Graph Str Attrs Attrs

/-- The exceptions raised. -/
inductive FErr where
  | attributeError | unboundLocalError | keyError
deriving DecidableEq, Repr

def kSource : Str := ['S', 'o', 'u', 'r', 'c', 'e']
def kTarget : Str := ['T', 'a', 'r', 'g', 'e', 't']
def kID : Str := ['I', 'D']

/-- `csv.DictWriter.writerow`: a missing key is written as an empty string. -/
def dictRow (header : List Str) (d : Attrs) : List Cell := header.map (fun k => (d.get? k).getD (.str []))

/-- A `csv.DictWriter` file. -/
def dictFile (header : List Str) (ds : List Attrs) : Str := Csv.rows (header.map Cell.str :: ds.map (dictRow header))

/-- `writeEdgeList` (graphHelpers.py:172-267): `grph.edges(data = True).__next__` does not exist, and without `extraInfo` the dictionary
`eDict` is used before it is made. -/
def writeEdgeList (extraInfo allSame : Bool) (order : List Str) (g : G) : Except FErr Str :=
  if g.edges.isEmpty then .ok ['"', 'S', 'o', 'u', 'r', 'c', 'e', '"', ',', '"', 'T', 'a', 'r', 'g', 'e', 't', '"', '\n']
  else if extraInfo then
    if allSame then .error .attributeError
    else .ok (dictFile (kSource :: kTarget :: order)
      (g.edges.map (fun e => (e.2.set kSource (.str e.1.1)).set kTarget (.str e.1.2))))
  else .error .unboundLocalError

/-- `writeNodeAttributeFile` (graphHelpers.py:269-342). -/
def writeNodeAttributeFile (allSame : Bool) (order : List Str) (g : G) : Except FErr Str :=
  if g.nodes.isEmpty then .ok ['I', 'D', '\n']
  else if allSame then .error .attributeError
  else .ok (dictFile (kID :: order) (g.nodes.map (fun n => n.2.set kID (.str n.1))))

/-- `writeGraph` (graphHelpers.py:96-170): the texts of the edge list and of the node file. -/
def writeGraph (edgeInfo allSame : Bool) (edgeOrder nodeOrder : List Str) (g : G) : Except FErr (Str × Str) := do
  let e ← writeEdgeList edgeInfo allSame edgeOrder g
  let n ← writeNodeAttributeFile allSame nodeOrder g
  return (e, n)

/-- The values read, all strings. -/
def strs (d : Dict Str Str) : Attrs := d.map (fun p => (p.1, .str p.2))

/-- One line of the node file (graphHelpers.py:66-73). -/
def readNode (idKey : Str) (g : G) (vals : Dict Str Str) : Except FErr G :=
  match vals.get? idKey with
  | none => .error .keyError
  | some nd => .ok (g.setNode nd (((g.node? nd).getD []).update (strs (vals.erase idKey))))

/-- One line of the edge file (graphHelpers.py:78-88). -/
def readEdge (eSource eDest : Str) (g : G) (vals : Dict Str Str) : Except FErr G :=
  match vals.get? eSource, vals.get? eDest with
  | some u, some v =>
    .ok (g.setEdge u v (((g.edge? u v).getD []).update (strs ((vals.erase eSource).erase eDest))))
  | _, _ => .error .keyError

/-- `readGraph` (graphHelpers.py:11-94). -/
def readGraph (directed : Bool) (idKey eSource eDest : Str) (edgeText : Str) (nodeText : Option Str) : Except FErr G := do
  let g ← match nodeText with
    | some t => (Csv.dictRead t).foldlM (readNode idKey) (Graph.empty directed)
    | none => .ok (Graph.empty directed)
  (Csv.dictRead edgeText).foldlM (readEdge eSource eDest) g

end Verif.Model.GraphFiles
