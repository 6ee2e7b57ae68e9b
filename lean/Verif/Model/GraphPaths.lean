import Verif.Py.Path
import Verif.Spec.Paths
import Verif.Model.GraphFiles

/-!
# Model of the files of `writeGraph` and `readGraph` of `metaknowledge/graphHelpers.py`

The texts are those of `Verif.Model.GraphFiles`; here they go into a file system. `home` gives the home directories `os.path.expanduser` looks
up, `cwd` is the current directory. Simplified: no symbolic links; a file can be written if its directory exists and it is not a directory
itself, whatever else could prevent it; a file that is open when an exception leaves the function is closed, with what was written in it.
-/
set_option autoImplicit false
namespace Verif.Model.GraphPaths
open Verif.Py Verif.Py.Graph Verif.Spec.Paths Verif.Model.GraphFiles

/-- The exceptions: `OSError`, and those of the writers and readers. -/
inductive Err where
  | osError
  | inner (e : FErr)
deriving DecidableEq, Repr

/-- `open(path, 'w')`, with what is then written; `none` is an `OSError`. -/
def openWrite {τ : Type} (fs : FS τ) (l : Loc) (text : τ) : Option (FS τ) :=
  if l ≠ [] ∧ fs.dir l = false ∧ fs.dir l.dropLast = true then some { fs with file := fun m => if m = l then some text else fs.file m }
  else none

/-- What a writer does: the text it puts into its file, if it gets as far as opening it, and the exception that ends it. -/
abbrev Effect := Option Str × Option FErr

/-- `writeEdgeList` (graphHelpers.py:207-265): without `extraInfo` the file is opened and its header is written before the first edge raises. -/
def edgeEffect (extraInfo allSame : Bool) (order : List Str) (g : G) : Effect :=
  match writeEdgeList extraInfo allSame order g with
  | .ok t => (some t, none)
  | .error e => (if extraInfo then none else some (dictFile [kSource, kTarget] []), some e)

/-- `writeNodeAttributeFile` (graphHelpers.py:300-342): the exception comes before the file is opened. -/
def nodeEffect (allSame : Bool) (order : List Str) (g : G) : Effect :=
  match writeNodeAttributeFile allSame order g with
  | .ok t => (some t, none)
  | .error e => (none, some e)

/-- A writer with the place of its file. -/
def effectAt (fs : FS) (l : Loc) (e : Effect) : FS × Option Err :=
  match e.1 with
  | none => (fs, e.2.map .inner)
  | some t =>
    match openWrite fs l t with
    | none => (fs, some .osError)
    | some fs' => (fs', e.2.map .inner)

/-- `grphType` (graphHelpers.py:143-149). -/
def grphType (typing directed : Bool) : Str :=
  if typing then (if directed then "_directed".toList else "_undirected".toList) else []

/-- The names of the two files, `kind` being `edgeList` or `nodeAttributes` (graphHelpers.py:150-162). -/
def fileName (home : Str → Option Str) (name kind typ suffix : Str) : Str :=
  let n := Path.split (Path.expanduser home (Path.normpath name))
  if n.1 = [] ∧ n.2 = [] then kind ++ typ ++ ['.'] ++ suffix
  else if n.1 = [] then n.2 ++ ['_'] ++ kind ++ typ ++ ['.'] ++ suffix
  else if n.2 = [] then Path.join n.1 (kind ++ typ ++ ['.'] ++ suffix)
  else Path.join n.1 (n.2 ++ ['_'] ++ kind ++ typ ++ ['.'] ++ suffix)

/-- The options of `writeGraph`, `allSame` being `allSameAttribute`. -/
structure Opts where
  edgeInfo : Bool
  typing : Bool
  suffix : Str
  overwrite : Bool
  allSame : Bool

/-- The edge list is opened at `os.path.expanduser(os.path.abspath(name))` (graphHelpers.py:208, 232), and so is the node list of a graph without
nodes (graphHelpers.py:301). -/
def openedAbs (home : Str → Option Str) (cwd : Loc) (path : Str) : Loc := walk cwd (Path.expanduser home (Path.abspath cwd path))

/-- The node list is otherwise opened under its name (graphHelpers.py:322). -/
def openedNodes (home : Str → Option Str) (cwd : Loc) (g : G) (path : Str) : Loc :=
  if g.nodes.isEmpty then openedAbs home cwd path else walk cwd path

/-- `writeGraph` (graphHelpers.py:96-170). -/
def writeGraph (home : Str → Option Str) (cwd : Loc) (o : Opts) (name : Str) (edgeOrder nodeOrder : List Str) (g : G) (fs : FS) :
    FS × Option Err :=
  let typ := grphType o.typing g.directed
  let edgeListName := fileName home name "edgeList".toList typ o.suffix
  let nodesAtrName := fileName home name "nodeAttributes".toList typ o.suffix
  if o.overwrite = false ∧ (fs.file (walk cwd edgeListName)).isSome then (fs, some .osError)
  else if o.overwrite = false ∧ (fs.file (walk cwd nodesAtrName)).isSome then (fs, some .osError)
  else
    match effectAt fs (openedAbs home cwd edgeListName) (edgeEffect o.edgeInfo o.allSame edgeOrder g) with
    | (fs', some e) => (fs', some e)
    | (fs', none) => effectAt fs' (openedNodes home cwd g nodesAtrName) (nodeEffect o.allSame nodeOrder g)

/-- `open(os.path.expanduser(os.path.abspath(path)))` for reading (graphHelpers.py:68, 80). -/
def openRead (home : Str → Option Str) (cwd : Loc) (fs : FS) (path : Str) : Except Err Str :=
  match fs.file (openedAbs home cwd path) with
  | some t => .ok t
  | none => .error .osError

/-- `readGraph` (graphHelpers.py:11-94) with both files given by path and the default names of the columns. -/
def readGraph (home : Str → Option Str) (cwd : Loc) (fs : FS) (directed : Bool) (edgeList nodeList : Str) : Except Err G := do
  let n ← openRead home cwd fs nodeList
  match (Csv.dictRead n).foldlM (readNode kID) (Graph.empty directed) with
  | .error x => .error (.inner x)
  | .ok g =>
    let e ← openRead home cwd fs edgeList
    match (Csv.dictRead e).foldlM (readEdge kSource kTarget) g with
    | .error x => .error (.inner x)
    | .ok g => .ok g

end Verif.Model.GraphPaths
