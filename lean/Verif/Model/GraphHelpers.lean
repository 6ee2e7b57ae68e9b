import Verif.Py.Graph

/-!
# Model of `metaknowledge/graphHelpers.py`: dropping, merging, degrees, tnet files

A graph is a networkx `Graph` or `DiGraph` whose nodes and edges carry attribute dictionaries; attribute values are integers or
strings (floats are left out, except for the infinite bounds). `G.edges(data = True)` is the list of edges of the model; networkx reports an
undirected edge in one of its two orientations, and a model graph may store it in either. Progress bars are left out. Functions
that change the graph and may raise return the graph as they leave it and the exception.
-/
set_option autoImplicit false
namespace Verif.Model.GraphHelpers
open Verif.Py Verif.Py.Graph

/-- An attribute value. -/
inductive Val where
  | num (n : Int)
  | str (s : String)
deriving DecidableEq, Repr

abbrev Attrs := Dict String Val
abbrev G (ν : Type) := Graph ν Attrs Attrs

/-- The exceptions raised. -/
inductive GErr where
  | keyError | typeError | valueError | attributeError | indexError
deriving DecidableEq, Repr

variable {ν : Type} [DecidableEq ν]

/-- `val < lo`, where `none` is minus infinity. -/
def below (lo : Option Int) (n : Int) : Bool :=
  match lo with
  | none => false
  | some l => n < l

/-- `val > hi`, where `none` is infinity. -/
def above (hi : Option Int) (n : Int) : Bool :=
  match hi with
  | none => false
  | some h => n > h

/-- `G.remove_edges_from(es)` (missing edges are ignored). -/
def removeEdges (g : G ν) (es : List (ν × ν)) : G ν :=
  { g with edges := g.edges.filter (fun e => !es.any (fun p => sameEdge g.directed p e.1)) }

/-- `G.remove_nodes_from(ns)`: with the edges that touch them. -/
def removeNodes (g : G ν) (ns : List ν) : G ν :=
  { g with
    nodes := g.nodes.filter (fun p => p.1 ∉ ns)
    edges := g.edges.filter (fun e => e.1.1 ∉ ns && e.1.2 ∉ ns) }

/-- The loop of `dropEdges` (graphHelpers.py:543-558): the edges to drop, or the exception. -/
def dropLoop (lo hi : Option Int) (param : String) (ignoreUnweighted : Bool) :
    List ((ν × ν) × Attrs) → List (ν × ν) → Except GErr (List (ν × ν))
  | [], toDrop => .ok toDrop
  | e :: rest, toDrop =>
    match e.2.get? param with
    | none => if !ignoreUnweighted then .error .keyError else dropLoop lo hi param ignoreUnweighted rest toDrop
    | some (.str _) => .error .typeError
    | some (.num n) =>
      if above hi n || below lo n then dropLoop lo hi param ignoreUnweighted rest (toDrop ++ [e.1])
      else dropLoop lo hi param ignoreUnweighted rest toDrop

/-- `dropEdges` (graphHelpers.py:497-561). -/
def dropEdges (lo hi : Option Int) (param : String) (ignoreUnweighted dropSelfLoops : Bool) (g : G ν) : G ν × Option GErr :=
  let g := if dropSelfLoops then removeEdges g ((g.edges.filter (fun e => e.1.1 = e.1.2)).map Prod.fst) else g
  if lo.isSome || hi.isSome then
    match dropLoop lo hi param ignoreUnweighted g.edges [] with
    | .error e => (g, some e)
    | .ok es => (removeEdges g es, none)
  else (removeEdges g [], none)

/-- `G.edges(n)`: the edges of a node; only those going out when the graph is directed. -/
def edgesOf (g : G ν) (n : ν) : List ((ν × ν) × Attrs) :=
  g.edges.filter (fun e => e.1.1 = n || (!g.directed && decide (e.1.2 = n)))

/-- The sum of weights of `dropNodesByDegree` (graphHelpers.py:610-618). -/
def weightSum (param : String) (includeUnweighted : Bool) : List ((ν × ν) × Attrs) → Int → Except GErr Int
  | [], val => .ok val
  | e :: rest, val =>
    match e.2.get? param with
    | none => if !includeUnweighted then .error .keyError else weightSum param includeUnweighted rest (val + 1)
    | some (.str _) => .error .typeError
    | some (.num w) => weightSum param includeUnweighted rest (val + w)

/-- The loop of `dropNodesByDegree` (graphHelpers.py:603-622). -/
def degreeLoop (lo hi : Option Int) (useWeight : Bool) (param : String) (includeUnweighted : Bool) (g : G ν) :
    List ν → List ν → Except GErr (List ν)
  | [], badNodes => .ok badNodes
  | n :: rest, badNodes => do
    let val ← (if useWeight then weightSum param includeUnweighted (edgesOf g n) 0 else .ok ((edgesOf g n).length : Int))
    if below lo val || above hi val then degreeLoop lo hi useWeight param includeUnweighted g rest (badNodes ++ [n])
    else degreeLoop lo hi useWeight param includeUnweighted g rest badNodes

/-- `dropNodesByDegree` (graphHelpers.py:563-628). -/
def dropNodesByDegree (lo hi : Option Int) (useWeight : Bool) (param : String) (includeUnweighted : Bool) (g : G ν) :
    G ν × Option GErr :=
  match degreeLoop lo hi useWeight param includeUnweighted g g.nodes.keys [] with
  | .error e => (g, some e)
  | .ok bad => (removeNodes g bad, none)

/-- The loop of `dropNodesByCount` (graphHelpers.py:668-684). -/
def countLoop (lo hi : Option Int) (param : String) (ignoreMissing : Bool) : List (ν × Attrs) → List ν → Except GErr (List ν)
  | [], badNodes => .ok badNodes
  | n :: rest, badNodes =>
    match n.2.get? param with
    | none => if !ignoreMissing then .error .keyError else countLoop lo hi param ignoreMissing rest badNodes
    | some (.str _) => .error .typeError
    | some (.num c) =>
      if below lo c || above hi c then countLoop lo hi param ignoreMissing rest (badNodes ++ [n.1])
      else countLoop lo hi param ignoreMissing rest badNodes

/-- `dropNodesByCount` (graphHelpers.py:631-689). -/
def dropNodesByCount (lo hi : Option Int) (param : String) (ignoreMissing : Bool) (g : G ν) : G ν × Option GErr :=
  match countLoop lo hi param ignoreMissing g.nodes [] with
  | .error e => (g, some e)
  | .ok bad => (removeNodes g bad, none)

/-- `a += b` on attribute values. -/
def addVal : Val → Val → Except GErr Val
  | .num a, .num b => .ok (.num (a + b))
  | .str a, .str b => .ok (.str (a ++ b))
  | _, _ => .error .typeError

/-- `target[key] += attribs[key]`; `none` when one of the lookups raises `KeyError`. -/
def incrAttr (key : String) (target : Option Attrs) (attribs : Attrs) : Except GErr (Option Attrs) :=
  match target with
  | none => .ok none
  | some t =>
    match t.get? key, attribs.get? key with
    | some a, some b => do
      let s ← addVal a b
      return some (t.set key s)
    | _, _ => .ok none

/-- `G.add_node(n, **attribs)` -/
def addNode (g : G ν) (n : ν) (attribs : Attrs) : G ν := g.setNode n (((g.node? n).getD []).update attribs)

/-- `G.add_edge(u, v, **attribs)` -/
def addEdge (g : G ν) (u v : ν) (attribs : Attrs) : G ν := g.setEdge u v (((g.edge? u v).getD []).update attribs)

/-- One node of `mergeGraphs` (graphHelpers.py:714-722). `key = none` stands for a false `incrementedNodeVal`. -/
def mergeNode (key : Option String) (g : G ν) (n : ν × Attrs) : Except GErr (G ν) :=
  match key with
  | some key => do
    match ← incrAttr key (g.node? n.1) n.2 with
    | some a => return g.setNode n.1 a
    | none => return addNode g n.1 n.2
  | none => if g.hasNode n.1 then .ok g else .ok (addNode g n.1 n.2)

/-- One edge of `mergeGraphs` (graphHelpers.py:723-731): a false `incrementedEdgeVal` raises, since a graph has no attribute `Graph`. -/
def mergeEdge (key : Option String) (g : G ν) (e : (ν × ν) × Attrs) : Except GErr (G ν) :=
  match key with
  | some key => do
    match ← incrAttr key (g.edge? e.1.1 e.1.2) e.2 with
    | some a => return g.setEdge e.1.1 e.1.2 a
    | none => return addEdge g e.1.1 e.1.2 e.2
  | none => .error .attributeError

/-- `mergeGraphs` (graphHelpers.py:691-732), for two different graphs. -/
def mergeGraphs (nodeKey edgeKey : Option String) (target added : G ν) : Except GErr (G ν) := do
  let g ← added.nodes.foldlM (mergeNode nodeKey) target
  added.edges.foldlM (mergeEdge edgeKey) g

/-- `edgeType` of `getNodeDegrees`. -/
inductive EdgeType where
  | bi | «in» | out | other
deriving DecidableEq, Repr

/-- The value of one edge (graphHelpers.py:467-476). `conv` is `returnType`, `none` when the conversion raises `ValueError`. -/
def edgeVal (weightString : Option String) (strict : Bool) (conv : Val → Option Int) (a : Attrs) : Except GErr Int :=
  match weightString with
  | some w => match a.get? w with
    | some v => match conv v with
      | some n => .ok n
      | none => .error .valueError
    | none => if strict then .error .keyError else .ok 1
  | none => .ok 1

/-- `ndsDict[n] += v` -/
def bump (d : Dict ν Int) (n : ν) (v : Int) : Dict ν Int := d.set n ((d.get? n).getD 0 + v)

/-- One edge of `getNodeDegrees` (graphHelpers.py:466-485). -/
def degreeStep (weightString : Option String) (strict : Bool) (conv : Val → Option Int) (et : EdgeType) (d : Dict ν Int)
    (e : (ν × ν) × Attrs) : Except GErr (Dict ν Int) := do
  let v ← edgeVal weightString strict conv e.2
  match et with
  | .bi => return bump (bump d e.1.1 v) e.1.2 v
  | .in => return bump d e.1.2 v
  | .out => return bump d e.1.1 v
  | .other => .error .valueError

/-- `getNodeDegrees` (graphHelpers.py:457-486). -/
def getNodeDegrees (weightString : Option String) (strict : Bool) (conv : Val → Option Int) (et : EdgeType) (g : G ν) :
    Except GErr (Dict ν Int) :=
  g.edges.foldlM (degreeStep weightString strict conv et) (g.nodes.map (fun n => (n.1, 0)))

/-- `max` of a list of integers, `none` (`ValueError`) when it is empty. -/
def maxInt : List Int → Option Int
  | [] => none
  | x :: xs => some (xs.foldl max x)

/-- `distVec[v] += 1`, with Python's negative indices. -/
def bumpAt (dist : List Nat) (v : Int) : Except GErr (List Nat) :=
  let i := if v < 0 then v + dist.length else v
  if i < 0 ∨ i ≥ dist.length then .error .indexError
  else .ok (dist.set i.toNat (dist.getD i.toNat 0 + 1))

/-- `getDegreeDistribution` (graphHelpers.py:488-495). -/
def getDegreeDistribution (weightString : Option String) (strict : Bool) (conv : Val → Option Int) (et : EdgeType) (g : G ν) :
    Except GErr (List Nat) := do
  let d ← getNodeDegrees weightString strict conv et g
  match maxInt (d.map Prod.snd) with
  | none => .error .valueError
  | some m => (d.map Prod.snd).foldlM bumpAt (List.replicate (m + 1).toNat 0)

/-! ## writeTnetFile -/

/-- The loop over the nodes of `writeTnetFile` (graphHelpers.py:396-411), from index `i`: the nodes with their ids, the modes and the nodes
of the first mode. On an exception the nodes done so far have their ids, the others are as before. -/
def tnetNodes (modeName idx : String) :
    List (ν × Attrs) → Nat → List Val → List ν → List (ν × Attrs) × Except GErr (List Val × List ν)
  | [], _, modes, mode1Set => ([], .ok (modes, mode1Set))
  | node :: rest, i, modes, mode1Set =>
    let (modes, nMode) := match node.2.get? modeName with
      | some m => (modes, m)
      | none => ([.num 1, .num 2, .num 3], .num 4)
    if nMode ∉ modes ∧ ¬ modes.length < 2 then (node :: rest, .error .valueError)
    else
      let modes := if nMode ∉ modes then modes ++ [nMode] else modes
      let mode1Set := if modes.head? = some nMode then mode1Set ++ [node.1] else mode1Set
      let (rest', r) := tnetNodes modeName idx rest (i + 1) modes mode1Set
      ((node.1, node.2.set idx (.num i)) :: rest', r)

/-- The ends of an edge with the first mode in front (graphHelpers.py:426-432), `none` when both or neither are of the first mode. -/
def tnetEnds (mode1Set : List ν) (n1 n2 : ν) : Option (ν × ν) :=
  if n1 ∈ mode1Set then (if n2 ∈ mode1Set then none else some (n1, n2))
  else if n2 ∈ mode1Set then some (n2, n1)
  else none

/-- The loop over the edges (graphHelpers.py:417-441), without `timeString`: the lines written, each as the columns of the file. -/
def tnetEdges (weighted : Bool) (idx weightString : String) (g : G ν) (mode1Set : List ν) :
    List ((ν × ν) × Attrs) → List (Val × Val × Option Val) → List (Val × Val × Option Val) × Option GErr
  | [], lines => (lines, none)
  | e :: rest, lines =>
    match tnetEnds mode1Set e.1.1 e.1.2 with
    | none => (lines, some .valueError)
    | some (n1, n2) =>
      match (g.node? n1).bind (·.get? idx), (g.node? n2).bind (·.get? idx) with
      | some i1, some i2 =>
        if weighted then
          match e.2.get? weightString with
          | some w => tnetEdges weighted idx weightString g mode1Set rest (lines ++ [(i1, i2, some w)])
          | none => (lines, some .keyError)
        else tnetEdges weighted idx weightString g mode1Set rest (lines ++ [(i1, i2, none)])
      | _, _ => (lines, some .keyError)

/-- `writeTnetFile` (graphHelpers.py:344-445) without `timeString`: the graph as it is left, the lines of the file (`none` when the file
was not opened) and the exception. -/
def writeTnetFile (modeName : String) (weighted : Bool) (sourceMode : Option Val) (idx weightString : String) (g : G ν) :
    G ν × Option (List (Val × Val × Option Val)) × Option GErr :=
  let (nodes, r) := tnetNodes modeName idx g.nodes 1 sourceMode.toList []
  let g := { g with nodes := nodes }
  match r with
  | .error e => (g, none, some e)
  | .ok (modes, mode1Set) =>
    if modes.length ≠ 2 then (g, none, some .valueError)
    else
      let (lines, e) := tnetEdges weighted idx weightString g mode1Set g.edges []
      (g, some lines, e)

end Verif.Model.GraphHelpers
