import Verif.Py.Dict
import Verif.Py.Str
import Verif.Py.Counter
import Verif.Py.GraphEvents

/-!
# Model of `metaknowledge/diffusion.py`

Citations are an arbitrary type `γ` whose equality is that of `Citation.__eq__`. Progress bars are left out. The calls that
check the types of the arguments (diffusion.py:55-64, 186-191) are taken to pass. Graphs are those of networkx 1, which the code is
written for (`attr_dict`, `.node`, `nodes_iter`).
-/
set_option autoImplicit false
namespace Verif.Model.Diffusion
open Verif.Py

/-- An element of a field: a string, a number or a citation. -/
inductive Atom (γ : Type) where
  | str (s : Str)
  | num (n : Int)
  | cite (c : γ)
deriving DecidableEq, Repr

/-- The value of a field: one element or a list. -/
inductive FVal (γ : Type) where
  | atom (a : Atom γ)
  | list (l : List (Atom γ))
deriving DecidableEq, Repr

/-- What is used of a record: its id, the values `get` gives by tag, in the order of the tags, `createCitation()`,
`createCitation(multiCite = True)` and its list of citations (`get('CR')`, `get('citations', [])`). -/
structure Rec (γ : Type) where
  id : Str
  fields : Dict Str (FVal γ)
  cite : γ
  cites : List γ
  cr : List γ
deriving DecidableEq, Repr

/-- The type of node: `'raw'` or a tag. -/
inductive NodeType where
  | raw
  | tag (t : Str)
deriving DecidableEq, Repr

/-- A value made by `makeNodeID`: a field's value (a list becomes a tuple) or a record, which Python compares by its id. -/
inductive Key (γ : Type) where
  | val (v : FVal γ)
  | record (id : Str)
deriving DecidableEq, Repr

section
variable {γ : Type} [DecidableEq γ]

/-- `makeNodeID` (diffusion.py:351-370) without extras: the value, `none` for `None`. -/
def nodeID (ty : NodeType) (r : Rec γ) : Option (Key γ) :=
  match ty with
  | .raw => some (.record r.id)
  | .tag t => (r.fields.get? t).map .val

/-- `if RsVal:` — strings, tuples and records are true when they are not empty, numbers when they are not 0. -/
def truthy (r : Rec γ) : Key γ → Bool
  | .record _ => r.fields.length ≠ 0
  | .val (.atom (.str s)) => s.length ≠ 0
  | .val (.atom (.num n)) => n ≠ 0
  | .val (.atom (.cite _)) => true
  | .val (.list l) => l.length ≠ 0

/-- `for val in RsVal` — a record gives its tags, a string its characters, a number or citation a `TypeError` (`none`). -/
def iterate (r : Rec γ) : Key γ → Option (List (Atom γ))
  | .record _ => some (r.fields.keys.map .str)
  | .val (.atom (.str s)) => some (s.map (fun ch => .str [ch]))
  | .val (.atom _) => none
  | .val (.list l) => some l

/-! ## diffusionGraph -/

/-- What a record contributes to the graph: nothing, or the values iterated over; the outer `none` is `TypeError`. -/
def valuesFor (ty : NodeType) (r : Rec γ) : Option (Option (List (Atom γ))) :=
  match nodeID ty r with
  | none => some none
  | some k => if truthy r k then (iterate r k).map some else some none

/-- The attributes `source` and `target` of a node. -/
structure Flags where
  source : Bool
  target : Bool
deriving DecidableEq, Repr, Inhabited

/-- Which of the two collections a node is reported for. -/
inductive Side where
  | src | tgt
deriving DecidableEq, Repr

/-- Adding a node (diffusion.py:85-87, 104-107): one already there keeps its attributes, but a target is marked. -/
def mark : Side → Option Flags → Flags
  | .src, none => ⟨true, false⟩
  | .src, some f => f
  | .tgt, none => ⟨false, true⟩
  | .tgt, some f => { f with target := true }

abbrev G (γ : Type) := Graph (Atom γ) Flags (Option Nat)

/-- The loop over the sources (diffusion.py:78-87): values by citation, and the graph. The dictionary holds the values the code iterates over later. -/
def sourceLoop (ty : NodeType) : List (Rec γ) → Dict γ (List (Atom γ)) → G γ → Option (Dict γ (List (Atom γ)) × G γ)
  | [], d, g => some (d, g)
  | r :: rest, d, g =>
    match valuesFor ty r with
    | none => none
    | some none => sourceLoop ty rest d g
    | some (some vs) => sourceLoop ty rest (d.set r.cite vs) (vs.foldl (fun g v => g.setNode v (mark .src (g.node? v))) g)

/-- The inner loops for one value of a target (diffusion.py:108-134) without labels. -/
def citeLoop (weighted : Bool) (d : Dict γ (List (Atom γ))) (cr : List γ) (val : Atom γ) (g : G γ) : G γ :=
  cr.foldl (fun g c =>
    match d.get? c with
    | none => g
    | some vs => vs.foldl (fun g sVal => g.bumpEdge weighted sVal val) g) g

/-- The loop over the targets (diffusion.py:92-134) without labels. -/
def targetLoop (weighted : Bool) (ty : NodeType) (d : Dict γ (List (Atom γ))) : List (Rec γ) → G γ → Option (G γ)
  | [], g => some g
  | r :: rest, g =>
    match valuesFor ty r with
    | none => none
    | some none => targetLoop weighted ty d rest g
    | some (some vs) =>
      targetLoop weighted ty d rest (vs.foldl (fun g v => citeLoop weighted d r.cr v (g.setNode v (mark .tgt (g.node? v)))) g)

/-- `diffusionGraph` with `labelEdgesBy = None` (diffusion.py:11-137); `none` is `TypeError`. -/
def diffusionGraph (weighted : Bool) (sourceType targetType : NodeType) (source target : List (Rec γ)) : Option (G γ) :=
  match sourceLoop sourceType source [] (Graph.empty true) with
  | none => none
  | some (d, g) => targetLoop weighted targetType d target g

/-! ## diffusionGraph with labels -/

/-- An edge of a multigraph. The key is a number given by networkx or the string given by the code; the attributes are
the label and the weight. -/
structure MEdge (γ : Type) where
  src : Atom γ
  dst : Atom γ
  key : Nat ⊕ Str
  attr : Option (Str × Nat)
deriving DecidableEq

/-- `has_edge(u, v, key = k)` for a string `k`. -/
def hasKey (es : List (MEdge γ)) (u v : Atom γ) (k : Str) : Bool := es.any (fun e => e.src = u ∧ e.dst = v ∧ e.key = .inr k)

/-- The number of edges from `u` to `v`. networkx gives a new edge without key this number as key (or the next one that is free; the edges are never removed, so it is). -/
def parallel (es : List (MEdge γ)) (u v : Atom γ) : Nat := es.countP (fun e => e.src = u ∧ e.dst = v)

/-- Raising the weight of the first edge from `u` to `v` with this label (diffusion.py:116-119). -/
def raise (u v : Atom γ) (label : Str) : List (MEdge γ) → List (MEdge γ)
  | [] => []
  | e :: es =>
    if e.src = u ∧ e.dst = v ∧ e.attr.map Prod.fst = some label then { e with attr := e.attr.map (fun a => (a.1, a.2 + 1)) } :: es
    else e :: raise u v label es

/-- One label of one match (diffusion.py:113-125). -/
def labelStep (weighted : Bool) (u v : Atom γ) (es : List (MEdge γ)) (label : Str) : List (MEdge γ) :=
  if weighted then
    if hasKey es u v label then raise u v label es
    else es ++ [⟨u, v, .inl (parallel es u v), some (label, 1)⟩]
  else
    if hasKey es u v label then es else es ++ [⟨u, v, .inr label, none⟩]

/-- `str(ev)`; `show` gives it for citations and numbers. -/
def strOf (sh : Atom γ → Str) : Atom γ → Str
  | .str s => s
  | a => sh a

/-- The labels of a target (diffusion.py:94-98, 113), `none` when it has no such field. -/
def labelsOf (sh : Atom γ → Str) (labelTag : Str) (r : Rec γ) : Option (List Str) :=
  match r.fields.get? labelTag with
  | none => none
  | some (.atom a) => some [strOf sh a]
  | some (.list l) => some (l.map (strOf sh))

/-- One citation of a target with value `v` (diffusion.py:109-125). -/
def labelCite (weighted : Bool) (d : Dict γ (List (Atom γ))) (labels : List Str) (v : Atom γ) (es : List (MEdge γ)) (c : γ) : List (MEdge γ) :=
  match d.get? c with
  | none => es
  | some ss => ss.foldl (fun es u => labels.foldl (labelStep weighted u v) es) es

/-- A directed multigraph: nodes with their attributes, and the edges in the order in which they were added. -/
structure MGraph (γ : Type) where
  nodes : Dict (Atom γ) Flags
  edges : List (MEdge γ)
deriving DecidableEq

/-- The loop over the targets with labels (diffusion.py:92-125). Targets without a label are left out. -/
def labelledLoop (sh : Atom γ → Str) (weighted : Bool) (ty : NodeType) (labelTag : Str) (d : Dict γ (List (Atom γ))) :
    List (Rec γ) → MGraph γ → Option (MGraph γ)
  | [], g => some g
  | r :: rest, g =>
    match labelsOf sh labelTag r with
    | none => labelledLoop sh weighted ty labelTag d rest g
    | some labels =>
      match valuesFor ty r with
      | none => none
      | some none => labelledLoop sh weighted ty labelTag d rest g
      | some (some vs) =>
        labelledLoop sh weighted ty labelTag d rest
          (vs.foldl (fun g v => ⟨g.nodes.set v (mark .tgt (g.nodes.get? v)), r.cr.foldl (labelCite weighted d labels v) g.edges⟩) g)

/-- `diffusionGraph` with a tag for `labelEdgesBy` (diffusion.py:11-137, the tag in its short form); `none` is `TypeError`. The ends of edges are nodes
already, so adding edges adds no nodes. -/
def labelledGraph (sh : Atom γ → Str) (weighted : Bool) (sourceType targetType : NodeType) (labelTag : Str) (source target : List (Rec γ)) :
    Option (MGraph γ) :=
  match sourceLoop sourceType source [] (Graph.empty true) with
  | none => none
  | some (d, g) => labelledLoop sh weighted targetType labelTag d target ⟨g.nodes, []⟩

/-! ## diffusionCount -/

inductive Err where
  | typeError | keyError
deriving DecidableEq, Repr

/-- Whether ids are lists (diffusion.py:207, 209-211): as in the first source that has the tag. No record has a tag `raw`. -/
def listIds (ty : NodeType) (source : List (Rec γ)) : Bool :=
  match ty with
  | .raw => false
  | .tag t =>
    match source.findSome? (fun r => r.fields.get? t) with
    | some (FVal.list _) => true
    | _ => false

/-- The citations of a source (diffusion.py:216-220). -/
def citesOf (useAllAuthors : Bool) (r : Rec γ) : List γ := if useAllAuthors then r.cites else [r.cite]

/-- `sourceDict` (diffusion.py:209-220). -/
def sourceDict (useAllAuthors : Bool) (ty : NodeType) (source : List (Rec γ)) : Dict γ (Key γ) :=
  source.foldl (fun d r =>
    match nodeID ty r with
    | none => d
    | some k => if truthy r k then (citesOf useAllAuthors r).foldl (fun d c => d.set c k) d else d) []

/-- The ids a value stands for: its elements when ids are lists (a string then gives its characters, a number a `TypeError`), itself otherwise. -/
def idsOf (lists : Bool) (k : Key γ) : Except Err (List (Key γ)) :=
  if lists then
    match k with
    | .val (.list l) => .ok (l.map (fun a => .val (.atom a)))
    | .val (.atom (.str s)) => .ok (s.map (fun ch => .val (.atom (.str [ch]))))
    | _ => .error .typeError
  else .ok [k]

variable {S : Type}

/-- The dictionary of counts before counting (diffusion.py:221-230). `init` is 0, or a dictionary with one entry. -/
def initCounts (lists : Bool) (init : S) : List (Key γ) → Dict (Key γ) S → Except Err (Dict (Key γ) S)
  | [], d => .ok d
  | k :: ks, d =>
    match idsOf lists k with
    | .error e => .error e
    | .ok ids => initCounts lists init ks (ids.foldl (fun d i => d.set i init) d)

/-- One count (diffusion.py:251-273). -/
def bump (f : S → S) (d : Dict (Key γ) S) (k : Key γ) : Except Err (Dict (Key γ) S) :=
  match d.get? k with
  | none => .error .keyError
  | some n => .ok (d.set k (f n))

/-- Counting the ids of one match. -/
def bumps (f : S → S) : List (Key γ) → Dict (Key γ) S → Except Err (Dict (Key γ) S)
  | [], d => .ok d
  | k :: ks, d =>
    match bump f d k with
    | .error e => .error e
    | .ok d => bumps f ks d

/-- The loop over the citations of a target (diffusion.py:245-273). -/
def citesLoop (lists : Bool) (f : S → S) (sd : Dict γ (Key γ)) : List γ → Dict (Key γ) S → Except Err (Dict (Key γ) S)
  | [], d => .ok d
  | c :: cs, d =>
    match sd.get? c with
    | none => citesLoop lists f sd cs d
    | some k =>
      match idsOf lists k with
      | .error e => .error e
      | .ok ids =>
        match bumps f ids d with
        | .error e => .error e
        | .ok d => citesLoop lists f sd cs d

/-- The loop over the targets (diffusion.py:234-273). -/
def targetsLoop (lists : Bool) (f : Rec γ → S → S) (sd : Dict γ (Key γ)) : List (Rec γ) → Dict (Key γ) S → Except Err (Dict (Key γ) S)
  | [], d => .ok d
  | r :: rs, d =>
    match citesLoop lists (f r) sd r.cr d with
    | .error e => .error e
    | .ok d => targetsLoop lists f sd rs d

/-- The counting part of `diffusionCount` (diffusion.py:201-273). -/
def countWith (init : S) (f : Rec γ → S → S) (useAllAuthors : Bool) (ty : NodeType) (source target : List (Rec γ)) : Except Err (Dict (Key γ) S) :=
  let lists := listIds ty source
  let sd := sourceDict useAllAuthors ty source
  match initCounts lists init (sd.map Prod.snd) [] with
  | .error e => .error e
  | .ok d => targetsLoop lists f sd target d

/-- `diffusionCount` without `extraValue` (diffusion.py:139-349). -/
def diffusionCount (useAllAuthors : Bool) (ty : NodeType) (source target : List (Rec γ)) : Except Err (Dict (Key γ) Nat) :=
  countWith 0 (fun _ n => n + 1) useAllAuthors ty source target

/-- The values counted besides the matches (diffusion.py:238-244). `mapping` is `extraMapping`. -/
def extraVals (mapping : Atom γ → Atom γ) (extra : Str) (r : Rec γ) : List (Atom γ) :=
  match r.fields.get? extra with
  | none => []
  | some (.atom a) => [mapping a]
  | some (.list l) => l.map mapping

/-- `"TargetCount"`, as a key. -/
def targetCount : Atom γ := .str "TargetCount".toList

/-- `diffusionCount` with `extraValue` (diffusion.py:139-349). -/
def diffusionCountExtra (mapping : Atom γ → Atom γ) (extra : Str) (useAllAuthors : Bool) (ty : NodeType) (source target : List (Rec γ)) :
    Except Err (Dict (Key γ) (Dict (Atom γ) Nat)) :=
  countWith [(targetCount, 0)] (fun r m => (extraVals mapping extra r).foldl Dict.incr (m.incr targetCount)) useAllAuthors ty source target

/-- `sourceCounts[R] = (sourceCounts[R], occ)` for all local counts (diffusion.py:346-348). A key that gets no local count keeps its number (`none`). -/
def pairUp (loc : Dict (Key γ) S) (main : Dict (Key γ) (S × Option S)) : Except Err (Dict (Key γ) (S × Option S)) :=
  match loc with
  | [] => .ok main
  | (k, n) :: rest =>
    match main.get? k with
    | none => .error .keyError
    | some m => pairUp rest (main.set k (m.1, some n))

/-- `diffusionCount(compareCounts = True)` without `extraValue` (diffusion.py:274-275, 345-349): the local counts always use all authors. -/
def diffusionCompare (useAllAuthors : Bool) (ty : NodeType) (source target : List (Rec γ)) : Except Err (Dict (Key γ) (Nat × Option Nat)) :=
  match diffusionCount useAllAuthors ty source target with
  | .error e => .error e
  | .ok main =>
    match diffusionCount true ty source source with
    | .error e => .error e
    | .ok loc => pairUp loc (main.map (fun kn => (kn.1, (kn.2, none))))

end
end Verif.Model.Diffusion
