import Verif.Model.GraphHelpers
import Verif.Py.Decimal

/-!
# Model of `writeTnetFile` for every kind of graph, down to the characters of the file

`Verif.Model.GraphHelpers.writeTnetFile` gives the columns of the file for a `Graph` or `DiGraph` without `timeString`. Here the graph may
also be a `MultiGraph` or `MultiDiGraph`, `timeString` may be given, and the file is its text. Progress bars are left out.
-/
set_option autoImplicit false
namespace Verif.Model.TnetText
open Verif.Py Verif.Model.GraphHelpers

/-- A networkx graph of any of the four classes: what `writeTnetFile` sees of it. `multi` tells whether it is a multigraph; each edge comes
with its ends, its key (of no meaning when `multi` is false) and its attributes, in the order of `grph.edges()`. -/
structure KGraph (ν κ : Type) where
  multi : Bool
  nodes : List (ν × Attrs)
  edges : List ((ν × ν × κ) × Attrs)

variable {ν κ : Type} [DecidableEq ν]

/-- `str(v)` of an attribute value, as `"{}".format(v)` writes it. -/
def valText : Val → Str
  | .num n => showInt n
  | .str s => s.toList

/-- The text before the columns (graphHelpers.py:437-440): the key of the edge in quotes when `timeString` is given. -/
def timeText (showKey : κ → Str) (time : Bool) (k : κ) : Str :=
  if time then '"' :: showKey k ++ ['"', ' '] else []

/-- The loop over the edges (graphHelpers.py:422-444): the text written and the exception. -/
def tnetLines (showKey : κ → Str) (time weighted : Bool) (idx weightString : String) (nodes : List (ν × Attrs)) (mode1Set : List ν) :
    List ((ν × ν × κ) × Attrs) → Str → Str × Option GErr
  | [], text => (text, none)
  | e :: rest, text =>
    match tnetEnds mode1Set e.1.1 e.1.2.1 with
    | none => (text, some .valueError)
    | some (n1, n2) =>
      match (Dict.get? nodes n1).bind (·.get? idx), (Dict.get? nodes n2).bind (·.get? idx) with
      | some i1, some i2 =>
        if weighted then
          match e.2.get? weightString with
          | some w => tnetLines showKey time weighted idx weightString nodes mode1Set rest
              (text ++ (timeText showKey time e.1.2.2 ++ valText i1 ++ ' ' :: valText i2 ++ ' ' :: valText w ++ ['\n']))
          | none => (text, some .keyError)
        else tnetLines showKey time weighted idx weightString nodes mode1Set rest
          (text ++ (timeText showKey time e.1.2.2 ++ valText i1 ++ ' ' :: valText i2 ++ ['\n']))
      | _, _ => (text, some .keyError)

/-- `writeTnetFile` (graphHelpers.py:344-445): the nodes as they are left, the text of the file (`none` when it was not opened) and the
exception. `grph.edges(data = True, keys = True)` (graphHelpers.py:419-422) raises `TypeError` for a graph that is no multigraph, when the file is open.
Of `timeString` the code only asks whether it is `None`. -/
def writeTnet (showKey : κ → Str) (modeName : String) (weighted : Bool) (sourceMode : Option Val) (timeString : Option String)
    (idx weightString : String) (g : KGraph ν κ) : List (ν × Attrs) × Option Str × Option GErr :=
  let (nodes, r) := tnetNodes modeName idx g.nodes 1 sourceMode.toList []
  match r with
  | .error e => (nodes, none, some e)
  | .ok (modes, mode1Set) =>
    if modes.length ≠ 2 then (nodes, none, some .valueError)
    else if timeString.isSome && !g.multi then (nodes, some [], some .typeError)
    else
      let (text, e) := tnetLines showKey timeString.isSome weighted idx weightString nodes mode1Set g.edges []
      (nodes, some text, e)

end Verif.Model.TnetText
