import Verif.Py.Dict
import Verif.Py.Str
import Verif.Py.StrOps
import Verif.Py.Decimal

/-!
# Model of `graphStats` (graphHelpers.py:734-842)

Density and transitivity are floats: an arbitrary type `φ` with the text `{:G}` makes of them. Counts are formatted with `{:G}` too, which is modelled here.
-/
set_option autoImplicit false
namespace Verif.Model.GraphStats
open Verif.Py Verif.Py

/-- The number of decimal digits after the first. -/
def expo : Nat → Nat → Nat
  | 0, _ => 0
  | fuel + 1, n => if n < 10 then 0 else expo fuel (n / 10) + 1

/-- Division rounded to the nearest, halves to even, as printing a float does. -/
def roundDiv (n d : Nat) : Nat :=
  let q := n / d
  let r := n % d
  if 2 * r < d then q else if d < 2 * r then q + 1 else if q % 2 = 0 then q else q + 1

/-- Without the zeros at the end. -/
def stripZeros (s : Str) : Str := (s.reverse.dropWhile (· = '0')).reverse

/-- `"{:G}".format(n)` for a natural number: six significant digits; from 1000000 on (after rounding) in scientific notation, without zeros at the end of the fraction and with at least two
digits of exponent. Python makes `n` a float first, which is exact below 2 ^ 53; larger numbers are rounded once here. -/
def fmtG (n : Nat) : Str :=
  if n < 1000000 then showNat n
  else
    let e := expo n n
    let m := roundDiv n (10 ^ (e - 5))
    let (m, e) := if m = 1000000 then (100000, e + 1) else (m, e)
    let frac := stripZeros ((showNat m).drop 1)
    let ex := showNat e
    (showNat m).take 1 ++ (if frac.length ≠ 0 then '.' :: frac else []) ++ "E+".toList ++ (if ex.length < 2 then '0' :: ex else ex)

section
variable {φ ν : Type} [DecidableEq ν]

/-- A graph of networkx: nodes and edges, each edge once. -/
structure Graph (ν : Type) where
  nodes : List ν
  edges : List (ν × ν)

/-- `nx.isolates`: the nodes of degree 0. -/
def isolates (G : Graph ν) : List ν := G.nodes.filter (fun n => (G.edges.map (fun e => (if e.1 = n then 1 else 0) + (if e.2 = n then 1 else 0))).sum = 0)

/-- `nx.selfloop_edges`. -/
def selfLoops (G : Graph ν) : List (ν × ν) := G.edges.filter (fun e => e.1 = e.2)

/-- A value in the result: an integer or a float. -/
inductive Val (φ : Type) where
  | int (n : Nat)
  | float (x : φ)
  deriving DecidableEq, Repr

/-- The result: a string or a tuple. -/
inductive Res (φ : Type) where
  | str (s : Str)
  | tuple (l : List (Val φ))
  deriving DecidableEq, Repr

inductive Err where
  | runtimeError
  | keyError
  deriving DecidableEq, Repr

def validStats : List Str := ["nodes".toList, "edges".toList, "isolates".toList, "loops".toList, "density".toList, "transitivity".toList]

/-- One `if 'nodes' in stats:` block with strings (graphHelpers.py:780-829): the text before and after the number in a sentence and before it on a line. -/
def strBlock (stats : List Str) (sentence : Bool) (name before after line : Str) (text : Str) (acc : List Str) : List Str :=
  if name ∈ stats then
    if sentence then acc ++ [before ++ text ++ after] else acc ++ [line ++ text]
  else acc

def dictBlock (stats : List Str) (name : Str) (v : Val φ) (d : Dict Str (Val φ)) : Dict Str (Val φ) := if name ∈ stats then d.set name v else d

/-- `graphStats` (graphHelpers.py:734-842). `density` and `transitivity` are what networkx gives for the graph and `fmtF` is `"{:G}".format`. -/
def graphStats (fmtF : φ → Str) (density transitivity : φ) (G : Graph ν) (stats : List Str) (makeString sentence : Bool) : Except Err (Res φ) :=
  if stats.any (fun s => s ∉ validStats) then .error .runtimeError
  else if makeString then
    let l := strBlock stats sentence "nodes".toList [] " nodes".toList "Nodes: ".toList (fmtG G.nodes.length) []
    let l := strBlock stats sentence "edges".toList [] " edges".toList "Edges: ".toList (fmtG G.edges.length) l
    let l := strBlock stats sentence "isolates".toList [] " isolates".toList "Isolates: ".toList (fmtG (isolates G).length) l
    let l := strBlock stats sentence "loops".toList [] " self loops".toList "Self loops: ".toList (fmtG (selfLoops G).length) l
    let l := strBlock stats sentence "density".toList "a density of ".toList [] "Density: ".toList (fmtF density) l
    let l := strBlock stats sentence "transitivity".toList "a transitivity of ".toList [] "Transitivity: ".toList (fmtF transitivity) l
    if sentence then
      match l with
      | [] => .ok (.str "The graph has ".toList)
      | [x] => .ok (.str ("The graph has ".toList ++ x))
      | l => .ok (.str ("The graph has ".toList ++ Str.join ", ".toList l.dropLast ++ " and ".toList ++ l.getLast?.getD []))
    else .ok (.str (Str.join "\n".toList l))
  else
    let d : Dict Str (Val φ) := dictBlock stats "nodes".toList (.int G.nodes.length) []
    let d := dictBlock stats "edges".toList (.int G.edges.length) d
    let d := dictBlock stats "isolates".toList (.int (isolates G).length) d
    let d := dictBlock stats "loops".toList (.int (selfLoops G).length) d
    let d := dictBlock stats "density".toList (.float density) d
    let d := dictBlock stats "transitivity".toList (.float transitivity) d
    match stats.mapM (fun s => d.get? s) with
    | none => .error .keyError
    | some l => .ok (.tuple l)

end
end Verif.Model.GraphStats
