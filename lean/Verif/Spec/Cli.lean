import Verif.Spec.Graphs
import Verif.Py.Str

/-! # What the dialogues of the command line tool should do -/
set_option autoImplicit false
namespace Verif.Spec.Cli
open Verif.Py Verif.Py.Graph Verif.Model.GraphHelpers Verif.Spec

variable {ν : Type} [DecidableEq ν]

/-- The filters of the menu. -/
inductive Cmd where
  | isolates
  | selfLoops
  | edgesBelow (x : Int)
  | edgesAbove (x : Int)
  | nodesBelow (x : Int)
  | nodesAbove (x : Int)
deriving DecidableEq, Repr

/-- The filters chosen by the lines typed, up to the line `0`: an entry of the menu, with the next line that is a number where one is asked
for. Lines that are no entry, or no number where one is asked for, are skipped. -/
def commands (num : Str → Option Int) : Option (Int → Cmd) → List Str → List Cmd
  | _, [] => []
  | some c, l :: rest =>
    match num l with
    | none => commands num (some c) rest
    | some x => c x :: commands num none rest
  | none, l :: rest =>
    if l = "0".toList then []
    else if l = "1".toList then .isolates :: commands num none rest
    else if l = "2".toList then .selfLoops :: commands num none rest
    else if l = "3".toList then commands num (some .edgesBelow) rest
    else if l = "4".toList then commands num (some .edgesAbove) rest
    else if l = "5".toList then commands num (some .nodesBelow) rest
    else if l = "6".toList then commands num (some .nodesAbove) rest
    else commands num none rest

/-- The graph `h` is `g` without the edges that do not satisfy `p`. -/
def KeepEdges (p : ν → ν → Attrs → Prop) (g h : G ν) : Prop :=
  h.directed = g.directed ∧ h.nodes = g.nodes ∧ ∀ u v a, h.edge? u v = some a ↔ g.edge? u v = some a ∧ p u v a

/-- The graph `h` is `g` without the nodes that do not satisfy `p`, and without their edges. -/
def KeepNodes (p : ν → Prop) (g h : G ν) : Prop :=
  h.directed = g.directed ∧ (∀ n a, h.node? n = some a ↔ g.node? n = some a ∧ p n) ∧
    ∀ u v a, h.edge? u v = some a ↔ g.edge? u v = some a ∧ p u ∧ p v

/-- What the menu says a filter does: the degree of a node is the sum of the weights of its edges. -/
def Meant : Cmd → G ν → G ν → Prop
  | .isolates, g, h => KeepNodes (fun n => ∃ m, (g.edge? n m).isSome = true) g h
  | .selfLoops, g, h => KeepEdges (fun u v _ => u ≠ v) g h
  | .edgesBelow x, g, h => KeepEdges (fun _ _ a => ¬ weight "weight" a < x) g h
  | .edgesAbove x, g, h => KeepEdges (fun _ _ a => ¬ x < weight "weight" a) g h
  | .nodesBelow x, g, h => KeepNodes (fun n => ¬ outDegree (weight "weight") g n < x) g h
  | .nodesAbove x, g, h => KeepNodes (fun n => ¬ x < outDegree (weight "weight") g n) g h

/-- What a filter does, for any graph. The filters "above" do what those "below" do. The edges of a node of a directed graph are those that leave it, and a node
is kept as not isolated when their weights add up to 1 or more. -/
def Done : Cmd → G ν → G ν → Prop
  | .isolates, g, h => KeepNodes (fun n => ¬ outDegree (weight "weight") g n < 1) g h
  | .selfLoops, g, h => KeepEdges (fun u v _ => u ≠ v) g h
  | .edgesBelow x, g, h => KeepEdges (fun _ _ a => ¬ weight "weight" a < x) g h
  | .edgesAbove x, g, h => KeepEdges (fun _ _ a => ¬ weight "weight" a < x) g h
  | .nodesBelow x, g, h => KeepNodes (fun n => ¬ outDegree (weight "weight") g n < x) g h
  | .nodesAbove x, g, h => KeepNodes (fun n => ¬ outDegree (weight "weight") g n < x) g h

/-- Filters applied one after the other. -/
inductive Chain (R : Cmd → G ν → G ν → Prop) : List Cmd → G ν → G ν → Prop where
  | nil (g : G ν) : Chain R [] g g
  | cons (c : Cmd) (cs : List Cmd) (g h k : G ν) : R c g h → Chain R cs h k → Chain R (c :: cs) g k

end Verif.Spec.Cli
