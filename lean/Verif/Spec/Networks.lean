import Verif.Spec.Counting
import Mathlib.Data.Nat.Choose.Basic

/-! # What the network functions should give (used by C12-C18, C49) -/
set_option autoImplicit false
namespace Verif.Spec
open Verif.Model.Series
variable {ρ α ν : Type} [DecidableEq ν]

/-- In how many ways `u` and `v` can be picked from two different positions of a list, in either order. -/
def pairsShared (l : List ν) (u v : ν) : Nat :=
  if u = v then (l.count u).choose 2 else l.count u * l.count v

/-- In how many ways `u` can be picked from the first list and `v` from the second; when direction does not matter and
they differ, also the other way round. -/
def crossShared (directed : Bool) (l1 l2 : List ν) (u v : ν) : Nat :=
  if directed = true ∨ u = v then l1.count u * l2.count v else l1.count u * l2.count v + l1.count v * l2.count u

/-- The same over every two different lists out of several. -/
def crossSharedAll : List (List ν) → ν → ν → Nat
  | [], _, _ => 0
  | l :: rest, u, v => (rest.map (fun l' => crossShared false l l' u v)).sum + crossSharedAll rest u v

/-- The edge attribute for an edge that should have been counted `n` times: no edge when `n = 0`, otherwise an edge with
weight `n`, or without a weight in an unweighted network. -/
def edgeFor (weighted : Bool) (n : Nat) : Option (Option Nat) :=
  if n = 0 then none else some (if weighted then some n else none)

end Verif.Spec
