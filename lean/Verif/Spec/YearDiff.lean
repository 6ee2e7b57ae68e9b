import Verif.Spec.CiteNetworks

/-! # The years between citing and cited works (used by C95) -/
set_option autoImplicit false
namespace Verif.Spec.YearDiff
open Verif.Py Verif.Model.Citation Verif.Model.CiteNetworks Verif.Spec

variable {ρ : Type}

/-- The year of a work, if it has one. -/
def yearOf (c : Cite) : Option Int := c.year.getD none

/-- The number of years between two works; none if the year of one of them is not known. -/
def yearsBetween (a c : Cite) : Option Nat := (yearOf a).bind (fun x => (yearOf c).map (fun y => (max x y - min x y).toNat))

/-- Every citation that makes it into the network, one after the other: the citing and the cited work. -/
noncomputable def citations (env : Env) (o : Opts) (own : ρ → Cite) (cites : ρ → Option (List Cite)) (recs : List ρ) : List (Cite × Cite) :=
  (citing env o own cites recs).flatMap (fun r => (keptCites env o own cites recs r).map (fun c => (own r, c)))

/-- The citation is one along the edge from `u` to `v`. -/
def Along (nt : NodeType) (directed recordToCite : Bool) (u v : NodeId) (p : Cite × Cite) : Prop :=
  let source := nodeName nt (if recordToCite then p.1 else p.2)
  let target := nodeName nt (if recordToCite then p.2 else p.1)
  (source = u ∧ target = v) ∨ (directed = false ∧ source = v ∧ target = u)

instance (nt : NodeType) (directed recordToCite : Bool) (u v : NodeId) : DecidablePred (Along nt directed recordToCite u v) :=
  fun p => by unfold Along; infer_instance

/-- The works of the network. -/
def Takes (env : Env) (o : Opts) (own : ρ → Cite) (cites : ρ → Option (List Cite)) (recs : List ρ) (c : Cite) : Prop :=
  ∃ p ∈ citations env o own cites recs, c = p.1 ∨ c = p.2

/-- Works with the same node have the same year. -/
def OneYear (env : Env) (o : Opts) (own : ρ → Cite) (cites : ρ → Option (List Cite)) (recs : List ρ) : Prop :=
  ∀ c d, Takes env o own cites recs c → Takes env o own cites recs d → nodeName o.nodeType c = nodeName o.nodeType d → yearOf c = yearOf d

end Verif.Spec.YearDiff
