import Verif.Model.Series

/-! # What the tags for edges and nodes of the network functions should give (used by C89, C90) -/
set_option autoImplicit false
namespace Verif.Spec.NetworkAttrs
open Verif.Model.Series
variable {ρ α ν σ : Type}

/-- What going over the field of a record gives, as texts: nothing when the field is missing, the entries of a list, and
the parts of anything else that can be gone over (for a text these are its characters). -/
inductive Gives (str : α → σ) (iter : α → Option (List σ)) : Option (FieldVal α) → List σ → Prop
  | missing : Gives str iter none []
  | list (vs : List α) : Gives str iter (some (.list vs)) (vs.map str)
  | single (v : α) (l : List σ) (h : iter v = some l) : Gives str iter (some (.single v)) l

/-- The field is something that cannot be gone over, such as a number. -/
def Refuses (iter : α → Option (List σ)) (f : Option (FieldVal α)) : Prop := ∃ v, f = some (.single v) ∧ iter v = none

/-- The position of the first record that holds a name. -/
def firstSeen [DecidableEq ν] (names : ρ → List ν) (recs : List ρ) (n : ν) : Nat :=
  recs.findIdx (fun r => decide (n ∈ names r))

end Verif.Spec.NetworkAttrs
