import Verif.Model.OptionLists

/-! # Which calls share a list of tags, and which columns are built in -/
set_option autoImplicit false
namespace Verif.Spec.OptionLists
open Verif.Py Verif.Model Verif.Model.OptionLists

variable {ρ : Type}

/-- A call that is given the list as a selection of columns, or as the first columns of a selection. -/
def Selects : Call ρ → Prop
  | .makeDict .. => True
  | .csvOnly .. => True
  | .csvFirst o _ => ∃ only, only ≠ [] ∧ o.onlyTheseTags = some only
  | .forNLP .. => False

/-- A column that `forNLP` always has. -/
def BuiltIn (c : Str) : Prop := c ∈ ["id".toList, "year".toList, "title".toList, "keywords".toList, "abstract".toList]

end Verif.Spec.OptionLists
