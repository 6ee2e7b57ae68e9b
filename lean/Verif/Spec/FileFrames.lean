import Verif.Spec.FileExports
import Verif.Spec.WosMeaning

/-! # The values a paper of a Web of Science file has under a tag -/
set_option autoImplicit false
namespace Verif.Spec.FileFrames
open Verif.Py Verif.Model.WosFields Verif.Spec.Pipeline Verif.Spec.Derived

/-- Under the tag, or its long name, the papers have these values, and nothing where the tag is missing: what the lines of the tag mean. -/
structure Values (P : Prims) (papers : List Paper) (k : String) (val : Paper → Option FVal) : Prop where
  have_value : ∃ tag long : String, TagTable.Wos tag.toList long.toList ∧ (k = tag ∨ k = long) ∧ ∀ p ∈ papers,
    (val p = none ↔ linesOf p tag = []) ∧ ∀ v, val p = some v → WosMeaning.Means P tag.toList (linesOf p tag) v

/-- The keywords of the index: a list with semicolons, in upper case. -/
def Keywords (upper : Str → Str) (p : Paper) (items : List Str) : Prop :=
  (linesOf p "ID" = [] ∧ items = []) ∨
  (linesOf p "ID" ≠ [] ∧ items ≠ [] ∧ upper (textOf p "ID") = "; ".toList.intercalate items ∧ ∀ i ∈ items, ¬ "; ".toList <:+: i)

/-- A value in one cell: lists with bars between the items, nothing as the empty text. -/
def oneCell : Option FVal → FVal
  | none => .text []
  | some (.texts l) => .text (['|'].intercalate l)
  | some (.cites l) => .text (['|'].intercalate l)
  | some v => v

end Verif.Spec.FileFrames
