import Verif.Spec.FileTables
import Verif.Spec.WosMeaning

/-! # The text a paper of a Web of Science file has under a tag -/
set_option autoImplicit false
namespace Verif.Spec.FileExports
open Verif.Py
open Verif.Model.WosFields (Prims)
open Verif.Spec.Pipeline Verif.Spec.WhoCites Verif.Spec.Derived Verif.Spec.FileTables

/-- Under the tag, or its long name, the papers have these texts, and nothing where the tag is missing: what the lines of the tag mean, written as text, lists with `sep` between the
items. -/
structure Texts (P : Prims) (papers : List Paper) (sep : Str) (k : String) (text : Paper → Option Str) : Prop where
  have_text : ∃ tag long : String, TagTable.Wos tag.toList long.toList ∧ (k = tag ∨ k = long) ∧ ∀ p ∈ papers,
    (text p = none ↔ linesOf p tag = []) ∧ ∀ s, text p = some s → ∃ v, WosMeaning.Means P tag.toList (linesOf p tag) v ∧ s = WosMeaning.shown sep v

/-- The name under which a column, given by its tag and long name, is shown. -/
def head (longNames : Bool) (c : Str × Str) : Str := if longNames then c.2 else c.1

/-- The first row of the file. -/
def header (numAuthors : Bool) (names : List Str) : List Str := names ++ (if numAuthors then ["num-Authors".toList] else [])

/-- The row of a paper: its text in each column, nothing where the tag is missing, and the number of its authors. -/
def row (numAuthors : Bool) (names : List Str) (cell : Str → Paper → Option Str) (p : Paper) : List Str :=
  names.map (fun t => (cell t p).getD []) ++ (if numAuthors then [Nat.toDigits 10 (linesOf p "AU").length] else [])

end Verif.Spec.FileExports
