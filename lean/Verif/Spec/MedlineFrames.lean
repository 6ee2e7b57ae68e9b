import Verif.Spec.MedlinePipeline
import Verif.Spec.TagTable
import Verif.Model.MedlineFields

/-! # The columns of a table made of a Medline file -/
set_option autoImplicit false
namespace Verif.Spec.MedlineFrames
open Verif.Py Verif.Model.MedlineFields Verif.Spec.MedlinePipeline

/-- What the values listed under a tag mean: for most tags they are a list; for some only the first one counts; the number of a paper says that it is one of PubMed. -/
inductive Means : String → List Str → MVal → Prop
  | list (tag : String) (vs : List Str) : ListTag tag → Means tag vs (.texts vs)
  | first (tag : String) (v : Str) (vs : List Str) : tag ∈ ["PG", "VI", "DP", "TI", "OTO", "AB", "TA", "JT"] → Means tag (v :: vs) (.text v)
  | number (v : Str) (vs : List Str) : Means "PMID" (v :: vs) (.text ("PMID:".toList ++ v))
  | grants (vs : List Str) : Means "GR" vs (.grants vs)

/-- The name is a tag of Medline, or the long name of one, and these are the values the papers have under it: nothing where the tag is missing. -/
def Known (papers : List Paper) (name : String) (cell : Paper → Option MVal) : Prop :=
  ∃ tag long : String, TagTable.Medline tag.toList long.toList ∧ (name = tag ∨ name = long) ∧ tag ∉ ["AD", "AUID"] ∧ ∀ p ∈ papers,
    (cell p = none ↔ valuesOf p tag = []) ∧ ∀ v, cell p = some v → Means tag (valuesOf p tag) v

/-- The names that mean something in every kind of record, and those of single fields that Medline records can give besides their tags. -/
def common : List String :=
  ["year", "month", "volume", "beginningPage", "DOI", "address", "j9", "citations", "grants", "selfCitation", "authorsShort", "authorsFull", "title", "journal", "keywords",
   "abstract", "id"]

/-- The name means nothing in Medline. -/
def Foreign (name : String) : Prop := (∀ x, ¬ TagTable.Medline name.toList x ∧ ¬ TagTable.Medline x name.toList) ∧ name ∉ common

end Verif.Spec.MedlineFrames
