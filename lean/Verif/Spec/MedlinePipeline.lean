import Verif.Spec.Medline
import Verif.Spec.TagTable
import Verif.Py.Decimal
import Mathlib.Data.List.Infix

/-!
# A Medline file as a list of papers (C108)
-/
set_option autoImplicit false
namespace Verif.Spec.MedlinePipeline
open Verif.Py Verif.Spec.Medline

/-- A paper is its entries in the order of the file: tags with the lines of one value. -/
abbrev Paper := List (Str × List Str)

/-- The values of a paper under a tag: one for each entry, its lines joined. -/
def valuesOf (p : Paper) (tag : String) : List Str := (p.filter (fun e => decide (e.1 = tag.toList))).map (fun e => "\n".toList.intercalate e.2)

/-- The text of an entry: the tag, filled up to four characters, a dash, and the lines, those behind the first with six blanks. -/
def entryText (e : Str × List Str) : Str :=
  e.1 ++ List.replicate (4 - e.1.length) ' ' ++ "- ".toList ++ "\n      ".toList.intercalate e.2 ++ "\n".toList

/-- The text of a file: an empty line, and the papers with an empty line behind each. -/
def fileText (papers : List Paper) : Str := "\n".toList ++ papers.flatMap (fun p => p.flatMap entryText ++ "\n".toList)

/-- A paper as files hold it: the first entry is its number, tags are one to four letters and not names that the package gives to other things. -/
structure PaperOk (alpha : Char → Bool) (p : Paper) : Prop where
  first : ∃ v rest, p = ("PMID".toList, [v]) :: rest
  tags : ∀ e ∈ p, TagOk alpha e.1 ∧ '\n' ∉ e.1 ∧ '\r' ∉ e.1
  reserved : ∀ e ∈ p, e.1 ∉ ["ISSN", "DOI", "year", "j9"].map String.toList
  lines : ∀ e ∈ p, e.2 ≠ [] ∧ ∀ l ∈ e.2, '\n' ∉ l ∧ '\r' ∉ l

/-- A file of different papers that does not start like one of Web of Science. -/
structure FileOk (alpha : Char → Bool) (papers : List Paper) : Prop where
  some : papers ≠ []
  each : ∀ p ∈ papers, PaperOk alpha p
  different : (papers.map (fun p => (valuesOf p "PMID").head?)).Nodup
  notWos : ∀ p ∈ papers.head?, ∀ e ∈ p, ¬ "VR 1.0".toList <:+: entryText e

/-- The names under which the values of a tag can be read: the tag, its long name, and for some tags a common name of all kinds of records. -/
def NameOf (tag k : String) : Prop :=
  ∃ long : String, TagTable.Medline tag.toList long.toList ∧
    (k = tag ∨ k = long ∨ (k, tag) ∈ [("authorsShort", "AU"), ("authorsFull", "FAU"), ("keywords", "OT")])

/-- The tags with one entry for each value: authors, terms, identifiers and the like. Left out are those of which only the first value counts, those that belong
to an author, the number and the grants. -/
def ListTag (tag : String) : Prop := tag ∉ ["PG", "VI", "DP", "TI", "OTO", "AB", "TA", "JT", "PMID", "AD", "AUID", "GR"]

/-- The year a paper says it is from: the number that is the first word of its date of publication. -/
def OfYear (p : Paper) (y : Nat) : Prop := ∃ tail, (valuesOf p "DP").head? = some (showNat y ++ tail) ∧ (tail = [] ∨ ∃ t, tail = ' ' :: t)

/-- No line of the paper looks like the start of a file of Web of Science. -/
def Plain (p : Paper) : Prop := ∀ e ∈ p, ∀ l ∈ e.2, ¬ "VR 1.0".toList <:+: l

/-- The same values under each tag, but for those that belong to an author. -/
def SameValues (p q : Paper) : Prop := ∀ tag : String, tag ∉ ["AD", "AUID"] → valuesOf p tag = valuesOf q tag

/-- What a paper lists under a tag whose values belong to an author: the values with the author listed last before each, if there is one. -/
def owned (tag : String) : Option Str → Paper → List (Option Str × Str)
  | _, [] => []
  | author, e :: p => (if e.1 = tag.toList then [(author, "\n".toList.intercalate e.2)] else []) ++
      owned tag (if e.1 = "AU".toList then e.2.head? else author) p

/-- A paper that names no author twice, has names that can be told from what follows them, and lists addresses and identifiers of authors only behind an author. -/
structure Attributed (p : Paper) : Prop where
  once : (valuesOf p "AU").Nodup
  names : ∀ a ∈ valuesOf p "AU", NameOk a
  behind : ∀ tag ∈ ["AD", "AUID"], ∀ x ∈ owned tag none p, x.1 ≠ none

/-- The same addresses and identifiers, of the same authors. -/
def SameOwned (p q : Paper) : Prop := ∀ tag ∈ ["AD", "AUID"], owned tag none p = owned tag none q

/-- A paper that lists an author twice, each time with an address given `m` times. -/
def twice (number author address : Str) (m : Nat) : Paper :=
  ("PMID".toList, [number]) :: ("AU".toList, [author]) :: (List.replicate m ("AD".toList, [address]) ++
    ("AU".toList, [author]) :: List.replicate m ("AD".toList, [address]))

end Verif.Spec.MedlinePipeline
