import Verif.Spec.Scopus
import Verif.Spec.CommonNames
import Verif.Py.Decimal
import Mathlib.Data.List.Infix

/-!
# A Scopus file as a list of papers (C109)
-/
set_option autoImplicit false
namespace Verif.Spec.ScopusPipeline
open Verif.Py Verif.Spec.Scopus

/-- A paper is a cell for each column. -/
abbrev Paper := String → Cell

/-- The line of a paper: its cells in the order of the columns, with commas between. -/
def lineText (p : Paper) : Str := [','].intercalate (columns.map (fun c => (p c).text)) ++ ['\n']

/-- The text of a file: the byte order mark, the line of the columns and the lines of the papers. -/
def fileText (papers : List Paper) : Str := '﻿' :: [','].intercalate (columns.map String.toList) ++ ['\n'] ++ papers.flatMap lineText

/-- A paper as files hold it: its cells can be read and have no line ends, and it has a number. -/
structure PaperOk (p : Paper) : Prop where
  cells : ∀ c ∈ columns, (p c).Ok ∧ '\n' ∉ (p c).text ∧ '\r' ∉ (p c).text
  number : ∃ e, (p "EID").value = some e

/-- A file of different papers that does not start like a file of another kind. -/
structure FileOk (papers : List Paper) : Prop where
  each : ∀ p ∈ papers, PaperOk p
  different : (papers.map (fun p => (p "EID").value)).Nodup
  notWos : ∀ p ∈ papers.take 2, ¬ "VR 1.0".toList <:+: lineText p
  notMedline : ∀ p ∈ papers.head?, ¬ "PMID- ".toList <+: lineText p

/-- The column lists these things, with the separator between them. An empty bare cell lists nothing. -/
def Lists (sep : String) (cell : Cell) (l : List Str) : Prop :=
  (cell.value = none ∧ l = []) ∨ (l ≠ [] ∧ cell.value = some (sep.toList.intercalate l) ∧ ∀ x ∈ l, ¬ sep.toList <:+: x)

/-- The columns that list things, with what stands between them. -/
def listColumns : List (String × String) :=
  [("Authors", ", "), ("Sponsors", ";"), ("Authors with affiliations", "; "), ("Author Keywords", "; "), ("Index Keywords", "; "), ("Tradenames", "; "),
   ("Manufacturers", "; "), ("Correspondence Address", "; "), ("ISBN", "; "), ("Language of Original Document", "; ")]

/-- The columns that are texts. -/
def textColumns : List String :=
  ["Title", "Source title", "Volume", "Issue", "Art. No.", "Page start", "Page end", "DOI", "Link", "Affiliations", "Abstract", "Molecular Sequence Numbers",
   "Chemicals/CAS", "Editors", "Publisher", "Conference name", "Conference date", "Conference location", "ISSN", "CODEN", "PubMed ID", "Abbreviated Source Title",
   "Document Type", "Source", "EID"]

/-- The names under which a column can be read. -/
def NameOf (column k : String) : Prop := k = column ∨ (k, column) ∈ CommonNames.scopus

/-- A paper with every cell in quotes, as they are written. -/
def requote (p : Paper) : Paper := fun c => .quoted ((p c).value.getD [])

/-- A paper whose line can still be read when every cell is in quotes: bare cells have no quotes, and the line does not look like the start of a file of Web of
Science. -/
def Plain (p : Paper) : Prop := (∀ c ∈ columns, ∀ s, p c = .bare s → '"' ∉ s) ∧ ¬ "VR 1.0".toList <:+: lineText (requote p)

end Verif.Spec.ScopusPipeline
