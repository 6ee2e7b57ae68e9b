import Verif.Py.StrOps

/-!
# Lines of a Scopus file

A line has one cell for each column, separated by commas. A cell is bare or stands in quotes; inside quotes each quote is doubled, and the
value of the cell is the text between the outer quotes as it stands.
-/
set_option autoImplicit false
namespace Verif.Spec.Scopus
open Verif.Py

/-- Doubling the quotes. -/
def escape (s : Str) : Str := s.flatMap (fun c => if c = '"' then ['"', '"'] else [c])

inductive Cell where
  | bare (s : Str)
  | quoted (v : Str)

/-- The text of a cell. -/
def Cell.text : Cell → Str
  | .bare s => s
  | .quoted v => '"' :: v ++ ['"']

/-- The value of a cell; an empty bare cell has none. -/
def Cell.value : Cell → Option Str
  | .bare s => if s = [] then none else some s
  | .quoted v => some v

/-- The first character which is no quote is no comma, no bar and no dollar sign. -/
def StartOk (v : Str) : Prop := ∃ q c t, v = List.replicate q '"' ++ c :: t ∧ c ∉ ['"', ',', '|', '$']

/-- Cells the code can read: bare ones have no comma and do not end in a quote, in quoted ones each quote is doubled; the start of one with a
comma must be recognisable. -/
def Cell.Ok : Cell → Prop
  | .bare s => ',' ∉ s ∧ s.getLast? ≠ some '"'
  | .quoted v => (∃ u, v = escape u) ∧ (',' ∈ v → StartOk v)

/-- The number of quotes a text starts with. -/
def lead : Str → Nat
  | [] => 0
  | c :: s => if c = '"' then lead s + 1 else 0

/-- The first character that is no quote. -/
def firstOther : Str → Option Char
  | [] => none
  | c :: s => if c = '"' then firstOther s else some c

/-- Which values come back from a file. Without commas: the number of quotes at the start is even. With commas: this holds for the first and for
the last of the pieces between the commas, the quotes of the first piece are followed by a character that is no bar and no dollar sign, and
no piece between starts with an odd number of quotes followed by such a character. -/
def Readable (v : Str) : Prop :=
  (',' ∉ v ∧ lead v % 2 = 0) ∨
  ∃ first mid last, v = Str.join [','] (first :: mid ++ [last]) ∧ (∀ p ∈ first :: mid ++ [last], ',' ∉ p) ∧
    lead first % 2 = 0 ∧ (∃ c, firstOther first = some c ∧ c ≠ '|' ∧ c ≠ '$') ∧ lead last % 2 = 0 ∧
    ∀ m ∈ mid, lead m % 2 = 1 → firstOther m = none ∨ firstOther m = some '|' ∨ firstOther m = some '$'

/-- The columns of a Scopus file, in their order. -/
def columns : List String :=
  ["Authors", "Title", "Year", "Source title", "Volume", "Issue", "Art. No.", "Page start", "Page end", "Page count", "Cited by", "DOI", "Link",
   "Affiliations", "Authors with affiliations", "Abstract", "Author Keywords", "Index Keywords", "Molecular Sequence Numbers", "Chemicals/CAS",
   "Tradenames", "Manufacturers", "Funding Details", "Funding Text", "References", "Correspondence Address", "Editors", "Sponsors", "Publisher",
   "Conference name", "Conference date", "Conference location", "Conference code", "ISSN", "ISBN", "CODEN", "PubMed ID",
   "Language of Original Document", "Abbreviated Source Title", "Document Type", "Source", "EID"]

/-- The line of a record: the value of each column in quotes, nothing between the quotes when the record does not have the column. -/
def line (value : Str → Option Str) : Str :=
  [','].intercalate (columns.map (fun c => "\"".toList ++ (value c.toList).getD [] ++ "\"".toList)) ++ ['\n']

end Verif.Spec.Scopus
