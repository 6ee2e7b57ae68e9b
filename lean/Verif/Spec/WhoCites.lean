import Verif.Spec.Pipeline
import Verif.Py.Decimal

/-!
# References to papers, and how Web of Science writes them (C118)
-/
set_option autoImplicit false
namespace Verif.Spec.WhoCites
open Verif.Py Verif.Spec.Pipeline

/-- A reference to a work: its first author, the year, the journal (or the title of a book), and volume, first page and DOI where they are known. -/
structure Ref where
  author : Str
  year : Nat
  journal : Str
  volume : Option Str
  page : Option Str
  doi : Option Str

/-- A part of a reference that can be missing. -/
def part (mark : String) : Option Str → Str
  | none => []
  | some s => ", ".toList ++ mark.toList ++ s

/-- The line of a reference: `Nunez R, 1998, MATH COGNITION, V4, P85, DOI 10.1080/135467998387343`. -/
def Ref.line (r : Ref) : Str :=
  r.author ++ ", ".toList ++ showNat r.year ++ ", ".toList ++ r.journal ++ part "V" r.volume ++ part "P" r.page ++ part "DOI " r.doi

/-- A reference that can be told into its parts again: two characters or more of the author, the first no digit, a year, and no comma within a part. -/
structure Ref.Ok (r : Ref) : Prop where
  author : ∃ c d t, r.author = c :: d :: t ∧ isDig c = false
  noComma : ',' ∉ r.author ∧ ',' ∉ r.journal
  year : 0 < r.year ∧ r.year < 100000
  journal : r.journal ≠ []
  volume : ∀ s, r.volume = some s → s ≠ [] ∧ ',' ∉ s
  page : ∀ s, r.page = some s → s ≠ [] ∧ ',' ∉ s
  doi : ∀ s, r.doi = some s → s ≠ [] ∧ '\n' ∉ s

/-- What stands for a work in a network: author, without full stops and in title case, year, and journal in upper case. -/
def Ref.label (upper title : Str → Str) (r : Ref) : Str :=
  title ((upper r.author).filter (fun c => c ≠ '.')) ++ ", ".toList ++ showNat r.year ++ ", ".toList ++ upper r.journal

/-- The first line of a field, if there is one that is not empty. -/
def firstOf (p : Paper) (tag : String) : Option Str := (linesOf p tag).head?.filter (fun s => s ≠ [])

/-- The reference to a paper of the file: its first author, without commas, the year, the short name of the journal, or the title when there is none, and the rest. -/
structure Describes (strip : Str → Str) (r : Ref) (p : Paper) : Prop where
  author : (linesOf p "AU").head?.map (fun a => a.filter (fun c => c ≠ ',')) = some r.author
  year : 1000 ≤ r.year ∧ r.year < 10000 ∧ (linesOf p "PY").head? = some (showNat r.year)
  journal : firstOf p "J9" = some r.journal ∨ firstOf p "J9" = none ∧ linesOf p "TI" ≠ [] ∧ textOf p "TI" = r.journal
  volume : r.volume = ((linesOf p "VL").head?.map strip).filter (fun s => s ≠ [])
  page : r.page = ((linesOf p "BP").head?.map strip).filter (fun s => s ≠ [])
  doi : r.doi = firstOf p "DI"

end Verif.Spec.WhoCites
