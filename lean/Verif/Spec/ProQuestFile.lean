import Verif.Spec.ProQuest

/-!
# The ProQuest file format

Twelve lines, then the table of contents: a blank line and a line `number. title` for each document. A line, the line `Bibliography` and three more
lines follow, then the documents: a line `Document number of total`, the lines of the record, the separator and one more line. The second line
`Bibliography` ends what is read.
-/
set_option autoImplicit false
namespace Verif.Spec.ProQuestFile
open Verif.Py
open Verif.Spec.ProQuest (separator)

/-- `l` is cut at the first `sep` into `a` and `b`; without one `a` is all of it. -/
def Cut (sep l a b : Str) : Prop := (l = a ++ sep ++ b ∧ ¬ sep <:+: a ++ sep.dropLast) ∨ (¬ sep <:+: l ∧ a = l ∧ b = [])

/-- A line of the table of contents (with its line end). -/
def IndexLine (toInt : Str → Option Int) (l : Str) (n : Int) (title : Str) : Prop :=
  l ≠ "Bibliography\n".toList ∧ ∃ a b, Cut ". ".toList l a b ∧ toInt a = some n ∧ title = b.dropLast

/-- The line in front of a document. -/
def DocumentLine (toInt : Str → Option Int) (l : Str) (n : Int) : Prop :=
  ∃ a b s, l = "Document ".toList ++ s ∧ Cut " of ".toList s a b ∧ toInt a = some n

/-- The title which the table of contents gives to a number: the last one. -/
def titleIn (index : List (Int × Str)) (n : Int) : Option Str := (index.reverse.find? (fun p => p.1 = n)).map (·.2)

/-- A document: its first line, its lines without the separator, and the line behind the separator. -/
structure Document where
  head : Str
  body : List Str
  after : Str

def Document.lines (d : Document) : List Str := d.head :: d.body ++ [separator, d.after]

/-- `fields` is what the lines `body` of a record say. -/
def Reads (ws : Char → Bool) (body : List Str) (fields : Dict Str (List Str)) : Prop :=
  separator ∉ body ∧
  (((∀ l ∈ body, l = "\n".toList) ∧ fields = []) ∨
    ∃ (r : ProQuest.Record) (facts : List (Str × List Str)), r.lines = body.filter (fun l => l ≠ "\n".toList) ∧ r.Ok ∧ r.Says ws facts ∧
      fields = ProQuest.fields facts)

/-- The lines start with a record that has a line which continues nothing: after blank lines are left out, the line after the name or after the url of
the last author does not start an entry. -/
def Stray (ls : List Str) : Prop :=
  ∃ (read rest : List Str) (name stray : Str) (entries : List ProQuest.Entry), ls = read ++ rest ∧ separator ∉ read ∧
    read.filter (fun l => l ≠ "\n".toList) = name :: entries.flatMap ProQuest.Entry.lines ++ [stray] ∧ (∀ e ∈ entries, e.Ok) ∧
    (∀ e, entries.getLast? = some e → ∃ line url, e = .author line url) ∧ ¬ ProQuest.Starts stray

/-- A document that can be read: its number is in the table of contents, with the title the record has. -/
def Document.Good (ws : Char → Bool) (toInt : Str → Option Int) (index : List (Int × Str)) (d : Document) (fields : Dict Str (List Str)) : Prop :=
  ∃ n t more, DocumentLine toInt d.head n ∧ Reads ws d.body fields ∧ titleIn index n = some t ∧ fields.get? "Title".toList = some (t :: more)

/-- The table of contents with the lines around it. -/
structure Contents (toInt : Str → Option Int) (lines : List Str) (index : List (Int × Str)) : Prop where
  shape : ∃ (pre : List Str) (entries : List (Str × Str)) (blank : Str) (gap : List Str), pre.length = 12 ∧ gap.length = 3 ∧
    lines = pre ++ entries.flatMap (fun e => [e.1, e.2]) ++ [blank, "Bibliography\n".toList] ++ gap ∧
    List.Forall₂ (fun e p => IndexLine toInt e.2 p.1 p.2) entries index

end Verif.Spec.ProQuestFile
