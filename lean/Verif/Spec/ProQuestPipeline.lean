import Verif.Spec.ProQuestFile
import Verif.Spec.CommonNames

/-!
# A ProQuest file as a list of papers (C111)
-/
set_option autoImplicit false
namespace Verif.Spec.ProQuestPipeline
open Verif.Py Verif.Spec.ProQuestFile
open Verif.Spec.ProQuest (separator)

/-- A paper is what its document says: labels with their lines. -/
abbrev Paper := Dict Str (List Str)

/-- The first line under a label. -/
def firstOf (p : Paper) (label : String) : Option Str := (p.get? label.toList).bind List.head?

/-- The names that stand for labels or for nothing in the file. -/
def madeNames : List String := ["selfCitation", "id", "beginningPage", "authorsFull", "title", "abstract", "keywords", "authorsShort", "year"]

/-- The lines of a file with these papers: it starts as ProQuest files do, has the layout of `Verif.Spec.ProQuestFile`, and its papers have different numbers. -/
structure FileOk (ws : Char → Bool) (toInt : Str → Option Int) (lines : List Str) (papers : List Paper) : Prop where
  complete : ∀ l ∈ lines, ∃ x, l = x ++ ['\n'] ∧ '\n' ∉ x ∧ '\r' ∉ x
  start : lines.take 3 = [separator, "\n".toList, "Report Information from ProQuest\n".toList]
  layout : ∃ (front : List Str) (index : List (Int × Str)) (docs : List Document) (tail : List Str),
    lines = front ++ docs.flatMap Document.lines ++ "Bibliography\n".toList :: tail ∧ Contents toInt front index ∧
    List.Forall₂ (Document.Good ws toInt index) docs papers
  number : ∀ p ∈ papers, ∃ v, firstOf p "ProQuest document ID" = some v
  different : (papers.map (fun p => firstOf p "ProQuest document ID")).Nodup
  labels : ∀ p ∈ papers, ∀ k ∈ madeNames, p.get? k.toList = none

/-- The labels whose first line is a list, with what stands between. -/
def listLabels : List (String × String) := [("Subject", "; "), ("Identifier / keyword", ", ")]

/-- The label lists these things. -/
def Lists (sep : String) (p : Paper) (label : String) (l : List Str) : Prop :=
  (p.get? label.toList = none ∧ l = []) ∨ (l ≠ [] ∧ (∃ more, p.get? label.toList = some (sep.toList.intercalate l :: more)) ∧ ∀ x ∈ l, ¬ sep.toList <:+: x)

/-- The labels of one line. -/
def oneLine : List String :=
  ["Author", "Title", "Advisor", "Name", "Committee member", "Copyright", "Country of publication", "Database", "Degree", "Degree date",
   "Department", "Dissertation/thesis number", "Document type", "Language", "Number of pages", "Place of publication", "ProQuest document ID",
   "Publication year", "School code", "Source", "Source type", "University location", "University/institution", "ISBN", "Publication subject"]

/-- The values of a paper under a label: the things it lists or its one line. -/
def Values (p : Paper) (label : String) (l : List Str) : Prop :=
  (∃ sep, (label, sep) ∈ listLabels ∧ Lists sep p label l) ∨ (label ∈ oneLine ∧ l = (firstOf p label).toList)

/-- The names under which a label can be read. -/
def NameOf (label k : String) : Prop := k = label ∨ (k, label) ∈ CommonNames.proQuest

end Verif.Spec.ProQuestPipeline
