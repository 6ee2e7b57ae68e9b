import Verif.Spec.MedlinePipeline
import Verif.Spec.ScopusPipeline
import Verif.Spec.ScopusEntry
import Verif.Model.CiteParse

/-!
# What the papers of a file have under a name, and how often a year is cited (C124)

Of the model only `Chars` is used: what Python takes for letters and digits, and `str.upper`.
-/
set_option autoImplicit false
namespace Verif.Spec.OtherTables
open Verif.Py

/-- The year of a paper of a Medline file: the number its date starts with, if it has a date. -/
def MedlineYears (papers : List MedlinePipeline.Paper) (year : MedlinePipeline.Paper → Option Nat) : Prop :=
  ∀ p ∈ papers, (year p = none ∧ MedlinePipeline.valuesOf p "DP" = []) ∨ ∃ y, year p = some y ∧ MedlinePipeline.OfYear p y

/-- What the papers of a Scopus file have under a name: what a column lists, or the text of a column. -/
def ScopusItems (papers : List ScopusPipeline.Paper) (k : String) (items : ScopusPipeline.Paper → List Str) : Prop :=
  (∃ c sep, (c, sep) ∈ ScopusPipeline.listColumns ∧ ScopusPipeline.NameOf c k ∧ ∀ p ∈ papers, ScopusPipeline.Lists sep (p c) (items p)) ∨
  ∃ c ∈ ScopusPipeline.textColumns, ScopusPipeline.NameOf c k ∧ ∀ p ∈ papers, items p = (p c).value.toList

/-- The year of a paper of a Scopus file. -/
def ScopusYears (papers : List ScopusPipeline.Paper) (year : ScopusPipeline.Paper → Option Nat) : Prop := ∀ p ∈ papers, (p "Year").value = (year p).map showNat

/-- The year of a reference: that of a well-formed one; and none, if the first parenthesis does not start with a digit or there is no parenthesis. -/
def YearOf (C : Model.CiteParse.Chars) (s : Str) (y : Option Nat) : Prop :=
  (∃ e : ScopusEntry.Entry, ScopusEntry.Ok C.word C.upper e ∧ s = e.line ∧ y = some e.year) ∨
  (y = none ∧ ('(' ∉ s ∨ ∃ a c b, s = a ++ '(' :: c :: b ∧ '(' ∉ a ∧ ∀ d ∈ C.up c, C.digit d = false))

/-- How often the papers cite works of the year, where a paper is only asked when it is two years younger or has no year. -/
def citedIn {α : Type} (papers : List α) (year : α → Option Nat) (cited : α → List (Option Nat)) (y : Int) : Nat :=
  (papers.map (fun p => if (year p).any (fun z => decide ((z : Int) < y + 2)) then 0 else (cited p).countP (fun o => o.any (fun n => decide ((n : Int) = y))))).sum

end Verif.Spec.OtherTables
