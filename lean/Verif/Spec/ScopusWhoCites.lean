import Verif.Spec.ScopusPipeline

/-!
# References to papers, and how Scopus writes them (C119)
-/
set_option autoImplicit false
namespace Verif.Spec.ScopusWhoCites
open Verif.Py Verif.Spec.ScopusPipeline Verif.Spec.Scopus

/-- A reference to a work: its first author, the title, if there is one, the year, the journal, and volume and first page where they are known. -/
structure Ref where
  author : Str
  title : Option Str
  year : Nat
  journal : Str
  volume : Option Str
  page : Option Str

/-- A part that can be missing, and what stands before and after it. -/
def part (pre : String) (o : Option Str) (post : String) : Str :=
  match o with
  | none => []
  | some s => pre.toList ++ s ++ post.toList

/-- A reference in a line, the author with no comma in the name: `Nunez R., What did Weierstrass really define? (1998) Math Cognition, 4, PP. 85`. -/
def Ref.line (r : Ref) : Str :=
  r.author ++ ", ".toList ++ part "" r.title " " ++ "(".toList ++ showNat r.year ++ ") ".toList ++ r.journal ++ ", ".toList ++ part "" r.volume ", " ++ part "PP. " r.page ""

/-- What stands for a work in a network: author, year and journal, in upper case. -/
def Ref.label (upper : Str → Str) (r : Ref) : Str := upper r.author ++ ", ".toList ++ showNat r.year ++ ", ".toList ++ upper r.journal

/-- The text of a cell, if there is one that is not empty. -/
def textOf (p : Paper) (column : String) : Option Str := (p column).value.filter (fun s => s ≠ [])

/-- The reference to a paper of the file. -/
structure Describes (r : Ref) (p : Paper) : Prop where
  author : ∃ first others, Lists ", " (p "Authors") (first :: others) ∧ r.author = first.filter (fun c => c ≠ ',')
  title : r.title = (textOf p "Title").map (fun t => t.filter (fun c => c ≠ '(' && c ≠ ')'))
  year : (p "Year").value = some (showNat r.year)
  journal : (p "Source title").value = some r.journal
  volume : r.volume = textOf p "Volume"
  page : r.page = textOf p "Page start"

end Verif.Spec.ScopusWhoCites
