import Verif.Spec.FileFrames
import Verif.Spec.BibEntry
import Verif.Spec.Bib
import Verif.Py.Decimal

/-! # The bib file of the papers of a Web of Science file -/
set_option autoImplicit false
namespace Verif.Spec.FileBib
open Verif.Py Verif.Model.WosFields Verif.Spec.Pipeline Verif.Spec.BibEntry Verif.Spec.WosMeaning

/-- A value as a text: lists with ` and ` between the items. -/
def shown (v : FVal) : Str := WosMeaning.shown " and ".toList v

/-- A text as bib files hold it: in quotes, or in braces with the braces escaped when it has quotes. -/
def quoted (s : Str) : Str := if '"' ∈ s then "{".toList ++ Bib.escaped s ++ "}".toList else "\"".toList ++ s ++ "\"".toList

/-- The value as the text of an entry in the style of Web of Science takes it. -/
def asValue : FVal → Verif.Model.Bib.Value
  | .text s => .str s
  | .num n => .other (showInt n)
  | .texts l => .list l
  | .cites l => .list l

/-- The accession number. -/
def ident (p : Paper) : Str := (linesOf p "UT").headD []

/-- The authors in one text. -/
def authors (p : Paper) : Str := if linesOf p "AF" = [] then "None".toList else " and ".toList.intercalate (linesOf p "AF")

/-- The value under a tag, if it is there. -/
def under (cell : Str × List Str → FVal) (p : Paper) (tag : String) : Option Str :=
  if linesOf p tag = [] then none else some (shown (cell (tag.toList, linesOf p tag)))

/-- The first part of a nice key: the first author with capitals, without blanks, commas and dots, then the year and the month. -/
def niceHead (title : Str → Str) (cell : Str × List Str → FVal) (p : Paper) : Str :=
  (match linesOf p "AF" with
    | a :: _ => (title a).filter (fun c => c ≠ ' ' ∧ c ≠ ',' ∧ c ≠ '.')
    | [] => []) ++
  (match under cell p "PY" with
    | some y => '-' :: y
    | none => []) ++
  (match under cell p "PD" with
    | some m => '-' :: m
    | none => [])

/-- The key of a paper. Nice keys have author, year and month, then words of the title, longest first, as many as it takes to reach 35 characters, at least one, and the accession
number when that is shorter than 30. Other keys are the accession number, in the style of Web of Science with `ISI:` for its first four characters. -/
def KeyOf (title : Str → Str) (wos nice : Bool) (cell : Str × List Str → FVal) (p : Paper) (key : Str) : Prop :=
  if nice then
    ∃ body : Str, key = (if body.length < 30 then body ++ ident p else body) ∧
      ((textOf p "TI" = [] ∧ body = niceHead title cell p) ∨
       (textOf p "TI" ≠ [] ∧ ∃ (ws : List Str) (k : Nat), ws.Perm (Str.split " ".toList (textOf p "TI")) ∧ ws.Pairwise (fun a b => b.length ≤ a.length) ∧
          1 ≤ k ∧ k ≤ ws.length ∧ body = niceHead title cell p ++ (ws.take k).flatMap (fun w => '-' :: title w) ∧
          (∀ j, 1 ≤ j → j < k → (niceHead title cell p ++ (ws.take j).flatMap (fun w => '-' :: title w)).length < 35) ∧
          (k < ws.length → 35 ≤ body.length)))
  else key = if wos then "ISI:".toList ++ (ident p).drop 4 else ident p

/-- The first lines of the file. -/
def preamble : Str :=
  ("%This file was generated by the metaknowledge Python package.\n%The contents have been automatically generated and are likely to not work with\n" ++
    "%LaTeX without some human intervention. This file is meant for other automatic\n%systems and not to be used directly for making citations\n").toList

end Verif.Spec.FileBib
