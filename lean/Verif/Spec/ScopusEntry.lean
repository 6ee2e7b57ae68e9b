import Verif.Py.Decimal

/-!
# References as Scopus writes them (C123)

`Nunez, R., Edwards, L.D., What did Weierstrass really define? (1998) Math Cognition, 4 (2), pp. 85-113`
-/
set_option autoImplicit false
namespace Verif.Spec.ScopusEntry
open Verif.Py

/-- A reference: family name and initials of the first author, whatever stands between the first author and the year (other authors, the title), the year, the journal, and the rest. -/
structure Entry where
  family : Str
  initials : Str
  middle : Option Str
  year : Nat
  journal : Str
  tail : Str

/-- The first author. -/
def Entry.author (e : Entry) : Str := e.family ++ ", ".toList ++ e.initials ++ ".".toList

/-- What stands between the first author and the year. -/
def Entry.between (e : Entry) : Str :=
  match e.middle with
  | none => []
  | some m => m ++ " ".toList

/-- The reference in a line. -/
def Entry.line (e : Entry) : Str := e.author ++ ", ".toList ++ e.between ++ "(".toList ++ showNat e.year ++ ") ".toList ++ e.journal ++ e.tail

/-- What stands for the work: author, year and journal, in upper case. -/
def Entry.label (upper : Str → Str) (e : Entry) : Str := upper e.author ++ ", ".toList ++ showNat e.year ++ ", ".toList ++ upper e.journal

/-- Letters (`word`), and the other characters of family names and of initials. -/
def FamilyName (word : Char → Bool) (s : Str) : Prop := s ≠ [] ∧ ∀ c ∈ s, word c = true ∨ c = '-' ∨ c = ' '
def Initials (word : Char → Bool) (s : Str) : Prop := s ≠ [] ∧ ∀ c ∈ s, word c = true ∨ c = '.' ∨ c = '-'

/-- A well-formed reference: no parenthesis before the year, which has two to five digits, no comma in the journal, and one after it if anything follows. -/
structure Ok (word : Char → Bool) (upper : Str → Str) (e : Entry) : Prop where
  family : FamilyName word (upper e.family)
  initials : Initials word (upper e.initials)
  middle : ∀ m, e.middle = some m → m ≠ [] ∧ '(' ∉ m
  long : 10 ≤ e.year
  short : e.year < 100000
  journal : e.journal ≠ [] ∧ ',' ∉ e.journal
  tail : e.tail = [] ∨ ∃ t, e.tail = ',' :: t

/-- A part that can be missing, and what stands before and after it. -/
def part (pre : String) (o : Option Str) (post : String) : Str :=
  match o with
  | none => []
  | some s => pre.toList ++ s ++ post.toList

/-- Volume, issue and pages in the rest of a reference: `, 4 (2), pp. 85-113`. -/
def places (volume : Str) (issue pages : Option Str) : Str := ", ".toList ++ volume ++ part " (" issue ")" ++ part ", pp. " pages ""

/-- Letters, digits and dashes. -/
def Plain (word : Char → Bool) (s : Str) : Prop := ∀ c ∈ s, word c = true ∨ c = '-'

end Verif.Spec.ScopusEntry
