import Verif.Model.CiteParse

/-!
# The citation of a Scopus record

Models `ScopusRecord.createCitation` (scopus/recordScopus.py:107-164). The string is read by `parseScopus`.
-/
set_option autoImplicit false
namespace Verif.Model.ScopusCite
open Verif.Py Verif.Model.CiteParse Verif.Model.Citation

/-- What is read from the record: `authorsShort` (none if the tag is missing) and the others, `none` if missing (recordScopus.py:126-145). The
year is the only number; `volume` and `beginningPage` are strings already. -/
structure SVals where
  authors : List Str
  title : Option Str
  year : Option Int
  journal : Option Str
  volume : Option Str
  page : Option Str

/-- `a.replace(',', '')` (recordScopus.py:131, 134). -/
def plainAuthor (a : Str) : Str := Str.replace ",".toList [] a

/-- `valsStr` without the author (recordScopus.py:135-145). A value that is empty, or a year 0, counts as missing. -/
def valsStr (v : SVals) : Str :=
  ((truthy v.title).flatMap (fun t => Str.replace ")".toList [] (Str.replace "(".toList [] t) ++ " ".toList)) ++
  ((v.year.toList.filter (fun i => i ≠ 0)).flatMap (fun y => "(".toList ++ showInt y ++ ") ".toList)) ++
  ((truthy v.journal).flatMap (fun j => j ++ ", ".toList)) ++
  ((truthy v.volume).flatMap (fun x => x ++ ", ".toList)) ++
  ((truthy v.page).flatMap (fun x => "PP. ".toList ++ x))

/-- The string of `createCitation()` (recordScopus.py:132-134). -/
def citeString (v : SVals) : Str :=
  match v.authors with
  | [] => valsStr v
  | a :: _ => plainAuthor a ++ ", ".toList ++ valsStr v

/-- The strings of `createCitation(multiCite = True)` (recordScopus.py:146-149): nothing is put between the author and the rest. -/
def citeStrings (v : SVals) : List Str :=
  if v.authors = [] then [valsStr v] else v.authors.map (fun a => plainAuthor a ++ valsStr v)

/-- A citation, and the `name` that is put into a bad one (that of a good one is not modelled). -/
structure SCite where
  parsed : Parsed
  name : Option Str
  deriving DecidableEq

/-- Bad citations are given the year, title and journal of the record (recordScopus.py:155-158, 161-164). -/
def mend (C : Chars) (v : SVals) (p : Parsed) : SCite :=
  if p.cite.bad then
    ⟨{ p with cite := { p.cite with year := some (some (v.year.getD 0)), journal := some (some (C.upper (v.journal.getD []))) } },
      some (C.upper (v.title.getD []))⟩
  else ⟨p, none⟩

/-- `createCitation()` (recordScopus.py:107-164). -/
def createCitation (C : Chars) (v : SVals) : SCite := mend C v (parseScopus C (citeString v))

/-- `createCitation(multiCite = True)` -/
def createCitations (C : Chars) (v : SVals) : List SCite := (citeStrings v).map (fun s => mend C v (parseScopus C s))

end Verif.Model.ScopusCite
