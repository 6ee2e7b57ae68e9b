import Verif.Model.J9Files
import Verif.Spec.JournalDB

/-!
# Where the pages of abbreviations and the databases belong (C106)
-/
set_option autoImplicit false
namespace Verif.Spec.J9Files
open Verif.Py Verif.Spec.Paths

/-- The pages: one for the digits and one for every capital letter. -/
def PageName (id : Str) : Prop := id = "0-9".toList ∨ ∃ c : Char, 'A' ≤ c ∧ c ≤ 'Z' ∧ id = [c]

/-- The address of a page, as the documentation of `j9urlGenerator` has it. -/
def address (id : Str) : Str := "https://images.webofknowledge.com/images/help/WOS/".toList ++ id ++ "_abrvjt.html".toList

/-- The name of the file of a saved page. -/
def fileOf (id : Str) : Str := id ++ "_abrvjt.html".toList

/-- The directory for the pages of a day: inside `j9Raws` beside the source, its name beginning with the date. -/
def rawsOf (src : Loc) : Loc := src ++ ["j9Raws".toList]
def dayOf (src : Loc) (day : Str) : Loc := rawsOf src ++ [day ++ "_J9_AbbreviationDocs".toList]

/-- A name of a file or a directory, not a path. -/
structure Name (x : Str) : Prop where
  noSlash : '/' ∉ x
  name : x ≠ [] ∧ x ≠ ['.'] ∧ x ≠ ['.', '.']

/-- The directory `src` is there and nothing is in the way of the directories and files to be made. -/
structure Room (fs : FS) (src : Loc) (day : Str) : Prop where
  there : fs.dir src = true
  date : '/' ∉ day
  raws : fs.file (rawsOf src) = none
  dayDir : fs.file (dayOf src day) = none
  pages : ∀ id, PageName id → fs.dir (dayOf src day ++ [fileOf id]) = false

/-- Moreover the package lies in `src` and is known by an absolute path. -/
structure Ready (fs : FS) (pkg : Str) (src : Loc) (day : Str) : Prop where
  absolute : pkg.head? = some '/'
  place : walk [] pkg = src
  room : Room fs src day

/-- What a database has for an abbreviation after an update with these pages: what it had, else the names on the last page that has it. -/
def afterUpdate (old : Dict Str Str) (pages : List Str) (j : Str) : Option Str :=
  (old.get? j).or (Verif.Spec.JournalDB.downloaded j (.update (some (pages.map (Str.split ['\n'])))))

end Verif.Spec.J9Files
