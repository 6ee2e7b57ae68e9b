import Verif.Model.Pipeline
import Verif.Model.RecordMapping
import Verif.Model.BibEntry

/-!
# From a Web of Science file to a bib file

`RecordCollection(file).writeBib(…)`: the reader of `Model.Pipeline`, what `bibString` reads of each record, and `Model.BibEntry.writeBib`. Only `reducedOutput = False`.
-/
set_option autoImplicit false
namespace Verif.Model.FileBib
open Verif.Py Verif.Model.Wos Verif.Model.WosFields Verif.Model.RecordAccess Verif.Model.Pipeline

/-- A value as `_bibFormatter` and the style of Web of Science take it (mkRecord.py:758-761, 777-780): `str` of a citation is the text it was made from. -/
def bibVal : FVal → Bib.Value
  | .text s => .str s
  | .num n => .other (showInt n)
  | .texts l => .list l
  | .cites l => .list l

/-- `str` of the value when it is true (mkRecord.py:736-740). -/
def truthText : Option FVal → Option Str
  | some (.num n) => if n = 0 then none else some (showInt n)
  | some (.text s) => if s = [] then none else some s
  | _ => none

/-- The list of authors (mkRecord.py:732, 751). -/
def authorList : Option FVal → Option (List Str)
  | some (.texts l) => some l
  | _ => none

/-- What `bibString` reads of a record (mkRecord.py:729-755). Year, month and title are read for nice keys only; an exception of one of them goes through. -/
def bibRec (W : World) (before : Wos.Rec → List (Op String FVal)) (niceIDs : Bool) (r : Wos.Rec) : Except AErr BibEntry.Rec := do
  let a ← value W before "authorsFull" r
  let y ← if niceIDs then value W before "year" r else .ok none
  let m ← if niceIDs then value W before "month" r else .ok none
  let t ← if niceIDs then value W before "title" r else .ok none
  let items ← RecordMapping.items (cls W) 3 (held W (before r) r)
  return { bad := r.bad, id := r.id, authorsFull := authorList a, year := truthText y, month := truthText m, title := truthText t,
           items := items.map (fun p => (p.1.toList, bibVal p.2)), field := fun _ => none }

/-- `RecordCollection(file).writeBib(fname, maxStringLength, wosMode, False, niceIDs)` (recordCollection.py:373-418): the text written, and the exception that ended it. When a
field cannot be read only that is kept, not what was written before. -/
def bib (W : World) (before : Wos.Rec → List (Op String FVal)) (order : List Wos.Rec → List Wos.Rec) (title : Str → Str) (maxStringLength : Int) (wosMode niceIDs : Bool)
    (text : Str) : Option (Except AErr (Str × Option BibEntry.Err)) :=
  (records W order text).map (fun rs => do
    let l ← rs.mapM (bibRec W before niceIDs)
    return BibEntry.writeBib title maxStringLength wosMode false niceIDs l)

end Verif.Model.FileBib
