import Verif.Model.ScopusPipeline
import Verif.Model.FileFrames

/-!
# From a Scopus file to the table of `makeDict`

`RecordCollection(file).makeDict(…)`: the reader of `Model.ScopusPipeline` followed by `Model.Tables`. The table of long names that `makeDict` looks at is the one of Web of
Science (recordCollection.py:16), whatever the records are.
-/
set_option autoImplicit false
namespace Verif.Model.ScopusDict
open Verif.Py Verif.Model.OtherFields Verif.Model.RecordAccess Verif.Model.ScopusPipeline

/-- What `makeDict` finds in a record; `None` is `none`. Exceptions of a field are looked for before, in `readAll`; the fields of a record are a
dictionary, so `dedup` leaves its keys as they are; the counts of `authGenders` are left open. -/
def dictView (W : World) (before : Scopus.Rec → List (Op String SVal)) (genders : Scopus.Rec → Nat × Nat × Nat) : Tables.View Str (Option SVal) Scopus.Rec where
  keys r := (r.fields.map Prod.fst).dedup
  get r t := match value W before (String.ofList t) r with
    | .ok v => v
    | .error _ => none
  numAuthors r := match value W before "authorsShort" r with
    | .ok (some (.texts l)) => some (.num l.length)
    | _ => some (.num 0)
  genders r := (some (.num (genders r).1), some (.num (genders r).2.1), some (.num (genders r).2.2))

/-- Reads everything, for the exceptions that go through. -/
def readAll (W : World) (before : Scopus.Rec → List (Op String SVal)) (names : List Str) (rs : List Scopus.Rec) : Except AErr (List (List (Option SVal))) :=
  rs.mapM (fun r => names.mapM (fun t => value W before (String.ofList t) r))

/-- `RecordCollection(file).makeDict(onlyTheseTags, longNames, raw = False, numAuthors, genderCounts)` (recordCollection.py:698-753). That a field raises is kept, not
which exception comes first. `some (.ok none)` is the `KeyError` of a missing long name. -/
def frame (W : World) (before : Scopus.Rec → List (Op String SVal)) (order : List Scopus.Rec → List Scopus.Rec) (genders : Scopus.Rec → Nat × Nat × Nat)
    (only : Option (List Str)) (longNames numAuthors genderCounts : Bool) (text : Str) : Option (Except AErr (Option (Dict Str (List (Option SVal))))) :=
  (records order text).map (fun rs => do
    let v := dictView W before genders
    let fields := (Tables.retrievedFields (TagNames.fullToTag.get? ·) (TagNames.wosTags.get? ·) only longNames v.keys rs).getD []
    let _ ← readAll W before (fields ++ (if numAuthors then ["authorsShort".toList] else [])) rs
    return Tables.makeDict FileFrames.extras (TagNames.fullToTag.get? ·) (TagNames.wosTags.get? ·) v only longNames numAuthors genderCounts rs)

end Verif.Model.ScopusDict
