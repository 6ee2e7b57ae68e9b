import Verif.Model.MedlinePipeline
import Verif.Model.FileFrames

/-!
# From a Medline file to the table of `makeDict`

`RecordCollection(file).makeDict(…)`: the reader of `Model.MedlinePipeline` followed by `Model.Tables`. The table of long names that `makeDict` looks at is the one of Web of
Science (recordCollection.py:16), whatever the records are.
-/
set_option autoImplicit false
namespace Verif.Model.MedlineFrames
open Verif.Py Verif.Model.MedlineFields Verif.Model.WosFields Verif.Model.RecordAccess Verif.Model.MedlinePipeline

/-- What `makeDict` finds in a record; `None` is `none`. Exceptions of a field are looked for before, in `readAll`; the fields of a record are a
dictionary, so `dedup` leaves its keys as they are; the counts of `authGenders` are left open. -/
def dictView (W : World) (before : Medline.Rec → List (Op String PVal)) (genders : Medline.Rec → Nat × Nat × Nat) : Tables.View Str (Option PVal) Medline.Rec where
  keys r := (r.fields.map Prod.fst).dedup
  get r t := match value W before (String.ofList t) r with
    | .ok v => v
    | .error _ => none
  numAuthors r := match value W before "authorsShort" r with
    | .ok (some (.field (.texts l))) => some (.made (.num l.length))
    | _ => some (.made (.num 0))
  genders r := (some (.made (.num (genders r).1)), some (.made (.num (genders r).2.1)), some (.made (.num (genders r).2.2)))

/-- Reads everything, for the exceptions that go through. -/
def readAll (W : World) (before : Medline.Rec → List (Op String PVal)) (names : List Str) (rs : List Medline.Rec) : Except AErr (List (List (Option PVal))) :=
  rs.mapM (fun r => names.mapM (fun t => value W before (String.ofList t) r))

/-- `RecordCollection(file).makeDict(onlyTheseTags, longNames, raw = False, numAuthors, genderCounts)` (recordCollection.py:698-753). That a field raises is kept, not
which exception comes first. `some (.ok none)` is the `KeyError` of a missing long name. -/
def frame (W : World) (before : Medline.Rec → List (Op String PVal)) (order : List Medline.Rec → List Medline.Rec) (genders : Medline.Rec → Nat × Nat × Nat)
    (only : Option (List Str)) (longNames numAuthors genderCounts : Bool) (text : Str) : Option (Except AErr (Option (Dict Str (List (Option PVal))))) :=
  (records W order text).map (fun rs => do
    let v := dictView W before genders
    let fields := (Tables.retrievedFields (TagNames.fullToTag.get? ·) (TagNames.wosTags.get? ·) only longNames v.keys rs).getD []
    let _ ← readAll W before (fields ++ (if numAuthors then ["authorsShort".toList] else [])) rs
    return Tables.makeDict FileFrames.extras (TagNames.fullToTag.get? ·) (TagNames.wosTags.get? ·) v only longNames numAuthors genderCounts rs)

end Verif.Model.MedlineFrames
