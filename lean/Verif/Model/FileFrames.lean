import Verif.Model.FileExports

/-!
# From a Web of Science file to the tables of `makeDict` and `forNLP`

`RecordCollection(file).makeDict(…)` and `RecordCollection(file).forNLP(…)` without an output file: the reader of `Model.Pipeline` followed by `Model.Tables`.
-/
set_option autoImplicit false
namespace Verif.Model.FileFrames
open Verif.Py Verif.Model.Wos Verif.Model.WosFields Verif.Model.RecordAccess Verif.Model.Pipeline

/-- The added columns (recordCollection.py:739-742). -/
def extras : Tables.Extras Str := ⟨"num-Authors".toList, "num-Male".toList, "num-Female".toList, "num-Unknown".toList⟩

/-- What `makeDict` finds in a record; `None` is `none`. Exceptions of a field are looked for before, in `readAll`; the counts of `authGenders` are left open. -/
def dictView (W : World) (before : Wos.Rec → List (Op String FVal)) (genders : Wos.Fields → Nat × Nat × Nat) : Tables.View Str (Option FVal) Wos.Rec where
  keys r := (r.fields.map Prod.fst).dedup
  get r t := match value W before (String.ofList t) r with
    | .ok v => v
    | .error _ => none
  numAuthors r := match value W before "authorsShort" r with
    | .ok (some (.texts l)) => some (.num l.length)
    | .ok (some (.cites l)) => some (.num l.length)
    | .ok (some (.text s)) => some (.num s.length)
    | _ => some (.num 0)
  genders r := (some (.num (genders r.fields).1), some (.num (genders r.fields).2.1), some (.num (genders r.fields).2.2))

/-- `RecordCollection(file).makeDict(onlyTheseTags, longNames, raw = False, numAuthors, genderCounts)` (recordCollection.py:698-753). That a field raises is kept, not
which exception comes first. `some (.ok none)` is the `KeyError` of a missing long name. -/
def frame (W : World) (before : Wos.Rec → List (Op String FVal)) (order : List Wos.Rec → List Wos.Rec) (genders : Wos.Fields → Nat × Nat × Nat) (only : Option (List Str))
    (longNames numAuthors genderCounts : Bool) (text : Str) : Option (Except AErr (Option (Dict Str (List (Option FVal))))) :=
  (records W order text).map (fun rs => do
    let v := dictView W before genders
    let fields := (Tables.retrievedFields (TagNames.fullToTag.get? ·) (TagNames.wosTags.get? ·) only longNames v.keys rs).getD []
    let _ ← FileExports.readAll W before (fields ++ (if numAuthors then ["authorsShort".toList] else [])) rs
    return Tables.makeDict extras (TagNames.fullToTag.get? ·) (TagNames.wosTags.get? ·) v only longNames numAuthors genderCounts rs)

/-- What `forNLP` reads of a record. -/
structure NlpRead where
  id : Str
  ab : Option FVal
  year : Option FVal
  title : Option FVal
  keywords : Option FVal
  extra : Dict Str (Option FVal)

/-- Reading it (recordCollection.py:665-677). -/
def nlpRead (W : World) (before : Wos.Rec → List (Op String FVal)) (extra : List Str) (r : Wos.Rec) : Except AErr NlpRead := do
  let ab ← value W before "AB" r
  let y ← value W before "year" r
  let t ← value W before "title" r
  let k ← value W before "keywords" r
  let e ← extra.mapM (fun c => do return (c, ← value W before (String.ofList c) r))
  return ⟨r.id, ab, y, t, k, e⟩

/-- How it is taken: the abstract is a text and the keywords are a list, as the tags have them; lists of an extra column are joined (recordCollection.py:665-680). -/
def nlpView : Tables.NlpView FVal NlpRead where
  str := .text
  id r := .text r.id
  year r := r.year.getD (.text [])
  title r := r.title.getD (.text [])
  keywords r := match r.keywords with
    | some (.texts l) => l
    | _ => []
  abstract r := match r.ab with
    | some (.text s) => s
    | _ => []
  extra r c := match r.extra.get? c with
    | some (some (.texts l)) => .list l
    | some (some (.cites l)) => .list l
    | some (some v) => .val v
    | _ => .missing

/-- `RecordCollection(file).forNLP(…)` (recordCollection.py:554-696). -/
def nlp (W : World) (before : Wos.Rec → List (Op String FVal)) (order : List Wos.Rec → List Wos.Rec) (ch : Tables.Chars) (o : Tables.NlpOpts) (extra : Option (List Str))
    (text : Str) : Option (Except AErr (Option (Dict Str (List FVal)))) :=
  (records W order text).map (fun rs => do
    let read ← rs.mapM (nlpRead W before (Tables.extraList extra))
    return Tables.forNLP ch o nlpView extra read)

end Verif.Model.FileFrames
