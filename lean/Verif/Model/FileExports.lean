import Verif.Model.Pipeline
import Verif.Model.WriteCsv
import Verif.Model.Tables
import Verif.Model.TagNames
import Verif.Py.Decimal
import Mathlib.Data.List.Dedup

/-!
# From a Web of Science file to a csv file and to the words of `forBurst`

`RecordCollection(file).writeCSV(…)` and `RecordCollection(file).forBurst(tag, …)`: the reader of `Model.Pipeline` followed by `Model.WriteCsv` and `Model.Tables`.
`metaknowledge.FAST_CITES` is off, so the text of a citation is the line it was made of (citation.py:156-163).
-/
set_option autoImplicit false
namespace Verif.Model.FileExports
open Verif.Py Verif.Model.Wos Verif.Model.WosFields Verif.Model.RecordAccess Verif.Model.Pipeline

/-- A value as the code of `writeCSV` tells values apart (recordCollection.py:343-350). The text of a list as a whole is never asked for, so it is left out. -/
def csvVal : FVal → WriteCsv.Val
  | .text s => .str s
  | .texts l => .iter true [] (l.map (fun t => (true, t)))
  | .cites l => .iter true [] (l.map (fun t => (false, t)))
  | .num n => .other (showInt n)

/-- What `writeCSV` finds in a record. A reading that raises something else than `KeyError` is looked for before, in `readAll`; the fields of a record are a
dictionary, so `dedup` leaves its keys as they are; the counts of `authGenders` are left open. -/
def view (W : World) (before : Wos.Rec → List (Op String FVal)) (genders : Wos.Rec → Nat × Nat × Nat) : WriteCsv.View Wos.Rec where
  keys r := (r.fields.map Prod.fst).dedup
  get r t := match value W before (String.ofList t) r with
    | .ok (some v) => some (csvVal v)
    | _ => none
  authors r := match value W before "authorsShort" r with
    | .ok (some (.texts l)) => l.length
    | .ok (some (.cites l)) => l.length
    | .ok (some (.text s)) => s.length
    | _ => 0
  genders := genders

/-- The names under which `writeCSV` reads each record: the tag by which it splits, the columns, the authors (recordCollection.py:331-352). -/
def asked (o : WriteCsv.Opts) (keys : Wos.Rec → List Str) (rs : List Wos.Rec) : List Str :=
  o.splitByTag.toList ++ (WriteCsv.retrievedFields (TagNames.fullToTag.get? ·) (TagNames.wosTags.get? ·) o keys rs).getD [] ++
    (if o.numAuthors then ["authorsShort".toList] else [])

/-- Reads everything, for the exceptions that go through. -/
def readAll (W : World) (before : Wos.Rec → List (Op String FVal)) (names : List Str) (rs : List Wos.Rec) : Except AErr (List (List (Option FVal))) :=
  rs.mapM (fun r => names.mapM (fun t => value W before (String.ofList t) r))

/-- `RecordCollection(file).writeCSV(…)` (recordCollection.py:247-371). An exception of a field is raised where the field is read, which leaves an unfinished file; here
only that it is raised is kept. -/
def csv (W : World) (before : Wos.Rec → List (Op String FVal)) (order : List Wos.Rec → List Wos.Rec) (genders : Wos.Rec → Nat × Nat × Nat) (o : WriteCsv.Opts) (text : Str) :
    Option (Except AErr (Except WriteCsv.CErr WriteCsv.Out)) :=
  (records W order text).map (fun rs => do
    let _ ← readAll W before (asked o (view W before genders).keys rs) rs
    return WriteCsv.writeCSV (TagNames.fullToTag.get? ·) (TagNames.wosTags.get? ·) (view W before genders) o rs)

/-- `burstVal` (recordCollection.py:537-541). -/
def burstText : FVal → Str
  | .text s => s
  | .texts l => Str.join [' '] l
  | .cites l => Str.join [' '] l
  | .num n => showInt n

/-- The year and the text of a record; the text is only asked for when there is a year (recordCollection.py:529-541). -/
def burstRead (W : World) (before : Wos.Rec → List (Op String FVal)) (tag : String) (r : Wos.Rec) : Except AErr (Option FVal × Option Str) := do
  match ← value W before "year" r with
  | none => return (none, none)
  | some y => return (some y, (← value W before tag r).map burstText)

/-- `RecordCollection(file).forBurst(tag, …)` (recordCollection.py:436-553). -/
def burst (W : World) (before : Wos.Rec → List (Op String FVal)) (order : List Wos.Rec → List Wos.Rec) (ch : Tables.Chars) (o : Tables.NlpOpts) (tag : String) (text : Str) :
    Option (Except AErr (List FVal × List Str)) :=
  (records W order text).map (fun rs => do
    let read ← rs.mapM (burstRead W before tag)
    return Tables.forBurst ch o ⟨Prod.fst, Prod.snd⟩ read)

end Verif.Model.FileExports
