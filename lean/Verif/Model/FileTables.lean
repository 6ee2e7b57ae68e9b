import Verif.Model.Pipeline
import Verif.Model.Rpys

/-!
# From a Web of Science file to two-mode networks, time series, co-occurrence counts and RPYS tables

`RecordCollection(file)` followed by `networkTwoMode`, `timeSeries`, `cooccurrenceCounts` or `rpys`, with fields read as in `Verif.Model.Pipeline`.

Simplification: the fields of all records are read before anything is counted, so that of two errors that of reading is reported.
-/
set_option autoImplicit false
namespace Verif.Model.FileTables
open Verif.Py Verif.Model.Wos Verif.Model.WosFields Verif.Model.RecordAccess Verif.Model.Pipeline Verif.Model.Series

/-- `networkTwoMode(tag1, tag2, …)` of the collection (mkCollection.py:1003-1175). A record is what is read of it under the two tags. -/
def twoMode (W : World) (before : Wos.Rec → List (Op String FVal)) (order : List Wos.Rec → List Wos.Rec) (directed nodeCount edgeWeight recordType : Bool) (tag1 tag2 : String)
    (text : Str) : Option (Except AErr (Networks.Net Str)) :=
  (records W order text).map (fun rs => do
    let vals ← rs.mapM (fun r => do return (← value W before tag1 r, ← value W before tag2 r))
    return Networks.networkTwoMode directed nodeCount edgeWeight recordType nodeText nodeText
      (fun (v : Option FVal × Option FVal) t => (if t = tag1 then v.1 else v.2).map fieldVal) tag1 tag2 vals)

/-- A year as a number (years are not negative). -/
def yearNat : Option FVal → Option Nat
  | some (.num y) => some y.toNat
  | _ => none

/-- `timeSeries(tag, …)` of the collection (mkCollection.py:665-747). -/
def timeSeries (W : World) (before : Wos.Rec → List (Op String FVal)) (order : List Wos.Rec → List Wos.Rec) (tag : String) (giveYears greatestFirst pandasMode : Bool)
    (limitTo : Option (List FVal)) (text : Str) : Option (Except AErr (Timed FVal)) :=
  (records W order text).map (fun rs => do
    let vals ← rs.mapM (fun r => do return (← value W before "year" r, ← value W before tag r))
    return timeSeriesTag (fun v : Option FVal × Option FVal => yearNat v.1) (fun v => v.2.map fieldVal) vals giveYears greatestFirst pandasMode limitTo)

/-- `cooccurrenceCounts(keyTag, countedTag)` of the collection (mkCollection.py:749-806). -/
def cooccurrences (W : World) (before : Wos.Rec → List (Op String FVal)) (order : List Wos.Rec → List Wos.Rec) (keyTag countedTag : String) (text : Str) :
    Option (Except AErr (Dict FVal (Dict FVal Nat))) :=
  (records W order text).map (fun rs => do
    let vals ← rs.mapM (fun r => do return (← value W before keyTag r, ← value W before countedTag r))
    return cooccurrenceCounts (fun (v : Option FVal × Option FVal) (counted : Bool) => (if counted then v.2 else v.1).map fieldVal) vals false [true])

/-- What `rpys` reads of a record (recordCollection.py:808-820). -/
def rpysRec (W : World) (year cites : Option FVal) : Rpys.Rec :=
  ⟨(citations W cites).map (fun cs => cs.map (fun c => c.year.join)), (match year with
    | some (.num y) => some y
    | _ => none)⟩

/-- `rpys(minYear, maxYear, dropYears, rankEmptyYears)` of the collection (recordCollection.py:755-869). -/
def rpys (W : World) (before : Wos.Rec → List (Op String FVal)) (order : List Wos.Rec → List Wos.Rec) (years : List Int → List Int) (minYear maxYear : Option Int)
    (drop : Rpys.DropYears) (rankEmpty : Bool) (text : Str) : Option (Except AErr (Except Rpys.RErr Rpys.Table)) :=
  (records W order text).map (fun rs => do
    let recs ← rs.mapM (fun r => do return rpysRec W (← value W before "year" r) (← value W before "citations" r))
    return Rpys.rpys years minYear maxYear drop rankEmpty recs)

end Verif.Model.FileTables
