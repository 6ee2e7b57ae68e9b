import Verif.Model.MedlinePipeline
import Verif.Model.ScopusPipeline
import Verif.Model.ProQuestPipeline
import Verif.Model.Rpys

/-!
# From Medline, Scopus and ProQuest files to two-mode networks, time series, co-occurrence counts and RPYS tables

`RecordCollection(file)` followed by `networkTwoMode`, `timeSeries`, `cooccurrenceCounts` or `rpys`, with fields read as in the models of the three kinds of files. The functions of the collection
are the same for all kinds of records; `val` is `R.get(tag)`.

Simplification: the fields of all records are read before anything is counted, so that of two errors that of reading is reported.
-/
set_option autoImplicit false
namespace Verif.Model.OtherTables
open Verif.Py Verif.Model.RecordAccess Verif.Model.Series

section
variable {ρ φ : Type} [DecidableEq φ] (val : String → ρ → Except AErr (Option φ)) (fieldVal : φ → FieldVal φ) (nodeText : φ → Str) (num : φ → Option Int)

/-- The values of a record under two tags. -/
def both (tag1 tag2 : String) (r : ρ) : Except AErr (Option φ × Option φ) := do return (← val tag1 r, ← val tag2 r)

/-- One of the two. -/
def field (tag1 : String) (v : Option φ × Option φ) (t : String) : Option (FieldVal φ) := (if t = tag1 then v.1 else v.2).map fieldVal

/-- `networkTwoMode(tag1, tag2, …)` of the records (mkCollection.py:1003-1175). -/
def twoMode (directed nodeCount edgeWeight recordType : Bool) (tag1 tag2 : String) (rs : List ρ) : Except AErr (Networks.Net Str) := do
  let vals ← rs.mapM (both val tag1 tag2)
  return Networks.networkTwoMode directed nodeCount edgeWeight recordType nodeText nodeText (field fieldVal tag1) tag1 tag2 vals

/-- The year as a number (years are not negative). -/
def yearNat (o : Option φ) : Option Nat := (o.bind num).map Int.toNat

/-- `timeSeries(tag, …)` of the records (mkCollection.py:665-747). -/
def timeSeries (tag : String) (giveYears greatestFirst pandasMode : Bool) (limitTo : Option (List φ)) (rs : List ρ) : Except AErr (Timed φ) := do
  let vals ← rs.mapM (both val "year" tag)
  return timeSeriesTag (fun v : Option φ × Option φ => yearNat num v.1) (fun v => v.2.map fieldVal) vals giveYears greatestFirst pandasMode limitTo

/-- The value under the key tag or the counted tag. -/
def keyOrCounted (v : Option φ × Option φ) (counted : Bool) : Option (FieldVal φ) := (if counted then v.2 else v.1).map fieldVal

/-- `cooccurrenceCounts(keyTag, countedTag)` of the records (mkCollection.py:749-806). -/
def cooccurrences (keyTag countedTag : String) (rs : List ρ) : Except AErr (Dict φ (Dict φ Nat)) := do
  let vals ← rs.mapM (both val keyTag countedTag)
  return cooccurrenceCounts (keyOrCounted fieldVal) vals false [true]

/-- What `rpys` reads of a record (recordCollection.py:808-820). `cites` are the citations of a value. -/
def rpysRec (cites : Option φ → Option (List Citation.Cite)) (v : Option φ × Option φ) : Rpys.Rec :=
  ⟨(cites v.2).map (fun cs => cs.map (fun c => c.year.join)), v.1.bind num⟩

/-- `rpys(minYear, maxYear, dropYears, rankEmptyYears)` of the records (recordCollection.py:755-869). -/
def rpys (cites : Option φ → Option (List Citation.Cite)) (years : List Int → List Int) (minYear maxYear : Option Int) (drop : Rpys.DropYears) (rankEmpty : Bool) (rs : List ρ) :
    Except AErr (Except Rpys.RErr Rpys.Table) := do
  let vals ← rs.mapM (both val "year" "citations")
  return Rpys.rpys years minYear maxYear drop rankEmpty (vals.map (rpysRec num cites))
end

/-! ## Medline -/

/-- The number that a value is. -/
def medlineNum : MedlinePipeline.PVal → Option Int
  | .made (.num n) => some n
  | _ => none

section
open MedlinePipeline
variable (W : World) (before : Medline.Rec → List (Op String PVal)) (order : List Medline.Rec → List Medline.Rec)

/-- `RecordCollection(file).networkTwoMode(…)` (mkCollection.py:1003-1175) -/
def medlineTwoMode (directed nodeCount edgeWeight recordType : Bool) (tag1 tag2 : String) (text : Str) : Option (Except AErr (Networks.Net Str)) :=
  (records W order text).map (twoMode (value W before) fieldVal nodeText directed nodeCount edgeWeight recordType tag1 tag2)

/-- `RecordCollection(file).timeSeries(tag, …)` (mkCollection.py:665-747) -/
def medlineTimeSeries (tag : String) (giveYears greatestFirst pandasMode : Bool) (limitTo : Option (List PVal)) (text : Str) : Option (Except AErr (Timed PVal)) :=
  (records W order text).map (timeSeries (value W before) fieldVal medlineNum tag giveYears greatestFirst pandasMode limitTo)

/-- `RecordCollection(file).cooccurrenceCounts(keyTag, countedTag)` (mkCollection.py:749-806) -/
def medlineCooccurrences (keyTag countedTag : String) (text : Str) : Option (Except AErr (Dict PVal (Dict PVal Nat))) :=
  (records W order text).map (cooccurrences (value W before) fieldVal keyTag countedTag)
end

/-! ## Scopus -/

/-- The number that a value is. -/
def scopusNum : OtherFields.SVal → Option Int
  | .num n => some n
  | _ => none

section
open ScopusPipeline OtherFields
variable (W : World) (before : Scopus.Rec → List (Op String SVal)) (order : List Scopus.Rec → List Scopus.Rec)

/-- `RecordCollection(file).networkTwoMode(…)` (mkCollection.py:1003-1175) -/
def scopusTwoMode (directed nodeCount edgeWeight recordType : Bool) (tag1 tag2 : String) (text : Str) : Option (Except AErr (Networks.Net Str)) :=
  (records order text).map (twoMode (value W before) fieldVal nodeText directed nodeCount edgeWeight recordType tag1 tag2)

/-- `RecordCollection(file).timeSeries(tag, …)` (mkCollection.py:665-747) -/
def scopusTimeSeries (tag : String) (giveYears greatestFirst pandasMode : Bool) (limitTo : Option (List SVal)) (text : Str) : Option (Except AErr (Timed SVal)) :=
  (records order text).map (timeSeries (value W before) fieldVal scopusNum tag giveYears greatestFirst pandasMode limitTo)

/-- `RecordCollection(file).cooccurrenceCounts(keyTag, countedTag)` (mkCollection.py:749-806) -/
def scopusCooccurrences (keyTag countedTag : String) (text : Str) : Option (Except AErr (Dict SVal (Dict SVal Nat))) :=
  (records order text).map (cooccurrences (value W before) fieldVal keyTag countedTag)

/-- `RecordCollection(file).rpys(…)` (recordCollection.py:755-869) -/
def scopusRpys (years : List Int → List Int) (minYear maxYear : Option Int) (drop : Rpys.DropYears) (rankEmpty : Bool) (text : Str) :
    Option (Except AErr (Except Rpys.RErr Rpys.Table)) :=
  (records order text).map (rpys (value W before) scopusNum (citations W) years minYear maxYear drop rankEmpty)
end

/-! ## ProQuest -/

section
open ProQuestPipeline OtherFields
variable (W : World) (before : ProQuest.Rec → List (Op String QVal)) (order : List ProQuest.Rec → List ProQuest.Rec)

/-- `RecordCollection(file).cooccurrenceCounts(keyTag, countedTag)` (mkCollection.py:749-806) -/
def proQuestCooccurrences (keyTag countedTag : String) (text : Str) : Option (Except AErr (Dict QVal (Dict QVal Nat))) :=
  (records W order text).map (cooccurrences (value W before) fieldVal keyTag countedTag)
end

end Verif.Model.OtherTables
