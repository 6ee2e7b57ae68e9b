import Verif.Model.ProQuestFile
import Verif.Model.OtherFields
import Verif.Model.Medline
import Verif.Model.Wos
import Verif.Model.Files
import Verif.Model.RecordAccess
import Verif.Model.CoNetworks
import Verif.Model.Networks
import Verif.Model.Series

/-!
# From a ProQuest file to networks and tables

Puts together the models of the single steps, as `Verif.Model.Pipeline` does for Web of Science: reading the file (`ProQuestFile.proQuestSet`), reading a tag of a
record under its name or a common name, whatever was read of it before (`RecordAccess.getitem`), processing its lines (`OtherFields.proQuestValue`), and the functions
of the collection.

Simplification: the text is the same under the codecs of the detectors, as it is for a file of ASCII characters.
-/
set_option autoImplicit false
namespace Verif.Model.ProQuestPipeline
open Verif.Py Verif.Model.OtherFields Verif.Model.WosFields Verif.Model.RecordAccess Verif.Model.Series

/-- What is left open: the characters `rstrip` removes, `int` of a string, what `createCitation` makes of a record, and its id as a value. -/
structure World where
  ws : Char → Bool
  toInt : Str → Option Int
  truthy : QVal → Bool
  fin : List (Option QVal) → Except AErr QVal
  ident : QVal

/-- `ProQuestRecord` as a subclass of `ExtendedRecord` (proquest/recordProQuest.py:49-66): there are no other names of tags. -/
def cls (W : World) : Cls String (List Str) QVal where
  alt _ := none
  proc k val := match proQuestValue k.toList val with
    | .ok v => .ok v
    | .error .keyError => .error .keyError
    | .error _ => .error .other
  special := RecordAccess.proQuestSpecial W.truthy W.fin W.ident (.num 0) (.text "Author".toList)

/-- A record of which some things were read before. -/
def held (W : World) (before : List (Op String QVal)) (r : ProQuest.Rec) : RecordAccess.Rec String (List Str) QVal :=
  before.foldl (after (cls W) 3) ⟨r.fields.map (fun f => (String.ofList f.1, f.2)), []⟩

/-- `R.get(tag)` (mkRecord.py:393-396), or `R[tag]` where `KeyError` is caught (mkCollection.py:611-614): `none` if there is no such tag. -/
def value (W : World) (before : ProQuest.Rec → List (Op String QVal)) (tag : String) (r : ProQuest.Rec) : Except AErr (Option QVal) :=
  match (getitem (cls W) 3 (held W (before r) r) tag).1 with
  | .ok v => .ok (some v)
  | .error .keyError => .ok none
  | .error e => .error e

/-- The records of `RecordCollection(file)` for a file that is given to the reader of ProQuest files, in the order in which the set is gone through
(recordCollection.py:97-105, fileHandlers.py:34-42). `none`: the file is given to another reader or to none, or the reader raises. When the reader gives an error, the
collection is bad and has the records read until then. -/
def records (W : World) (order : List ProQuest.Rec → List ProQuest.Rec) (text : Str) : Option (List ProQuest.Rec) :=
  if Wos.isWOSFile text then none
  else if Medline.isMedlineFile text then none
  else if Files.isProQuestFile text then (ProQuestFile.proQuestSet W.ws W.toInt (Lines.fileLines text)).map (fun p => order p.1)
  else none

/-- `authsList` (recordCollection.py:1020-1025): `list` of a text gives its characters and of a number raises. The names of nodes are texts here; there are no tuples under
the names for authors. -/
def names : Option QVal → Except AErr (List Str)
  | none => .ok []
  | some (.texts l) => .ok l
  | some (.text s) => .ok (s.map (fun c => [c]))
  | some (.tuples _) => .error .other
  | some (.num _) => .error .other

/-- `RecordCollection(file).networkCoAuthor(detailedInfo = False, weighted, dropNonJournals = False, count, useShortNames)` (recordCollection.py:942-1073). -/
def coAuthors (W : World) (before : ProQuest.Rec → List (Op String QVal)) (order : List ProQuest.Rec → List ProQuest.Rec) (useShort weighted count : Bool) (text : Str) :
    Option (Except AErr (CoNetworks.CoNet Str Unit)) :=
  (records W order text).map (fun rs => do
    let auths ← rs.mapM (fun r => do names (← value W before (if useShort then "authorsShort" else "authorsFull") r))
    return CoNetworks.networkCoAuthor weighted false count (fun _ => true) id (fun _ => ()) auths)

/-- A value as the functions that count take it: a list or a single one. A tuple stands here for itself. -/
def fieldVal : QVal → FieldVal QVal
  | .texts l => .list (l.map .text)
  | .tuples l => .list (l.map (fun t => .tuples [t]))
  | v => .single v

/-- `RecordCollection(file).rankedSeries(tag, …)` (mkCollection.py:569-663). -/
def ranked (W : World) (before : ProQuest.Rec → List (Op String QVal)) (order : List ProQuest.Rec → List ProQuest.Rec) (tag : String)
    (giveCounts giveRanks greatestFirst pandasMode : Bool) (limitTo : Option (List QVal)) (text : Str) : Option (Except AErr (Except SeriesErr (Ranked QVal))) :=
  (records W order text).map (fun rs => do
    let vals ← rs.mapM (value W before tag)
    return rankedSeries (fun v => v.map fieldVal) vals giveCounts giveRanks greatestFirst pandasMode limitTo)

/-- `str` of a value (mkCollection.py:880, 945). Only texts and numbers are handed to it here. -/
def nodeText : QVal → Str
  | .text s => s
  | .num n => showInt n
  | _ => []

/-- `RecordCollection(file).networkOneMode(tag, nodeCount, edgeWeight)` (mkCollection.py:808-1001). -/
def oneMode (W : World) (before : ProQuest.Rec → List (Op String QVal)) (order : List ProQuest.Rec → List ProQuest.Rec) (tag : String) (nodeCount edgeWeight : Bool)
    (text : Str) : Option (Except AErr (Networks.Net Str)) :=
  (records W order text).map (fun rs => do
    let vals ← rs.mapM (value W before tag)
    return Networks.networkOneMode nodeCount edgeWeight nodeText (fun (v : Option QVal) (_ : Unit) => v.map fieldVal) () vals)

/-- The value of one of two tags of a record. -/
def pick (tag1 : String) (p : Option QVal × Option QVal) (tag : String) : Option (FieldVal QVal) := ((if tag = tag1 then p.1 else p.2)).map fieldVal

/-- `RecordCollection(file).networkTwoMode(tag1, tag2, directed, recordType, nodeCount, edgeWeight)` (mkCollection.py:1003-1175). -/
def twoMode (W : World) (before : ProQuest.Rec → List (Op String QVal)) (order : List ProQuest.Rec → List ProQuest.Rec) (tag1 tag2 : String)
    (directed nodeCount edgeWeight recordType : Bool) (text : Str) : Option (Except AErr (Networks.Net Str)) :=
  (records W order text).map (fun rs => do
    let vals ← rs.mapM (fun r => do return (← value W before tag1 r, ← value W before tag2 r))
    return Networks.networkTwoMode directed nodeCount edgeWeight recordType nodeText nodeText (pick tag1) tag1 tag2 vals)

end Verif.Model.ProQuestPipeline
