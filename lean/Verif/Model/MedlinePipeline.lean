import Verif.Model.Medline
import Verif.Model.MedlineFields
import Verif.Model.Wos
import Verif.Model.RecordAccess
import Verif.Model.TagNames
import Verif.Model.CoNetworks
import Verif.Model.Networks
import Verif.Model.Series

/-!
# From a Medline file to networks and tables

Puts together the models of the single steps, as `Verif.Model.Pipeline` does for Web of Science: reading the file (`Medline.medlineParser`), reading a field of a
record under its tag, its long name or a common name, whatever was read of it before (`RecordAccess.getitem`), processing its values (`MedlineFields.process`), and
the functions of the collection.

Simplification: the text is the same under the codecs of the two detectors, as it is for a file of ASCII characters.
-/
set_option autoImplicit false
namespace Verif.Model.MedlinePipeline
open Verif.Py Verif.Model.Medline Verif.Model.MedlineFields Verif.Model.WosFields Verif.Model.RecordAccess Verif.Model.TagNames Verif.Model.Series

/-- What reading a tag of a Medline record can give: the value of a field, or what a special function makes of one. -/
inductive PVal where
  | field (v : MVal)
  | made (v : FVal)
deriving DecidableEq

/-- What is left open: the string functions of Python, what `createCitation` makes of a record, and the value of the name `id`. -/
structure World where
  ws : Char → Bool
  alpha : Char → Bool
  dig : Char → Bool
  prims : Prims
  truthy : PVal → Bool
  fin : List (Option PVal) → Except AErr PVal
  ident : PVal

/-- An exception of a processing function; only `KeyError` is looked at by the callers. -/
def raised {α : Type} (f : α → PVal) : Except VErr α → Except AErr PVal
  | .ok v => .ok (f v)
  | .error .keyError => .error .keyError
  | .error _ => .error .other

/-- What the special functions do with the value of the tag they read (medline/tagProcessing/specialFunctions.py:5-40, 46-70). The functions that only
remap a name return the value. -/
def post (W : World) (k : String) (v : PVal) : Except AErr PVal :=
  match v with
  | .field (.text s) =>
    if k = "year" then raised (fun n => .made (.num n)) (year W.prims W.dig [("DP".toList, [s])])
    else if k = "month" then raised .made (month W.prims [("DP".toList, [s])])
    else if k = "volume" then raised (fun t => .made (.text t)) (volume [("VI".toList, [s])])
    else if k = "beginningPage" then raised (fun t => .made (.text t)) (beginningPage [("PG".toList, [s])])
    else .ok v
  | .field (.texts l) => if k = "DOI" then raised (fun t => .made (.text t)) (DOI [("AID".toList, l)]) else .ok v
  | v => .ok v

/-- `address` (medline/tagProcessing/specialFunctions.py:42-44) of the two values it reads. -/
def addr : PVal → PVal → Except AErr PVal
  | .field (.addresses d), .field (.texts l) =>
    raised (fun t => .made (.text t)) (do
      let a ← line0 l
      match d.get? a with
      | none => .error .keyError
      | some as => line0 as)
  | _, _ => .error .other

/-- `MedlineRecord` as a subclass of `ExtendedRecord` (recordMedline.py:50-64). -/
def cls (W : World) : Cls String (List Str) PVal where
  alt k := (medlineAlt k.toList).map String.ofList
  proc k val := match medlineKinds.get? k.toList with
    | none => .error .keyError
    | some kind => raised .field (process kind val)
  special := medlineSpecial W.truthy W.fin W.ident (post W) addr

/-- A record of which some things were read before. -/
def held (W : World) (before : List (Op String PVal)) (r : Medline.Rec) : RecordAccess.Rec String (List Str) PVal :=
  before.foldl (after (cls W) 3) ⟨r.fields.map (fun f => (String.ofList f.1, f.2)), []⟩

/-- `R.get(tag)` (mkRecord.py:393-396), or `R[tag]` where `KeyError` is caught (mkCollection.py:611-614): `none` if there is no such tag. -/
def value (W : World) (before : Medline.Rec → List (Op String PVal)) (tag : String) (r : Medline.Rec) : Except AErr (Option PVal) :=
  match (getitem (cls W) 3 (held W (before r) r) tag).1 with
  | .ok v => .ok (some v)
  | .error .keyError => .ok none
  | .error e => .error e

/-- The records of `RecordCollection(file)` for a file that is not taken for a Web of Science file and whose beginning is that of a Medline file, in the order in
which the set is gone through (recordCollection.py:97-105, fileHandlers.py:34-36). `none`: the file is given to another reader, or the reader raises. -/
def records (W : World) (order : List Medline.Rec → List Medline.Rec) (text : Str) : Option (List Medline.Rec) :=
  if Wos.isWOSFile text then none
  else if isMedlineFile text then
    match medlineParser W.ws W.alpha text with
    | some (.ok res) => some (order res.recs)
    | _ => none
  else none

/-- `authsList` (recordCollection.py:1020-1025). Only lists of names are looked at here. -/
def names : Option PVal → Except AErr (List Str)
  | none => .ok []
  | some (.field (.texts l)) => .ok l
  | some _ => .error .other

/-- `RecordCollection(file).networkCoAuthor(detailedInfo = False, weighted, dropNonJournals = False, count, useShortNames)` (recordCollection.py:942-1073). -/
def coAuthors (W : World) (before : Medline.Rec → List (Op String PVal)) (order : List Medline.Rec → List Medline.Rec) (useShort weighted count : Bool) (text : Str) :
    Option (Except AErr (CoNetworks.CoNet Str Unit)) :=
  (records W order text).map (fun rs => do
    let auths ← rs.mapM (fun r => do names (← value W before (if useShort then "authorsShort" else "authorsFull") r))
    return CoNetworks.networkCoAuthor weighted false count (fun _ => true) id (fun _ => ()) auths)

/-- A value as the functions that count take it: a list or a single one. A grant stands for itself. -/
def fieldVal : PVal → FieldVal PVal
  | .field (.texts l) => .list (l.map (fun s => .field (.text s)))
  | .field (.grants l) => .list (l.map (fun s => .field (.grants [s])))
  | v => .single v

/-- `RecordCollection(file).rankedSeries(tag, …)` (mkCollection.py:569-663). -/
def ranked (W : World) (before : Medline.Rec → List (Op String PVal)) (order : List Medline.Rec → List Medline.Rec) (tag : String)
    (giveCounts giveRanks greatestFirst pandasMode : Bool) (limitTo : Option (List PVal)) (text : Str) : Option (Except AErr (Except SeriesErr (Ranked PVal))) :=
  (records W order text).map (fun rs => do
    let vals ← rs.mapM (value W before tag)
    return rankedSeries (fun v => v.map fieldVal) vals giveCounts giveRanks greatestFirst pandasMode limitTo)

/-- `str` of a value (mkCollection.py:880, 945). Only texts and numbers are handed to it here. -/
def nodeText : PVal → Str
  | .field (.text s) => s
  | .made (.text s) => s
  | .made (.num n) => showInt n
  | _ => []

/-- `RecordCollection(file).networkOneMode(tag, nodeCount, edgeWeight)` (mkCollection.py:808-1001). -/
def oneMode (W : World) (before : Medline.Rec → List (Op String PVal)) (order : List Medline.Rec → List Medline.Rec) (tag : String) (nodeCount edgeWeight : Bool)
    (text : Str) : Option (Except AErr (Networks.Net Str)) :=
  (records W order text).map (fun rs => do
    let vals ← rs.mapM (value W before tag)
    return Networks.networkOneMode nodeCount edgeWeight nodeText (fun (v : Option PVal) (_ : Unit) => v.map fieldVal) () vals)

/-- `RecordCollection(file).writeFile(…)` and what it writes (recordCollection.py:216-245). -/
def rewritten (W : World) (order : List Medline.Rec → List Medline.Rec) (text : Str) : Option Str := (records W order text).bind Medline.writeFile

/-- Reading a file and writing it, reading what was written and writing it, and so on, with the order in which each collection is gone through. -/
def resaved (W : World) : List (List Medline.Rec → List Medline.Rec) → Str → Option Str
  | [], text => some text
  | order :: orders, text => (rewritten W order text).bind (resaved W orders)

end Verif.Model.MedlinePipeline
