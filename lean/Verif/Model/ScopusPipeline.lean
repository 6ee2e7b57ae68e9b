import Verif.Model.Scopus
import Verif.Model.OtherFields
import Verif.Model.Medline
import Verif.Model.Wos
import Verif.Model.Files
import Verif.Model.RecordAccess
import Verif.Model.CoNetworks
import Verif.Model.Networks
import Verif.Model.Series
import Verif.Model.CiteParse
import Verif.Model.CiteNetworks

/-!
# From a Scopus file to networks and tables

Puts together the models of the single steps, as `Verif.Model.Pipeline` does for Web of Science: reading the file (`Scopus.scopusParser`), reading a column of a
record under its name or a common name, whatever was read of it before (`RecordAccess.getitem`), processing its text (`OtherFields.scopusValue`), parsing citations
(`CiteParse.parseScopus`), and the functions of the collection.

Simplification: the text is the same under the codecs of the detectors, as it is for a file of ASCII characters behind the byte order mark.
-/
set_option autoImplicit false
namespace Verif.Model.ScopusPipeline
open Verif.Py Verif.Model.OtherFields Verif.Model.WosFields Verif.Model.RecordAccess Verif.Model.Series

/-- What is left open: the string functions of Python and what `createCitation` makes of a record. -/
structure World where
  prims : Prims
  chars : CiteParse.Chars
  truthy : SVal → Bool
  fin : List (Option SVal) → Except AErr SVal

/-- `ScopusRecord` as a subclass of `ExtendedRecord` (scopus/recordScopus.py:58-99): there are no other names of columns. An exception of a processing function goes
through; only a `KeyError` is looked at by the callers. -/
def cls (W : World) : Cls String Str SVal where
  alt _ := none
  proc k val := match scopusValue W.prims k.toList val with
    | .ok v => .ok v
    | .error .keyError => .error .keyError
    | .error _ => .error .other
  special := scopusSpecial W.truthy W.fin

/-- A record of which some things were read before. -/
def held (W : World) (before : List (Op String SVal)) (r : Scopus.Rec) : RecordAccess.Rec String Str SVal :=
  before.foldl (after (cls W) 3) ⟨r.fields.map (fun f => (String.ofList f.1, f.2)), []⟩

/-- `R.get(tag)` (mkRecord.py:393-396), or `R[tag]` where `KeyError` is caught (mkCollection.py:611-614): `none` if there is no such tag. -/
def value (W : World) (before : Scopus.Rec → List (Op String SVal)) (tag : String) (r : Scopus.Rec) : Except AErr (Option SVal) :=
  match (getitem (cls W) 3 (held W (before r) r) tag).1 with
  | .ok v => .ok (some v)
  | .error .keyError => .ok none
  | .error e => .error e

/-- The records of `RecordCollection(file)` for a file that is given to the reader of Scopus files, in the order in which the set is gone through
(recordCollection.py:97-105, fileHandlers.py:34-42). `none`: the file is given to another reader or to none. -/
def records (order : List Scopus.Rec → List Scopus.Rec) (text : Str) : Option (List Scopus.Rec) :=
  if Wos.isWOSFile text then none
  else if Medline.isMedlineFile text then none
  else if Files.isProQuestFile text then none
  else if Scopus.isScopusFile text then some (order (Scopus.scopusParser text))
  else none

/-- `authsList` (recordCollection.py:1020-1025): `list` of a text gives its characters and of a number raises. -/
def names : Option SVal → Except AErr (List Str)
  | none => .ok []
  | some (.texts l) => .ok l
  | some (.grants l) => .ok l
  | some (.cites l) => .ok l
  | some (.text s) => .ok (s.map (fun c => [c]))
  | some (.num _) => .error .other

/-- `RecordCollection(file).networkCoAuthor(detailedInfo = False, weighted, dropNonJournals = False, count, useShortNames)` (recordCollection.py:942-1073). -/
def coAuthors (W : World) (before : Scopus.Rec → List (Op String SVal)) (order : List Scopus.Rec → List Scopus.Rec) (useShort weighted count : Bool) (text : Str) :
    Option (Except AErr (CoNetworks.CoNet Str Unit)) :=
  (records order text).map (fun rs => do
    let auths ← rs.mapM (fun r => do names (← value W before (if useShort then "authorsShort" else "authorsFull") r))
    return CoNetworks.networkCoAuthor weighted false count (fun _ => true) id (fun _ => ()) auths)

/-- A value as the functions that count take it: a list or a single one. A grant or a citation stands here for itself. -/
def fieldVal : SVal → FieldVal SVal
  | .texts l => .list (l.map .text)
  | .grants l => .list (l.map (fun c => .grants [c]))
  | .cites l => .list (l.map (fun c => .cites [c]))
  | v => .single v

/-- `RecordCollection(file).rankedSeries(tag, …)` (mkCollection.py:569-663). -/
def ranked (W : World) (before : Scopus.Rec → List (Op String SVal)) (order : List Scopus.Rec → List Scopus.Rec) (tag : String)
    (giveCounts giveRanks greatestFirst pandasMode : Bool) (limitTo : Option (List SVal)) (text : Str) : Option (Except AErr (Except SeriesErr (Ranked SVal))) :=
  (records order text).map (fun rs => do
    let vals ← rs.mapM (value W before tag)
    return rankedSeries (fun v => v.map fieldVal) vals giveCounts giveRanks greatestFirst pandasMode limitTo)

/-- `str` of a value (mkCollection.py:880, 945). Only texts and numbers are handed to it here. -/
def nodeText : SVal → Str
  | .text s => s
  | .num n => showInt n
  | _ => []

/-- `RecordCollection(file).networkOneMode(tag, nodeCount, edgeWeight)` (mkCollection.py:808-1001). -/
def oneMode (W : World) (before : Scopus.Rec → List (Op String SVal)) (order : List Scopus.Rec → List Scopus.Rec) (tag : String) (nodeCount edgeWeight : Bool)
    (text : Str) : Option (Except AErr (Networks.Net Str)) :=
  (records order text).map (fun rs => do
    let vals ← rs.mapM (value W before tag)
    return Networks.networkOneMode nodeCount edgeWeight nodeText (fun (v : Option SVal) (_ : Unit) => v.map fieldVal) () vals)

/-- `R.get('citations')` with the strings parsed (scopus/tagProcessing/tagFunctions.py:22-23). -/
def citations (W : World) : Option SVal → Option (List Citation.Cite)
  | some (.cites l) => some (l.map (fun c => (CiteParse.parseScopus W.chars c).cite))
  | _ => none

/-- `RecordCollection(file).networkCoCitation(…)` (recordCollection.py:1075-1177). `own` is `createCitation` of a record. -/
def coCitations (W : World) (before : Scopus.Rec → List (Op String SVal)) (order : List Scopus.Rec → List Scopus.Rec) (env : CiteNetworks.Env)
    (o : CiteNetworks.Opts) (own : Scopus.Rec → Citation.Cite) (text : Str) : Option (Except AErr (Except CiteNetworks.NetErr (CiteNetworks.CiteNet Unit))) :=
  (records order text).map (fun rs => do
    let vals ← rs.mapM (fun r => do return (r, citations W (← value W before "citations" r)))
    return CiteNetworks.networkCoCitation env o (fun _ => ()) (fun p => own p.1) Prod.snd vals)

/-- `RecordCollection(file).writeFile(…)` and what it writes (recordCollection.py:216-245). -/
def rewritten (order : List Scopus.Rec → List Scopus.Rec) (text : Str) : Option Str := (records order text).bind Scopus.writeFile

/-- Reading a file and writing the collection (recordCollection.py:97-105, 216-245), over and over; each time the set is gone through in an order of its own. -/
def resaved : List (List Scopus.Rec → List Scopus.Rec) → Str → Option Str
  | [], text => some text
  | order :: orders, text => (rewritten order text).bind (resaved orders)

end Verif.Model.ScopusPipeline
