import Verif.Model.Wos
import Verif.Model.WosFields
import Verif.Model.RecordAccess
import Verif.Model.TagNames
import Verif.Model.CoNetworks
import Verif.Model.Networks
import Verif.Model.CiteParse
import Verif.Model.CiteNetworks

/-!
# From a Web of Science file to networks and tables

Puts together the models of the single steps: reading the file (`Wos.wosParser`), reading a field of a record under its long name whatever was read of it before
(`RecordAccess.getitem`), processing its lines (`WosFields.wosValue`), parsing citations (`CiteParse.parseWos`), and the functions of the collection. This is
`RecordCollection(file)` (recordCollection.py:70-168) followed by `networkCoAuthor`, `networkOneMode`, `networkCoCitation` or `rankedSeries`.
-/
set_option autoImplicit false
namespace Verif.Model.Pipeline
open Verif.Py Verif.Model.Wos Verif.Model.WosFields Verif.Model.RecordAccess Verif.Model.TagNames Verif.Model.Series

/-- What is left open: the string functions of Python, what `createCitation` makes of a record, and the values of the names `id` and `grants`. -/
structure World where
  ws : Char → Bool
  prims : Prims
  chars : CiteParse.Chars
  truthy : FVal → Bool
  fin : List (Option FVal) → Except AErr FVal
  ident : FVal
  noGrants : FVal

/-- `WOSRecord` as a subclass of `ExtendedRecord` (recordWOS.py:10-168): names of tags, processing of lines, special names. An exception of a processing function
goes through; only a `KeyError` is looked at by the callers. -/
def cls (W : World) : Cls String (List Str) FVal where
  alt k := (wosAlt k.toList).map String.ofList
  proc k val := match wosValue W.prims k.toList val with
    | .ok v => .ok v
    | .error .keyError => .error .keyError
    | .error _ => .error .other
  special := wosSpecial W.truthy W.fin W.ident W.noGrants

/-- A record of which some things were read before. -/
def held (W : World) (before : List (Op String FVal)) (r : Wos.Rec) : RecordAccess.Rec String (List Str) FVal :=
  before.foldl (after (cls W) 3) ⟨r.fields.map (fun f => (String.ofList f.1, f.2)), []⟩

/-- `R.get(tag)` (mkRecord.py:393-396), or `R[tag]` where `KeyError` is caught (mkCollection.py:611-614): `none` if there is no such tag. -/
def value (W : World) (before : Wos.Rec → List (Op String FVal)) (tag : String) (r : Wos.Rec) : Except AErr (Option FVal) :=
  match (getitem (cls W) 3 (held W (before r) r) tag).1 with
  | .ok v => .ok (some v)
  | .error .keyError => .ok none
  | .error e => .error e

/-- The records of `RecordCollection(file)` for a file whose beginning is that of a Web of Science file, in the order in which the set is gone through
(recordCollection.py:97-105). An error the reader reports is only noted. `none`: the file is given to another reader. -/
def records (W : World) (order : List Wos.Rec → List Wos.Rec) (text : Str) : Option (List Wos.Rec) :=
  if isWOSFile text then (wosParser W.ws text).map (fun res => order res.recs) else none

/-- `authsList` (recordCollection.py:1020-1025): `list` of a text gives its characters and of a number raises. -/
def names : Option FVal → Except AErr (List Str)
  | none => .ok []
  | some (.texts l) => .ok l
  | some (.cites l) => .ok l
  | some (.text s) => .ok (s.map (fun c => [c]))
  | some (.num _) => .error .other

/-- `RecordCollection(file).networkCoAuthor(detailedInfo = False, weighted, dropNonJournals = False, count, useShortNames)` (recordCollection.py:942-1073). -/
def coAuthors (W : World) (before : Wos.Rec → List (Op String FVal)) (order : List Wos.Rec → List Wos.Rec) (useShort weighted count : Bool) (text : Str) :
    Option (Except AErr (CoNetworks.CoNet Str Unit)) :=
  (records W order text).map (fun rs => do
    let auths ← rs.mapM (fun r => do names (← value W before (if useShort then "authorsShort" else "authorsFull") r))
    return CoNetworks.networkCoAuthor weighted false count (fun _ => true) id (fun _ => ()) auths)

/-- A value as the functions that count take it: a list or a single one. A citation stands here for itself, so that this is not for the tag of citations. -/
def fieldVal : FVal → FieldVal FVal
  | .texts l => .list (l.map .text)
  | .cites l => .list (l.map (fun c => .cites [c]))
  | v => .single v

/-- `RecordCollection(file).rankedSeries(tag, …)` (mkCollection.py:569-663). -/
def ranked (W : World) (before : Wos.Rec → List (Op String FVal)) (order : List Wos.Rec → List Wos.Rec) (tag : String) (giveCounts giveRanks greatestFirst pandasMode : Bool)
    (limitTo : Option (List FVal)) (text : Str) : Option (Except AErr (Except SeriesErr (Ranked FVal))) :=
  (records W order text).map (fun rs => do
    let vals ← rs.mapM (value W before tag)
    return rankedSeries (fun v => v.map fieldVal) vals giveCounts giveRanks greatestFirst pandasMode limitTo)

/-- `str` of a value (mkCollection.py:880, 945). Lists are not handed to it. -/
def nodeText : FVal → Str
  | .text s => s
  | .num n => showInt n
  | .texts l => l.flatten
  | .cites l => l.flatten

/-- `RecordCollection(file).networkOneMode(tag, nodeCount, edgeWeight)` (mkCollection.py:808-1001). -/
def oneMode (W : World) (before : Wos.Rec → List (Op String FVal)) (order : List Wos.Rec → List Wos.Rec) (tag : String) (nodeCount edgeWeight : Bool) (text : Str) :
    Option (Except AErr (Networks.Net Str)) :=
  (records W order text).map (fun rs => do
    let vals ← rs.mapM (value W before tag)
    return Networks.networkOneMode nodeCount edgeWeight nodeText (fun (v : Option FVal) (_ : Unit) => v.map fieldVal) () vals)

/-- `R.get('citations')` with the strings parsed (WOS/tagProcessing/tagFunctions.py:505-527). -/
def citations (W : World) : Option FVal → Option (List Citation.Cite)
  | some (.cites l) => l.mapM (fun c => (CiteParse.parseWos W.chars c).map CiteParse.Parsed.cite)
  | _ => none

/-- `RecordCollection(file).networkCoCitation(…)` (recordCollection.py:1075-1177). `own` is `createCitation` of a record. -/
def coCitations (W : World) (before : Wos.Rec → List (Op String FVal)) (order : List Wos.Rec → List Wos.Rec) (env : CiteNetworks.Env) (o : CiteNetworks.Opts)
    (own : Wos.Rec → Citation.Cite) (text : Str) : Option (Except AErr (Except CiteNetworks.NetErr (CiteNetworks.CiteNet Unit))) :=
  (records W order text).map (fun rs => do
    let vals ← rs.mapM (fun r => do return (r, citations W (← value W before "citations" r)))
    return CiteNetworks.networkCoCitation env o (fun _ => ()) (fun p => own p.1) Prod.snd vals)

/-- `RecordCollection(file).writeFile(…)` and what it writes (recordCollection.py:216-245). -/
def rewritten (W : World) (order : List Wos.Rec → List Wos.Rec) (text : Str) : Option Str := (records W order text).bind Wos.writeFile

/-- Reading a file and writing it, reading what was written and writing it, and so on, with the order in which each collection is gone through. -/
def resaved (W : World) : List (List Wos.Rec → List Wos.Rec) → Str → Option Str
  | [], text => some text
  | order :: orders, text => (rewritten W order text).bind (resaved W orders)

end Verif.Model.Pipeline
