import Verif.Model.ScopusPipeline
import Verif.Model.ScopusCite

/-!
# From a Scopus file to the networks of who cites whom

`RecordCollection(file)` followed by `networkCitation`, `networkBibCoupling` or `networkCoCitation`, with `createCitation` of each record made from what is read of it, as
in `Verif.Model.WhoCites` for Web of Science.

Simplification: the citations are made before the network is built, so that of two errors the one of a record is reported.
-/
set_option autoImplicit false
namespace Verif.Model.ScopusWhoCites
open Verif.Py Verif.Model.OtherFields Verif.Model.RecordAccess Verif.Model.ScopusPipeline

/-- A text that is put into the string (scopus/recordScopus.py:134-143): something that is no text raises there. -/
def textVal : Option SVal → Except AErr (Option Str)
  | none => .ok none
  | some (.text s) => .ok (some s)
  | some _ => .error .other

/-- The year (scopus/recordScopus.py:136-137), a number. -/
def yearVal : Option SVal → Except AErr (Option Int)
  | none => .ok none
  | some (.num n) => .ok (some n)
  | some _ => .error .other

/-- `createCitation()` (scopus/recordScopus.py:107-164). -/
def createCitation (W : World) (before : Scopus.Rec → List (Op String SVal)) (r : Scopus.Rec) : Except AErr Citation.Cite := do
  let authors ← names (← value W before "authorsShort" r)
  let title ← textVal (← value W before "title" r)
  let year ← yearVal (← value W before "year" r)
  let journal ← textVal (← value W before "journal" r)
  let volume ← textVal (← value W before "volume" r)
  let page ← textVal (← value W before "beginningPage" r)
  return (ScopusCite.createCitation W.chars ⟨authors, title, year, journal, volume, page⟩).parsed.cite

/-- The citations of the records, each with what it cites (recordCollection.py:1276-1285). -/
def cited (W : World) (before : Scopus.Rec → List (Op String SVal)) (rs : List Scopus.Rec) : Except AErr (List (Citation.Cite × Option (List Citation.Cite))) :=
  rs.mapM (fun r => do return (← createCitation W before r, citations W (← value W before "citations" r)))

/-- `RecordCollection(file).networkCitation(…)` (recordCollection.py:1179-1292). -/
def citationNet (W : World) (before : Scopus.Rec → List (Op String SVal)) (order : List Scopus.Rec → List Scopus.Rec) (env : CiteNetworks.Env) (o : CiteNetworks.Opts)
    (directed recordToCite : Bool) (text : Str) : Option (Except AErr (Except CiteNetworks.NetErr (CiteNetworks.CiteNet Unit))) :=
  (records order text).map (fun rs => do
    let vals ← cited W before rs
    return CiteNetworks.networkCitation env o directed recordToCite (fun _ => ()) Prod.fst Prod.snd vals)

/-- `RecordCollection(file).networkBibCoupling(…)` (recordCollection.py:1294-1348). `inCore` as in `Verif.Model.WhoCites`. -/
def coupling (W : World) (before : Scopus.Rec → List (Op String SVal)) (order : List Scopus.Rec → List Scopus.Rec) (env : CiteNetworks.Env) (weighted : Bool)
    (shuffle : List CiteNetworks.NodeId → List CiteNetworks.NodeId) (text : Str) : Option (Except AErr (Except CiteNetworks.NetErr (CiteNetworks.CiteNet Bool))) :=
  (records order text).map (fun rs => do
    let vals ← cited W before rs
    return CiteNetworks.networkBibCoupling env weighted id shuffle (fun c => vals.any (fun v => decide (env.hash v.1.id = env.hash c.id))) Prod.fst Prod.snd vals)

/-- `RecordCollection(file).networkCoCitation(…)` with the citations of the records made from the file (recordCollection.py:1075-1177). -/
def coCited (W : World) (before : Scopus.Rec → List (Op String SVal)) (order : List Scopus.Rec → List Scopus.Rec) (env : CiteNetworks.Env) (o : CiteNetworks.Opts)
    (text : Str) : Option (Except AErr (Except CiteNetworks.NetErr (CiteNetworks.CiteNet Unit))) :=
  (records order text).map (fun rs => do
    let vals ← cited W before rs
    return CiteNetworks.networkCoCitation env o (fun _ => ()) Prod.fst Prod.snd vals)

end Verif.Model.ScopusWhoCites
