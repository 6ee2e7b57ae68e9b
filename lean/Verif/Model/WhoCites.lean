import Verif.Model.Pipeline

/-!
# From a Web of Science file to the networks of who cites whom

`RecordCollection(file)` followed by `networkCitation` or `networkBibCoupling`, with `createCitation` of each record made from what is read of it, as in
`Verif.Model.Pipeline`.

Simplifications: the citations are made before the network is built, so that of two errors the one of a record is reported; `createCitation` reads the title also when there
is a short name of the journal.
-/
set_option autoImplicit false
namespace Verif.Model.WhoCites
open Verif.Py Verif.Model.Wos Verif.Model.WosFields Verif.Model.RecordAccess Verif.Model.Pipeline

/-- A text in the list that `', '.join` is given (mkRecord.py:642-658): something that is no text raises there. -/
def textVal : Option FVal → Except AErr (Option Str)
  | none => .ok none
  | some (.text s) => .ok (some s)
  | some _ => .error .other

/-- The year (mkRecord.py:640-641), a number. -/
def yearVal : Option FVal → Except AErr (Option Int)
  | none => .ok none
  | some (.num n) => .ok (some n)
  | some _ => .error .other

/-- `createCitation()` (mkRecord.py:615-658). -/
def createCitation (W : World) (before : Wos.Rec → List (Op String FVal)) (r : Wos.Rec) : Except AErr Citation.Cite := do
  let authors ← names (← value W before "authorsShort" r)
  let year ← yearVal (← value W before "year" r)
  let j9 ← textVal (← value W before "j9" r)
  let title ← textVal (← value W before "title" r)
  let volume ← textVal (← value W before "volume" r)
  let page ← textVal (← value W before "beginningPage" r)
  let doi ← textVal (← value W before "DOI" r)
  match CiteParse.parseWos W.chars (CiteParse.citeString ⟨authors, year, j9, title, volume, page, doi⟩) with
  | some p => .ok p.cite
  | none => .error .other

/-- The citations of the records, each with what it cites (recordCollection.py:1276-1285). -/
def cited (W : World) (before : Wos.Rec → List (Op String FVal)) (rs : List Wos.Rec) : Except AErr (List (Citation.Cite × Option (List Citation.Cite))) :=
  rs.mapM (fun r => do return (← createCitation W before r, citations W (← value W before "citations" r)))

/-- `RecordCollection(file).networkCitation(…)` (recordCollection.py:1179-1292). -/
def citationNet (W : World) (before : Wos.Rec → List (Op String FVal)) (order : List Wos.Rec → List Wos.Rec) (env : CiteNetworks.Env) (o : CiteNetworks.Opts)
    (directed recordToCite : Bool) (text : Str) : Option (Except AErr (Except CiteNetworks.NetErr (CiteNetworks.CiteNet Unit))) :=
  (records W order text).map (fun rs => do
    let vals ← cited W before rs
    return CiteNetworks.networkCitation env o directed recordToCite (fun _ => ()) Prod.fst Prod.snd vals)

/-- `RecordCollection(file).networkBibCoupling(…)` (recordCollection.py:1294-1348). The attribute of a node is `inCore`: whether its citation is that of a record
(recordCollection.py:1268, 1721-1746). -/
def coupling (W : World) (before : Wos.Rec → List (Op String FVal)) (order : List Wos.Rec → List Wos.Rec) (env : CiteNetworks.Env) (weighted : Bool)
    (shuffle : List CiteNetworks.NodeId → List CiteNetworks.NodeId) (text : Str) : Option (Except AErr (Except CiteNetworks.NetErr (CiteNetworks.CiteNet Bool))) :=
  (records W order text).map (fun rs => do
    let vals ← cited W before rs
    return CiteNetworks.networkBibCoupling env weighted id shuffle (fun c => vals.any (fun v => decide (env.hash v.1.id = env.hash c.id))) Prod.fst Prod.snd vals)

/-- `RecordCollection(file).networkCoCitation(…)` with the citations of the records made from the file (recordCollection.py:1075-1177). -/
def coCited (W : World) (before : Wos.Rec → List (Op String FVal)) (order : List Wos.Rec → List Wos.Rec) (env : CiteNetworks.Env) (o : CiteNetworks.Opts)
    (text : Str) : Option (Except AErr (Except CiteNetworks.NetErr (CiteNetworks.CiteNet Unit))) :=
  (records W order text).map (fun rs => do
    let vals ← cited W before rs
    return CiteNetworks.networkCoCitation env o (fun _ => ()) Prod.fst Prod.snd vals)

end Verif.Model.WhoCites
