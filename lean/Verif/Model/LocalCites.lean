import Verif.Model.WhoCites
import Verif.Model.RecordFilters
import Verif.Model.Diffusion

/-!
# From Web of Science files to how often papers are cited

`RecordCollection(file)` followed by `localCitesOf` or `localCiteStats`, and `diffusionCount` of the collections of two files, with the citations of each record made from
what is read of it, as in `Verif.Model.WhoCites`.

Simplifications: the citations of all records are made and read before anything else, so that of two errors the one of a record is reported. A `Citation` is identified with
the hash of its id, which is all its `==` and `hash` look at (citation.py:174-190).
-/
set_option autoImplicit false
namespace Verif.Model.LocalCites
open Verif.Py Verif.Model.Wos Verif.Model.WosFields Verif.Model.RecordAccess Verif.Model.Pipeline Verif.Model.WhoCites

/-- A record with its own citation and what it cites. -/
abbrev CRec := Wos.Rec × Citation.Cite × Option (List Citation.Cite)

/-- The records of the file with their citations. -/
def withCites (W : World) (before : Wos.Rec → List (Op String FVal)) (rs : List Wos.Rec) : Except AErr (List CRec) :=
  rs.mapM (fun r => do return (r, ← createCitation W before r, citations W (← value W before "citations" r)))

/-- `RecordCollection(file).localCitesOf(recID)` for a string (recordCollection.py:1459-1501): the records of the resulting collection. -/
def localCitesOf (W : World) (before : Wos.Rec → List (Op String FVal)) (order : List Wos.Rec → List Wos.Rec) (hash : Str → Int) (recID text : Str) :
    Option (Except AErr (Except RecordFilters.FErr (List Wos.Rec))) :=
  (records W order text).map (fun rs => do
    let crs ← withCites W before rs
    return (RecordFilters.localCitesOf hash (fun r : CRec => r.1.id) (fun r => r.2.1) (fun r => r.2.2)
      (Coll.fresh "RecordCollection" crs "" : Coll CRec Unit Unit) (.string recID)).map (fun l => l.map Prod.fst))

/-- `RecordCollection(file).localCiteStats(keyType = …)` (recordCollection.py:1399-1457). All records of the file have an accession number. -/
def localCiteStats (W : World) (before : Wos.Rec → List (Op String FVal)) (order : List Wos.Rec → List Wos.Rec) (hash : Str → Int) (verbose : Bool)
    (kt : RecordFilters.KeyType) (text : Str) : Option (Except AErr (Except RecordFilters.FErr (Dict RecordFilters.CKey Nat))) :=
  (records W order text).map (fun rs => do
    let crs ← withCites W before rs
    return RecordFilters.localCiteStats verbose (fun _ => true) hash kt (fun r : CRec => r.2.2) crs)

/-- `createCitation(multiCite = True)` (mkRecord.py:615-658). -/
def createCitations (W : World) (before : Wos.Rec → List (Op String FVal)) (r : Wos.Rec) : Except AErr (List Citation.Cite) := do
  let authors ← names (← value W before "authorsShort" r)
  let year ← yearVal (← value W before "year" r)
  let j9 ← textVal (← value W before "j9" r)
  let title ← textVal (← value W before "title" r)
  let volume ← textVal (← value W before "volume" r)
  let page ← textVal (← value W before "beginningPage" r)
  let doi ← textVal (← value W before "DOI" r)
  match (CiteParse.citeStrings ⟨authors, year, j9, title, volume, page, doi⟩).mapM (CiteParse.parseWos W.chars) with
  | some ps => .ok (ps.map CiteParse.Parsed.cite)
  | none => .error .other

/-- The fields of a record as far as `diffusionCount` uses them when it counts records: whether there are any. -/
def rawFields (r : Wos.Rec) : Dict Str (Diffusion.FVal Int) := r.fields.map (fun f => (f.1, .list (f.2.map .str)))

/-- What `diffusionCount` reads of a source (diffusion.py:209-220): its citations. -/
def sourceRec (W : World) (before : Wos.Rec → List (Op String FVal)) (hash : Str → Int) (r : Wos.Rec) : Except AErr (Diffusion.Rec Int) := do
  let own ← createCitation W before r
  let all ← createCitations W before r
  return ⟨r.id, rawFields r, hash own.id, all.map (fun c => hash c.id), []⟩

/-- What `diffusionCount` reads of a target (diffusion.py:234-246): what it cites. -/
def targetRec (W : World) (before : Wos.Rec → List (Op String FVal)) (hash : Str → Int) (r : Wos.Rec) : Except AErr (Diffusion.Rec Int) := do
  let cs := citations W (← value W before "citations" r)
  return ⟨r.id, rawFields r, 0, [], (cs.getD []).map (fun c => hash c.id)⟩

/-- `diffusionCount(RecordCollection(source), RecordCollection(target), useAllAuthors = …)` (diffusion.py:139-349). -/
def diffusionCount (W : World) (before : Wos.Rec → List (Op String FVal)) (order : List Wos.Rec → List Wos.Rec) (hash : Str → Int) (useAllAuthors : Bool)
    (source target : Str) : Option (Except AErr (Except Diffusion.Err (Dict (Diffusion.Key Int) Nat))) := do
  let ss ← records W order source
  let ts ← records W order target
  return do
    let ss ← ss.mapM (sourceRec W before hash)
    let ts ← ts.mapM (targetRec W before hash)
    return Diffusion.diffusionCount useAllAuthors .raw ss ts

end Verif.Model.LocalCites
