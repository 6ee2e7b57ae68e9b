import Verif.Model.ScopusPipeline
import Verif.Model.Tables

/-!
# From a Scopus file to the table of `forNLP`

`RecordCollection(file).forNLP(…)` without an output file and without extra columns: the reader of `Model.ScopusPipeline` followed by `Model.Tables`.
-/
set_option autoImplicit false
namespace Verif.Model.ScopusFrames
open Verif.Py Verif.Model.OtherFields Verif.Model.RecordAccess Verif.Model.ScopusPipeline

/-- What `forNLP` reads of a record. -/
structure NlpRead where
  id : Option Str
  ab : Option SVal
  year : Option SVal
  title : Option SVal
  keywords : Option SVal

/-- Reading it (recordCollection.py:665-670). -/
def nlpRead (W : World) (before : Scopus.Rec → List (Op String SVal)) (r : Scopus.Rec) : Except AErr NlpRead := do
  let ab ← value W before "AB" r
  let y ← value W before "year" r
  let t ← value W before "title" r
  let k ← value W before "keywords" r
  return ⟨r.id, ab, y, t, k⟩

/-- How it is taken: the abstract is a text and the keywords are a list, as the columns have them (recordCollection.py:665-671). -/
def nlpView : Tables.NlpView SVal NlpRead where
  str := .text
  id r := .text (r.id.getD [])
  year r := r.year.getD (.text [])
  title r := r.title.getD (.text [])
  keywords r := match r.keywords with
    | some (.texts l) => l
    | _ => []
  abstract r := match r.ab with
    | some (.text s) => s
    | _ => []
  extra _ _ := .missing

/-- `RecordCollection(file).forNLP(…)` (recordCollection.py:554-696). -/
def nlp (W : World) (before : Scopus.Rec → List (Op String SVal)) (order : List Scopus.Rec → List Scopus.Rec) (ch : Tables.Chars) (o : Tables.NlpOpts) (text : Str) :
    Option (Except AErr (Option (Dict Str (List SVal)))) :=
  (records order text).map (fun rs => do
    let read ← rs.mapM (nlpRead W before)
    return Tables.forNLP ch o nlpView none read)

end Verif.Model.ScopusFrames
