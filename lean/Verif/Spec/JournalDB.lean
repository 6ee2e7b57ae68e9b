import Verif.Model.JournalDB

/-!
# What the journal databases should hold after a history of edits (C44)
-/
set_option autoImplicit false
namespace Verif.Spec.JournalDB
open Verif.Py Verif.Model.JournalDB

/-- A call that changes a database file; exceptions are caught by the caller. -/
inductive Op where
  | add (abbr : Abbr)
  | exclude (abbr : Abbr)
  | update (web : Option (List (List Str)))

/-- The files after a call. -/
def step (s : DBs) : Op → DBs
  | .add a => { s with manual := (addToDB a s.manual).1 }
  | .exclude a => { s with manual := (excludeFromDB a s.manual).1 }
  | .update web => { s with wos := (updatej9 web s.wos).1 }

/-- The files after a history of calls. -/
def run (h : List Op) (s : DBs) : DBs := h.foldl step s

/-- The pairs of strings before the first pair that is not. -/
def stringPairs : List (PyV × PyV) → List (Str × Str)
  | (.str k, .str v) :: rest => (k, v) :: stringPairs rest
  | _ => []

/-- The strings before the first element that is none. -/
def strings : List PyV → List Str
  | .str k :: rest => k :: strings rest
  | _ => []

/-- What a call writes for the abbreviation `j` in the manual database: the abbreviation itself or the names given with it when it is
added, nothing at all (the empty string) when it is excluded. -/
def written (j : Str) : Op → Option Str
  | .add (.str a) => if a = j then some j else none
  | .add (.dict kvs) => ((stringPairs kvs).reverse.find? (fun kv => kv.1 = j)).map Prod.snd
  | .exclude (.str a) => if a = j then some [] else none
  | .exclude (.list l) => if j ∈ strings l then some [] else none
  | _ => none

/-- What the last call that wrote something for `j` wrote. -/
def lastWritten (j : Str) (h : List Op) : Option Str := h.reverse.findSome? (written j)

/-- The names a successful download has for `j`. -/
def downloaded (j : Str) : Op → Option Str
  | .update (some pages) =>
    match getCurrent pages [] with
    | .ok d => (d.get? j).map (Str.join ['|'])
    | .error _ => none
  | _ => none

/-- The manual entry for `j`: what was last written, else what was there before. -/
def manualEntry (s : DBs) (h : List Op) (j : Str) : Option Str := (lastWritten j h).or ((s.manual.getD []).get? j)

/-- The WOS entry for `j`: what was there before, else what was first downloaded. -/
def wosEntry (s : DBs) (h : List Op) (j : Str) : Option Str := (s.wos.get? j).or (h.findSome? (downloaded j))

/-- Which entry a user should see: the manual one, else the WOS one. -/
def entry (which : Which) (s : DBs) (h : List Op) (j : Str) : Option Str :=
  match which with
  | .both => (manualEntry s h j).or (wosEntry s h j)
  | .wos => wosEntry s h j
  | .manual => manualEntry s h j

/-- Dictionaries hold a key once. -/
def Valid (s : DBs) : Prop := Dict.WF s.wos ∧ Dict.WF (s.manual.getD [])

/-- The names in an entry; they are separated by `|`. -/
def namesIn (e : Str) : List Str := Str.split ['|'] e

/-- What should be reported for a journal with this entry: its first name, nothing when there is no entry or the first name is empty. -/
def reported (e : Option Str) : Option Str :=
  match e with
  | none => none
  | some e => if (namesIn e).headD [] = [] then none else some ((namesIn e).headD [])

end Verif.Spec.JournalDB
