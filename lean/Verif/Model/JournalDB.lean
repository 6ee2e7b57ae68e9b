import Verif.Py.Dict
import Verif.Py.StrOps

/-!
# Model of `metaknowledge/journalAbbreviations/backend.py` and of the journal methods of `metaknowledge/citation.py`

A `dbm.dumb` file is the dictionary it stores (the file format is not modelled); opening a missing file creates an empty
one, and leaving the `with` block, even by an exception, keeps what was written. Only the default file names are modelled.
The web is a parameter: the pages that are downloaded, as lists of lines, or `none` when the server cannot be reached.
-/
set_option autoImplicit false
namespace Verif.Model.JournalDB
open Verif.Py

inductive Err where
  | typeError | indexError | attributeError | journalDataBaseError | runtimeError
deriving DecidableEq, Repr

/-- A Python object given as key or value: a string or something else. `bytes` are left out. -/
inductive PyV where
  | str (s : Str)
  | other (n : Nat)
deriving DecidableEq, Repr

/-- The two database files. The WOS one is the same missing or empty; for the manual one `none` is a missing file. -/
structure DBs where
  wos : Dict Str Str
  manual : Option (Dict Str Str)
deriving DecidableEq

/-! ## Pages -/

/-- Appending a name to the entry of a tag (backend.py:69-72). -/
def addName (d : Dict Str (List Str)) (tag name : Str) : Dict Str (List Str) :=
  match d.get? tag with
  | some l => d.set tag (l ++ [name])
  | none => d.set tag [name]

/-- `s.split(sep)[1]`, `none` for `IndexError`. -/
def second (sep s : Str) : Option Str := (Str.split sep s)[1]?

/-- The loop of `_getDict` (backend.py:68-77). -/
def getDictLoop (name tag : Str) (d : Dict Str (List Str)) : List Str → Dict Str (List Str)
  | l1 :: l2 :: rest =>
    match second "</B><DT>".toList l1, second "<B><DD>\t".toList l2 with
    | some name', some tag' => getDictLoop name' tag' (addName d tag name) rest
    | _, _ => addName d tag name
  | _ => addName d tag name

/-- `_getDict` (backend.py:56-80) on the lines of a page. An `IndexError` before the loop is not caught. -/
def getDict (slines : List Str) : Except Err (Dict Str (List Str)) :=
  match slines.dropWhile (· ≠ "<DL>".toList) with
  | _ :: l1 :: l2 :: rest =>
    match second "\"></A><DT>".toList l1, second "<B><DD>\t".toList l2 with
    | some name, some tag => .ok (getDictLoop name tag [] rest)
    | _, _ => .error .indexError
  | _ => .error .indexError

/-- `_getCurrentj9Dict` (backend.py:81-93): the pages in the order of `j9urlGenerator`. -/
def getCurrent : List (List Str) → Dict Str (List Str) → Except Err (Dict Str (List Str))
  | [], d => .ok d
  | p :: ps, d =>
    match getDict p with
    | .error e => .error e
    | .ok e => if e.length = 0 then .error .runtimeError else getCurrent ps (d.update e)

/-! ## The database files -/

/-- The loop of `updatej9DB` over the downloaded entries (backend.py:119-125). For an abbreviation already in the database
the code only changes the downloaded dictionary, so the database keeps its entry. -/
def storeNew (db : Dict Str Str) : Dict Str (List Str) → Dict Str Str
  | [] => db
  | (k, v) :: rest => if db.has k then storeNew db rest else storeNew (db.set k (Str.join ['|'] v)) rest

/-- `updatej9DB` (backend.py:95-128) on the contents of a database file. `saveRawHTML` is in `Verif.Model.J9Files`. The `URLError` of a server that
cannot be reached is an `OSError`, which is `dbm.dumb.error`, so it leaves as `JournalDataBaseError`. -/
def updatej9 (web : Option (List (List Str))) (db : Dict Str Str) : Dict Str Str × Option Err :=
  match web with
  | none => (db, some .journalDataBaseError)
  | some pages =>
    match getCurrent pages [] with
    | .error e => (db, some e)
    | .ok j9 => (storeNew db j9, none)

/-- `retDict[k] = v.split('|')` for all entries of a database (backend.py:153-154, 162-163). -/
def loadInto (ret : Dict Str (List Str)) : Dict Str Str → Dict Str (List Str)
  | [] => ret
  | (k, v) :: rest => loadInto (ret.set k (Str.split ['|'] v)) rest

inductive Which where
  | both | wos | manual
deriving DecidableEq, Repr

/-- `returnDict == 'both' or returnDict == 'WOS'`. -/
def Which.useWos : Which → Bool
  | .both => true | .wos => true | .manual => false
/-- `returnDict == 'both' or returnDict == 'manual'`. -/
def Which.useManual : Which → Bool
  | .both => true | .wos => false | .manual => true

/-- `getj9dict` (backend.py:130-172). The recursion after `updatej9DB` is taken at most `fuel` times; one more than the number
of missing databases is enough. -/
def getj9 (web : Option (List (List Str))) (which : Which) : Nat → DBs → Except Err (Dict Str (List Str)) × DBs
  | 0, s => (.error .runtimeError, s)
  | fuel + 1, s =>
    if which.useWos && s.wos.length == 0 then
      match updatej9 web s.wos with
      | (db, some e) => (.error e, { s with wos := db })
      | (db, none) => getj9 web which fuel { s with wos := db }
    else
      let ret := if which.useWos then loadInto [] s.wos else []
      if which.useManual then
        match s.manual with
        | some m => (.ok (loadInto ret m), s)
        | none =>
          if which = .manual then
            match updatej9 web [] with
            | (db, some e) => (.error e, { s with manual := some db })
            | (db, none) => getj9 web which fuel { s with manual := some db }
          else (.ok ret, s)
      else (.ok ret, s)

/-- `db.update(abbr)` with its `TypeError`s (backend.py:190-193): entries before the bad one stay written. -/
def writeAll (db : Dict Str Str) : List (PyV × PyV) → Dict Str Str × Option Err
  | [] => (db, none)
  | (.str k, .str v) :: rest => writeAll (db.set k v) rest
  | _ :: _ => (db, some .typeError)

/-- The argument `abbr` of `addToDB` and `excludeFromDB`. -/
inductive Abbr where
  | str (s : Str)
  | dict (kvs : List (PyV × PyV))
  | list (l : List PyV)
  | none
  | other
deriving DecidableEq, Repr

/-- `addToDB` (backend.py:174-199) on the manual database. -/
def addToDB (abbr : Abbr) (m : Option (Dict Str Str)) : Option (Dict Str Str) × Option Err :=
  let db := m.getD []
  match abbr with
  | .str a => (some (db.set a a), none)
  | .dict kvs => let r := writeAll db kvs; (some r.1, r.2)
  | .none => (some db, none)
  | .list _ => (some db, some .typeError)
  | .other => (some db, some .typeError)

/-- `excludeFromDB` (backend.py:201-227) on the manual database. The elements of a list or tuple are hashable. The
dictionary `{k : '' for k in abbr}` is taken with its repetitions, which write the same value again. -/
def excludeFromDB (abbr : Abbr) (m : Option (Dict Str Str)) : Option (Dict Str Str) × Option Err :=
  let db := m.getD []
  match abbr with
  | .str a => (some (db.set a []), none)
  | .list l => let r := writeAll db (l.map (fun k => (k, .str []))); (some r.1, r.2)
  | .none => (some db, none)
  | .dict _ => (some db, some .typeError)
  | .other => (some db, some .typeError)

/-! ## A session -/

/-- A value of `abbrevDict`: a list of names, or, after `Citation.addToDB`, a string. -/
inductive Names where
  | list (l : List Str)
  | str (s : Str)
deriving DecidableEq, Repr

/-- `names[0]`. -/
def Names.first : Names → Except Err Str
  | .list [] => .error .indexError
  | .list (a :: _) => .ok a
  | .str [] => .error .indexError
  | .str (c :: _) => .ok [c]

/-- The database files and the global `abbrevDict` of citation.py, `none` until it is loaded. -/
structure Sess where
  dbs : DBs
  cache : Option (Dict Str Names)
deriving DecidableEq

/-- `if abbrevDict is None: abbrevDict = getj9dict(…)` (citation.py:290-291, 326-327). -/
def ensure (web : Option (List (List Str))) (s : Sess) : Except Err (Dict Str Names) × Sess :=
  match s.cache with
  | some d => (.ok d, s)
  | none =>
    match getj9 web .both 2 s.dbs with
    | (.error e, dbs) => (.error e, { s with dbs := dbs })
    | (.ok d, dbs) =>
      let d := d.map (fun kv => (kv.1, Names.list kv.2))
      (.ok d, { dbs := dbs, cache := some d })

/-- The lookup of `isJournal` without `checkIfExcluded` (citation.py:303-311): the name, or `none` for `False`. `journal` is the
attribute, `none` when there is none (citation.py:292). -/
def journalName (d : Dict Str Names) (journal : Option (Option Str)) : Except Err (Option Str) :=
  match journal with
  | none => .ok none
  | some none => .ok none
  | some (some j) =>
    if j = [] then .ok none else
    match d.get? j with
    | none => .ok none
    | some v =>
      match v.first with
      | .error e => .error e
      | .ok a => .ok (if a = [] then none else some a)

/-- The lookup of `isJournal` with `checkIfExcluded = True` (citation.py:294-302). -/
def isExcluded (d : Dict Str Names) (journal : Option (Option Str)) : Except Err Bool :=
  match journal with
  | none => .ok false
  | some none => .ok false
  | some (some j) =>
    if j = [] then .ok false else
    match d.get? j with
    | none => .ok false
    | some v =>
      match v.first with
      | .error _ => .ok false
      | .ok a => .ok (a = [])

/-- `Citation.isJournal()` (citation.py:263-311). -/
def isJournal (web : Option (List (List Str))) (journal : Option (Option Str)) (s : Sess) : Except Err (Option Str) × Sess :=
  match ensure web s with
  | (.error e, s) => (.error e, s)
  | (.ok d, s) => (journalName d journal, s)

/-- `Citation.isJournal(checkIfExcluded = True)` (citation.py:263-311). -/
def isJournalExcluded (web : Option (List (List Str))) (journal : Option (Option Str)) (s : Sess) : Except Err Bool × Sess :=
  match ensure web s with
  | (.error e, s) => (.error e, s)
  | (.ok d, s) => (isExcluded d journal, s)

/-- `Citation.isJournal(returnDict = which)` (citation.py:263-311): the choice matters only when `abbrevDict` is not loaded yet. -/
def isJournalOf (web : Option (List (List Str))) (which : Which) (journal : Option (Option Str)) (s : Sess) : Except Err (Option Str) × Sess :=
  match s.cache with
  | some d => (journalName d journal, s)
  | none =>
    match getj9 web which 2 s.dbs with
    | (.error e, dbs) => (.error e, { s with dbs := dbs })
    | (.ok d, dbs) =>
      let d := d.map (fun kv => (kv.1, Names.list kv.2))
      (journalName d journal, { dbs := dbs, cache := some d })

/-- `abbrevDict[self.journal][0]` (citation.py:329). -/
def firstName (d : Dict Str Names) (journal : Option (Option Str)) : Except Err (Option Str) :=
  match journal with
  | some (some j) =>
    match d.get? j with
    | some v => v.first.map some
    | none => .ok none
  | _ => .ok none

/-- `Citation.FullJournalName` (citation.py:313-331). -/
def fullName (web : Option (List (List Str))) (journal : Option (Option Str)) (s : Sess) : Except Err (Option Str) × Sess :=
  match ensure web s with
  | (.error e, s) => (.error e, s)
  | (.ok d, s) =>
    match journalName d journal with
    | .error e => (.error e, s)
    | .ok none => (.ok none, s)
    | .ok (some _) => (firstName d journal, s)

/-- `backend.addToDB` in a session: `abbrevDict` is not touched. -/
def sessAdd (abbr : Abbr) (s : Sess) : Option Err × Sess :=
  let r := addToDB abbr s.dbs.manual
  (r.2, { s with dbs := { s.dbs with manual := r.1 } })

/-- `backend.excludeFromDB` in a session. -/
def sessExclude (abbr : Abbr) (s : Sess) : Option Err × Sess :=
  let r := excludeFromDB abbr s.dbs.manual
  (r.2, { s with dbs := { s.dbs with manual := r.1 } })

/-- `Citation.addToDB` (citation.py:333-362). A citation without the attribute raises `AttributeError` (the code only catches
`KeyError`); with `None` as journal the key is not a string; `abbrevDict.update` on `None` is an `AttributeError`. `manualName`
is a string or `None`. -/
def citeAdd (journal : Option (Option Str)) (manualName : Option Str) (invert : Bool) (s : Sess) : Option Err × Sess :=
  match journal with
  | none => (some .attributeError, s)
  | some none => (some .typeError, (sessAdd (.dict [(.other 0, if invert then .str [] else match manualName with | none => .other 0 | some n => .str n)]) s).2)
  | some (some j) =>
    let name := if invert then [] else manualName.getD j
    let s := (sessAdd (.dict [(.str j, .str name)]) s).2
    match s.cache with
    | none => (some .attributeError, s)
    | some d => (none, { s with cache := some (d.set j (.str name)) })

end Verif.Model.JournalDB
