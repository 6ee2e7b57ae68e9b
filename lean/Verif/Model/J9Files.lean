import Verif.Model.JournalDB
import Verif.Py.Path
import Verif.Spec.Paths

/-!
# Model of `metaknowledge/journalAbbreviations/backend.py` with its files, its working directory and its downloads

`Verif.Model.JournalDB` has the contents of the two default databases. Here the databases have names and places, the pages can be saved, the
process has a working directory and the server answers one request after another.

Simplifications: pages are texts, so that `read().decode('utf-8')` cannot fail. A download fails with `URLError` or gives the whole page. What is
written to a file is in it at once. A `dbm.dumb` database is the dictionary it stores, at the place of its files without their endings `.dat`,
`.dir` and `.bak`, and can be opened wherever its directory exists. Python's limit on recursion is not modelled: `getj9dict` is followed to any
given depth.
-/
set_option autoImplicit false
namespace Verif.Model.J9Files
open Verif.Py Verif.Spec.Paths
open Verif.Model.JournalDB (getDict storeNew loadInto Which)

/-- The exceptions. `os` is any `OSError` but `URLError`. -/
inductive Err where
  | os | url | journalDataBase | index | runtime
deriving DecidableEq, Repr

/-- What a call can see and change: the file system, the working directory, the databases and the requests sent so far. -/
structure St where
  fs : FS
  cwd : Loc
  dbs : Loc → Option (Dict Str Str)
  asked : List Str

/-- The server: what the `n`-th request gives if it asks for this address, `none` when it fails. -/
abbrev Net := Nat → Str → Option Str

/-- `abrevDBname` (backend.py:10). -/
def abrevDBname : Str := "j9Abbreviations".toList
/-- `manualDBname` (backend.py:12). -/
def manualDBname : Str := "manualj9Abbreviations".toList

/-- `string.ascii_uppercase` -/
def upper : List Char := "ABCDEFGHIJKLMNOPQRSTUVWXYZ".toList

/-- `start` and `end` of `j9urlGenerator` (backend.py:28-29). -/
def urlStart : Str := "https://images.webofknowledge.com/images/help/WOS/".toList
def urlEnd : Str := "_abrvjt.html".toList

/-- `j9urlGenerator(nameDict = True)` (backend.py:30-33): the pairs of the dictionary in their order. -/
def urlDict : List (Str × Str) :=
  ("0-9".toList, urlStart ++ "0-9".toList ++ urlEnd) :: upper.map (fun c => ([c], urlStart ++ [c] ++ urlEnd))

/-- `j9urlGenerator()` (backend.py:34-37). -/
def urls : List Str := (urlStart ++ "0-9".toList ++ urlEnd) :: upper.map (fun c => urlStart ++ [c] ++ urlEnd)

/-- `os.path.isdir(p)` -/
def isdir (st : St) (p : Str) : Bool := st.fs.dir (walk st.cwd p)

/-- The file system with a file written. -/
def write (fs : FS) (l : Loc) (t : Str) : FS := { fs with file := fun m => if m = l then some t else fs.file m }

/-- The file system with a directory made. -/
def addDir (fs : FS) (l : Loc) : FS := { fs with dir := fun m => if m = l then true else fs.dir m }

/-- `os.mkdir(p)` -/
def mkdir (p : Str) (st : St) : St × Option Err :=
  let l := walk st.cwd p
  if st.fs.dir l ∨ (st.fs.file l).isSome ∨ st.fs.dir l.dropLast = false then (st, some .os) else ({ st with fs := addDir st.fs l }, none)

/-- `os.chdir(p)` -/
def chdir (p : Str) (st : St) : St × Option Err :=
  if isdir st p then ({ st with cwd := walk st.cwd p }, none) else (st, some .os)

/-- `"{}_abrvjt.html".format(urlID)` (backend.py:52). -/
def pageFile (urlID : Str) : Str := urlID ++ "_abrvjt.html".toList

/-- The loop of `_j9SaveCurrent` (backend.py:51-54). The file is opened, and so emptied, before the page is asked for. -/
def saveLoop (net : Net) : List (Str × Str) → St → St × Option Err
  | [], st => (st, none)
  | (urlID, url) :: rest, st =>
    let l := walk st.cwd (pageFile urlID)
    if st.fs.dir l ∨ st.fs.dir l.dropLast = false then (st, some .os)
    else
      match net st.asked.length url with
      | none => ({ st with fs := write st.fs l [], asked := st.asked ++ [url] }, some .url)
      | some page => saveLoop net rest { st with fs := write (write st.fs l []) l page, asked := st.asked ++ [url] }

/-- `_j9SaveCurrent` (backend.py:40-54); `day` is the date as `%Y-%m-%d`. -/
def saveCurrent (net : Net) (day sDir : Str) (st : St) : St × Option Err :=
  let dname := Path.normpath (sDir ++ ['/'] ++ (day ++ "_J9_AbbreviationDocs".toList))
  let r := if isdir st dname then chdir dname st
    else match mkdir dname st with
      | (st1, some e) => (st1, some e)
      | (st1, none) => chdir dname st1
  match r with
  | (st1, some e) => (st1, some e)
  | (st1, none) => saveLoop net urlDict st1

/-- `_getCurrentj9Dict` (backend.py:81-93): the pages are asked for and read one after another. -/
def fetch (net : Net) : List Str → Dict Str (List Str) → St → St × Except Err (Dict Str (List Str))
  | [], d, st => (st, .ok d)
  | u :: us, d, st =>
    let st1 := { st with asked := st.asked ++ [u] }
    match net st.asked.length u with
    | none => (st1, .error .url)
    | some page =>
      match getDict (Str.split ['\n'] page) with
      | .error _ => (st1, .error .index)
      | .ok e => if e.length = 0 then (st1, .error .runtime) else fetch net us (d.update e) st1

/-- `dbm.dumb.open(p)`: the database is made if there is none; `none` for an `OSError`. -/
def dbOpen (l : Loc) (st : St) : Option (Dict Str Str × St) :=
  match st.dbs l with
  | some db => some (db, st)
  | none => if st.fs.dir l.dropLast then some ([], { st with dbs := fun m => if m = l then some [] else st.dbs m }) else none

/-- A database is written. -/
def dbPut (l : Loc) (db : Dict Str Str) (st : St) : St := { st with dbs := fun m => if m = l then some db else st.dbs m }

/-- The part of `updatej9DB` behind the saving of the pages (backend.py:113-128). `dbm.dumb.error` is `OSError`, and `URLError` is a class under it,
so the `URLError` raised when the server cannot be reached leaves as `JournalDataBaseError`. For an abbreviation in the database nothing is
written (see `Verif.Model.JournalDB.storeNew`). -/
def updateDB (net : Net) (pkg dbname : Str) (st : St) : St × Option Err :=
  let l := walk st.cwd (Path.join (Path.normpath pkg) dbname)
  match dbOpen l st with
  | none => (st, some .journalDataBase)
  | some (db, st1) =>
    match fetch net urls [] st1 with
    | (st2, .error .url) => (st2, some .journalDataBase)
    | (st2, .error e) => (st2, some e)
    | (st2, .ok j9) => (dbPut l (storeNew db j9) st2, none)

/-- `updatej9DB(dbname, saveRawHTML)` (backend.py:95-128); `pkg` is `os.path.dirname(__file__)`. What `_j9SaveCurrent` raises is not caught. -/
def update (net : Net) (pkg day dbname : Str) (saveRawHTML : Bool) (st : St) : St × Option Err :=
  if saveRawHTML then
    let rawDir := pkg ++ "/j9Raws".toList
    match (if isdir st rawDir then (st, none) else mkdir rawDir st) with
    | (st1, some e) => (st1, some e)
    | (st1, none) =>
      match saveCurrent net day rawDir st1 with
      | (st2, some e) => (st2, some e)
      | (st2, none) => updateDB net pkg dbname st2
  else updateDB net pkg dbname st

/-- `getj9dict(dbname, manualDB, returnDict)` (backend.py:130-172) followed to a depth of `fuel` calls; `none` if it is then still calling itself.
The `updatej9DB()` of line 158 is the one for the default name. -/
def getj9dict (net : Net) (pkg dbname manualDB : Str) (which : Which) : Nat → St → Option (St × Except Err (Dict Str (List Str)))
  | 0, _ => none
  | fuel + 1, st =>
    let lw := walk st.cwd (Path.normpath pkg ++ ['/'] ++ dbname)
    let lm := walk st.cwd (Path.normpath pkg ++ ['/'] ++ manualDB)
    let second (ret : Dict Str (List Str)) (st1 : St) : Option (St × Except Err (Dict Str (List Str))) :=
      if which.useManual then
        match st1.dbs lm with
        | some m => some (st1, .ok (loadInto ret m))
        | none =>
          if which = .manual then
            match updateDB net pkg manualDB st1 with
            | (st2, some e) => some (st2, .error e)
            | (st2, none) => getj9dict net pkg dbname manualDB which fuel st2
          else some (st1, .ok ret)
      else some (st1, .ok ret)
    if which.useWos then
      match dbOpen lw st with
      | none => some (st, .error .os)
      | some (db, st1) =>
        if db.length = 0 then
          match updateDB net pkg abrevDBname st1 with
          | (st2, some e) => some (st2, .error e)
          | (st2, none) => getj9dict net pkg dbname manualDB which fuel st2
        else second (loadInto [] db) st1
    else second [] st

end Verif.Model.J9Files
