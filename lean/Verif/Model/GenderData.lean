import Verif.Model.Gender
import Verif.Py.Csv

/-!
# Model of `metaknowledge/genders/nameGender.py` with its file and its download

`Verif.Model.Gender` takes the rows of the file of names as given. Here the file may be missing, is downloaded when it is, stays from one session to
the next, and is read as text. The archive that is downloaded is a parameter: the texts of its two files.

Simplifications: the file is text, its encoding is not modelled. An interrupted download leaves the first characters of the file; a program that is
killed is one whose session ends there.
-/
set_option autoImplicit false
namespace Verif.Model.GenderData
open Verif.Py Verif.Model.Gender

/-- The two files of names in the archive (nameGender.py:10-12). -/
structure Archive where
  us : Str
  uk : Str

/-- What becomes of a download, if one is made. -/
inductive Fate where
  | ok
  | unreachable
  | denied
  | cut (n : Nat)
deriving DecidableEq, Repr

inductive Err where
  | url | permission | os | stopIteration
deriving DecidableEq, Repr

/-- The file `namesData.csv` beside the source, which stays, and `mappingDict` of the session (nameGender.py:14, 29). -/
structure St where
  file : Option Str
  mapping : Option (Dict Str (Option Str))

/-- `downloadData` (nameGender.py:31-41): the file after it and the exception. The file is opened, and so emptied,
before the archive is unpacked and the file is written: `cut n` stands for anything that ends this after `n` characters, such as a full disk or, with
`n = 0`, a damaged archive; whichever exception it is, it is `Err.os` here. -/
def downloadData (a : Archive) (useUK : Bool) (fate : Fate) (file : Option Str) : Option Str × Option Err :=
  let data := if useUK then a.uk else a.us
  match fate with
  | .ok => (some data, none)
  | .unreachable => (file, some .url)
  | .denied => (file, some .permission)
  | .cut n => (some (data.take n), some .os)

/-- What `csv.DictReader` gives for one row: the columns `Name` and `prob.gender` of the nine (nameGender.py:16-26). -/
def pairOf (r : List Str) : Str × Option Str := (r.headD [], r[4]?)

/-- The loop over the rows of the file behind the first (nameGender.py:47-52): `csv.DictReader` skips empty rows, and `next` raises `StopIteration`
if there is no row at all. -/
def readFile (title : Str → Str) (t : Str) : Except Err (Dict Str (Option Str)) :=
  match (Csv.read t).filter (fun r => !r.isEmpty) with
  | [] => .error .stopIteration
  | _ :: rows => .ok (getMapping title (rows.map pairOf))

/-- `getMapping(useUK)` (nameGender.py:43-52). -/
def getMapping (title : Str → Str) (a : Archive) (useUK : Bool) (fate : Fate) (st : St) : St × Except Err (Dict Str (Option Str)) :=
  match st.file with
  | some t => (st, readFile title t)
  | none =>
    match downloadData a useUK fate none with
    | (f, some e) => ({ st with file := f }, .error e)
    | (none, none) => (st, .error .os)
    | (some t, none) => ({ st with file := some t }, readFile title t)

/-- `nameStringGender(s, noExcept)` (nameGender.py:54-66): the table is loaded when the first name that can be taken apart is asked for. -/
def nameStringGender (title : Str → Str) (a : Archive) (fate : Fate) (noExcept : Bool) (s : Str) (st : St) :
    St × Except Err (Option (Option Str)) :=
  match (Str.split ", ".toList s)[1]? with
  | none => (st, .ok (if noExcept then some (some unknown) else none))
  | some _ =>
    match st.mapping with
    | some m => (st, .ok (nameGender title m noExcept s))
    | none =>
      match getMapping title a false fate st with
      | (st1, .error e) => (st1, .error e)
      | (st1, .ok m) => ({ st1 with mapping := some m }, .ok (nameGender title m noExcept s))

end Verif.Model.GenderData
