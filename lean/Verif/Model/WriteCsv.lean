import Verif.Py.CsvAll
import Verif.Py.StrOps

/-!
# Model of `RecordCollection.writeCSV` of `metaknowledge/recordCollection.py`

Tags are strings. What is read of a record is given by a `View`. A file is its text; encodings and the file system are left out: with
`splitByTag` the result gives the text written for each value of the tag, and `fileName` the name of its file. If two values have the same
file name the code opens that file twice; which text it has in the end is not modelled. `firstTags` and `onlyTheseTags` are lists, and what
the call leaves in the caller's `firstTags` is part of the result.
-/
set_option autoImplicit false
namespace Verif.Model.WriteCsv
open Verif.Py

/-- A value of a tag: a string; something else that can be iterated, with whether it is a `list`, its `str()` and its items, each with
whether it is a string and its `str()`; `None`; anything else, with its `str()`. -/
inductive Val where
  | str (s : Str)
  | iter (isList : Bool) (text : Str) (items : List (Bool × Str))
  | nil
  | other (text : Str)
deriving DecidableEq

/-- What `writeCSV` reads of a record: its tags, `R.get(tag)` with `none` when `R[tag]` is a `KeyError`, the number of its authors, and the
counts of their genders. -/
structure View (ρ : Type) where
  keys : ρ → List Str
  get : ρ → Str → Option Val
  authors : ρ → Nat
  genders : ρ → Nat × Nat × Nat

/-- The options. `firstTags`, `onlyTheseTags` and `fname` have their defaults filled in by `none`. -/
structure Opts where
  fname : Option Str
  splitByTag : Option Str
  onlyTheseTags : Option (List Str)
  numAuthors : Bool
  genderCounts : Bool
  longNames : Bool
  firstTags : Option (List Str)
  dialect : CsvAll.Dialect
  listDelimiter : Str

/-- The exceptions raised. -/
inductive CErr where
  | keyError | typeError | unboundLocalError
deriving DecidableEq, Repr

/-- The texts written: one file, or one for each value of the tag, in the order in which they were opened. -/
inductive Out where
  | single (text : Str)
  | split (files : Dict Str Str)
deriving DecidableEq

def kAuthors : Str := "num-Authors".toList
def kMale : Str := "num-Male".toList
def kFemale : Str := "num-Female".toList
def kUnknown : Str := "num-Unknown".toList

/-- The default of `firstTags` (recordCollection.py:295). -/
def defaultFirst : List Str :=
  ["id".toList, "title".toList, "authorsFull".toList, "citations".toList, "keywords".toList, "DOI".toList]

/-- Long names become tags, in place (recordCollection.py:296-298, 300-302). -/
def translate (toTag : Str → Option Str) (l : List Str) : List Str := l.map (fun t => (toTag t).getD t)

variable {ρ : Type}

/-- `retrievedFields` before long names, without a selection (recordCollection.py:305-308). -/
def allFields (keys : ρ → List Str) (first : List Str) (recs : List ρ) : List Str :=
  recs.foldl (fun acc R => acc ++ (keys R).filter (fun t => t ∉ acc)) first

/-- `retrievedFields` before long names (recordCollection.py:299-308); an empty selection counts as none given. -/
def shortFields (toTag : Str → Option Str) (o : Opts) (keys : ρ → List Str) (recs : List ρ) : List Str :=
  let first := translate toTag (o.firstTags.getD defaultFirst)
  match o.onlyTheseTags with
  | some (t :: ts) =>
    let only := translate toTag (t :: ts)
    first.filter (fun t => t ∈ only) ++ only.filter (fun t => t ∉ first)
  | _ => allFields keys first recs

/-- `retrievedFields` (recordCollection.py:299-313); `none` is the `KeyError`. -/
def retrievedFields (toTag toFull : Str → Option Str) (o : Opts) (keys : ρ → List Str) (recs : List ρ) : Option (List Str) :=
  let fields := shortFields toTag o keys recs
  if o.longNames then fields.mapM toFull else some fields

/-- `csvWriterFields` (recordCollection.py:318-323). -/
def writerFields (o : Opts) (fields : List Str) : List Str :=
  let fs := if o.numAuthors then fields ++ [kAuthors] else fields
  if o.genderCounts then fs ++ [kMale, kFemale, kUnknown] else fs

/-- `retrievedFields` during the loop: without `numAuthors` it is the same list as `csvWriterFields`, so the columns of the genders are
appended to it as well (recordCollection.py:320-323). -/
def loopFields (o : Opts) (fields : List Str) : List Str := if o.numAuthors then fields else writerFields o fields

/-- What the call leaves in the list given as `firstTags`: without a selection `retrievedFields` is that list, and so is `csvWriterFields`
without `numAuthors`; long names make a new list (recordCollection.py:296-323). -/
def firstAfter (toTag : Str → Option Str) (o : Opts) (keys : ρ → List Str) (recs : List ρ) : List Str :=
  match o.onlyTheseTags with
  | some (_ :: _) => translate toTag (o.firstTags.getD defaultFirst)
  | _ =>
    let fields := shortFields toTag o keys recs
    if o.longNames then fields else loopFields o fields

/-- The text of a value (recordCollection.py:342-350). -/
def cell (listDelimiter : Str) : Option Val → Str
  | some (.str s) => s
  | some (.iter _ _ items) => Str.join listDelimiter (items.map Prod.snd)
  | some .nil => []
  | some (.other t) => t
  | none => []

/-- `str(n)`. -/
def showNat (n : Nat) : Str := Nat.toDigits 10 n

/-- `recDict` (recordCollection.py:340-354). -/
def recDict (v : View ρ) (o : Opts) (fields : List Str) (R : ρ) : Dict Str Str :=
  let d : Dict Str Str := fields.foldl (fun (d : Dict Str Str) t => d.set t (cell o.listDelimiter (v.get R t))) []
  let d : Dict Str Str := if o.numAuthors then d.set kAuthors (showNat (v.authors R)) else d
  if o.genderCounts then
    ((d.set kMale (showNat (v.genders R).1)).set kFemale (showNat (v.genders R).2.1)).set kUnknown (showNat (v.genders R).2.2)
  else d

/-- `csvWriter.writerow(recDict)`: a missing key is written as an empty string. The keys of `recDict` are all columns, so the writer does not
raise. -/
def rowOf (v : View ρ) (o : Opts) (fields : List Str) (R : ρ) : List Str :=
  (writerFields o fields).map (fun k => ((recDict v o (loopFields o fields) R).get? k).getD [])

/-- `splitVal` as a list (recordCollection.py:332-339). `none` means that the record is skipped. -/
def splitVals (v : View ρ) (tag : Str) (R : ρ) : Option (List (Bool × Str)) :=
  match v.get R tag with
  | none => none
  | some (.iter true _ items) => some items
  | some (.iter false t _) => some [(true, t)]
  | some (.str s) => some [(true, s)]
  | some .nil => some [(true, "None".toList)]
  | some (.other t) => some [(true, t)]

/-- One value of the loop at recordCollection.py:356-365. A value that is not a string cannot be cut to 200 characters. -/
def splitStep (d : CsvAll.Dialect) (header row : List Str) (files : Dict Str Str) (sTag : Bool × Str) : Except CErr (Dict Str Str) :=
  if sTag.1 then
    match files.get? sTag.2 with
    | some t => .ok (files.set sTag.2 (t ++ CsvAll.row d row))
    | none => .ok (files.set sTag.2 (CsvAll.row d header ++ CsvAll.row d row))
  else .error .typeError

/-- One record (recordCollection.py:331-365), splitting. -/
def splitRecord (v : View ρ) (o : Opts) (fields : List Str) (tag : Str) (files : Dict Str Str) (R : ρ) : Except CErr (Dict Str Str) :=
  match splitVals v tag R with
  | none => .ok files
  | some vals => vals.foldlM (splitStep o.dialect (writerFields o fields) (rowOf v o fields R)) files

/-- `RecordCollection.writeCSV` (recordCollection.py:247-371). With an empty string as `splitByTag` no file is opened and `f` is used
unbound. -/
def writeCSV (toTag toFull : Str → Option Str) (v : View ρ) (o : Opts) (recs : List ρ) : Except CErr Out :=
  match retrievedFields toTag toFull o v.keys recs with
  | none => .error .keyError
  | some fields =>
    match o.splitByTag with
    | none => .ok (.single (recs.foldl (fun t R => t ++ CsvAll.row o.dialect (rowOf v o fields R)) (CsvAll.row o.dialect (writerFields o fields))))
    | some [] => .error .unboundLocalError
    | some (c :: tag) =>
      match recs.foldlM (splitRecord v o fields (c :: tag)) [] with
      | .ok files => .ok (.split files)
      | .error e => .error e

/-- `baseFileName` (recordCollection.py:314-317); an empty name counts as none given. -/
def baseName (o : Opts) (collName : Str) : Str :=
  match o.fname with
  | some (c :: s) => c :: s
  | _ => collName.take 200 ++ ".csv".toList

/-- The name of the file of a value (recordCollection.py:360). -/
def fileName (base sTag : Str) : Str := sTag.take 200 ++ ['-'] ++ base

end Verif.Model.WriteCsv
