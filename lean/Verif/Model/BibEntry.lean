import Verif.Model.Bib
import Mathlib.Data.List.Sort

/-!
# Model of `bibString` (`metaknowledge/mkRecord.py`) and `writeBib` (`metaknowledge/recordCollection.py`)

`str.title` is an arbitrary function `title`. The values of the fields are given as processed; that processing one may raise is not part of
this model.
-/
set_option autoImplicit false
namespace Verif.Model.BibEntry
open Verif.Py Verif.Model.Bib

/-- What `bibString` reads of a record: `year` and `month` are the texts of the values if they are true, `items` is `self.items()`, `field`
is `self[k]` where `k in self`. -/
structure Rec where
  bad : Bool
  id : Str
  authorsFull : Option (List Str)
  year : Option Str
  month : Option Str
  title : Option Str
  items : List (Str × Value)
  field : Str → Option Value

/-- `BadRecord` and `ZeroDivisionError`. -/
inductive Err where
  | badRecord | zeroDivision
deriving DecidableEq, Repr

/-- `commonRecordFields` (constants.py:7-24). -/
def commonRecordFields : List Str :=
  ["year", "volume", "beginningPage", "DOI", "address", "j9", "citations", "grants", "selfCitation", "authorsShort", "authorsFull", "title",
    "journal", "keywords", "abstract", "id"].map String.toList

/-- `x.title().replace(' ', '').replace(',', '').replace('.','')` (mkRecord.py:731). -/
def squash (title : Str → Str) (x : Str) : Str :=
  Str.replace ".".toList [] (Str.replace ",".toList [] (Str.replace " ".toList [] (title x)))

/-- The while loop over the words of the title (mkRecord.py:741-742); the list is `tiSorted` from its end. -/
def niceLoop (title : Str → Str) : Str → List Str → Str
  | bibID, [] => bibID
  | bibID, w :: ws => if bibID.length < 35 then niceLoop title (bibID ++ "-".toList ++ title w) ws else bibID

/-- The author, year and month of the ID (mkRecord.py:730-737). -/
def niceHead (title : Str → Str) (r : Rec) : Str :=
  let bibID := match r.authorsFull with
    | some (a :: _) => squash title a
    | _ => []
  let bibID := match r.year with
    | some y => bibID ++ "-".toList ++ y
    | none => bibID
  match r.month with
  | some m => bibID ++ "-".toList ++ m
  | none => bibID

/-- The ID with the words of the title (mkRecord.py:738-742). The list popped is sorted by length, so the loop sees it from the end. -/
def niceBody (title : Str → Str) (r : Rec) : Str :=
  match r.title with
  | none => niceHead title r
  | some [] => niceHead title r
  | some t =>
    match ((Str.split " ".toList t).insertionSort (fun a b => a.length ≤ b.length)).reverse with
    | [] => niceHead title r
    | w :: ws => niceLoop title (niceHead title r ++ "-".toList ++ title w) ws

/-- `bibID` (mkRecord.py:729-748). -/
def bibID (title : Str → Str) (wosMode niceID : Bool) (r : Rec) : Str :=
  if niceID then
    let b := niceBody title r
    if b.length < 30 then b ++ r.id else b
  else if wosMode then "ISI:".toList ++ r.id.drop 4
  else r.id

/-- The author entry (mkRecord.py:749). -/
def authorEntry (r : Rec) : Str :=
  "author = {{".toList ++ Str.join " and ".toList (r.authorsFull.getD ["None".toList]) ++ "}},".toList

/-- `tagsIter` (mkRecord.py:750-753). -/
def tagsIter (restrictedOutput : Bool) (r : Rec) : List (Str × Value) :=
  if restrictedOutput then commonRecordFields.filterMap (fun k => (r.field k).map (fun v => (k, v))) else r.items

/-- One entry in the style of WOS (mkRecord.py:756-759). -/
def wosEntry (p : Str × Value) : Str :=
  p.1 ++ " = {{".toList ++ (match p.2 with
    | .list l => Str.join "\n   ".toList l
    | .str s => s
    | .other s => s) ++ "}},".toList

/-- One other entry (mkRecord.py:763). -/
def plainEntry (maxLength : Int) (p : Str × Value) : Except Err Str :=
  match bibFormatter p.2 maxLength with
  | some v => .ok (p.1 ++ " = ".toList ++ v ++ ",".toList)
  | none => .error .zeroDivision

/-- `bibString` (mkRecord.py:697-767). -/
def bibString (title : Str → Str) (maxLength : Int) (wosMode restrictedOutput niceID : Bool) (r : Rec) : Except Err Str :=
  if r.bad then .error .badRecord
  else
    let key := bibID title wosMode niceID r
    if wosMode then
      .ok ("@misc{ ".toList ++ key ++ ",\n".toList ++
        Str.join "\n".toList (authorEntry r :: (tagsIter restrictedOutput r).map wosEntry) ++ "\n}".toList)
    else do
      let es ← (tagsIter restrictedOutput r).mapM (plainEntry maxLength)
      .ok ("@misc{ ".toList ++ key ++ ",\n    ".toList ++ Str.join "\n    ".toList (authorEntry r :: es) ++ "\n}".toList)

/-- The first lines of the file (recordCollection.py:407). -/
def header : Str :=
  ("%This file was generated by the metaknowledge Python package.\n" ++
   "%The contents have been automatically generated and are likely to not work with\n" ++
   "%LaTeX without some human intervention. This file is meant for other automatic\n" ++
   "%systems and not to be used directly for making citations\n").toList

/-- The loop of `writeBib` (recordCollection.py:409-416): what is in the file, and the exception that ends it. `BadRecord` is not a
`BadWOSRecord` and is not caught. -/
def writeLoop (bib : Rec → Except Err Str) : Str → List Rec → Str × Option Err
  | f, [] => (f, none)
  | f, r :: rs =>
    let f := f ++ "\n\n".toList
    match bib r with
    | .ok s => writeLoop bib (f ++ s) rs
    | .error e => (f, some e)

/-- `writeBib` (recordCollection.py:373-418). -/
def writeBib (title : Str → Str) (maxLength : Int) (wosMode reducedOutput niceIDs : Bool) (rs : List Rec) : Str × Option Err :=
  writeLoop (bibString title maxLength wosMode reducedOutput niceIDs) header rs

end Verif.Model.BibEntry
