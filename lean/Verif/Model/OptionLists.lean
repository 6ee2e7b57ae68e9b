import Verif.Model.Tables
import Verif.Model.WriteCsv
import Verif.Model.TagNames

/-!
# Model of what calls do to the lists of tags they are given

`makeDict`, `writeCSV` and `forNLP` of `metaknowledge/recordCollection.py` change the lists given as `onlyTheseTags`, `firstTags` and
`extraColumns`. The tables and files themselves are those of `Model/Tables` and `Model/WriteCsv`. One list is given to a series of calls; a call that
is given two lists is given two different ones.
-/
set_option autoImplicit false
namespace Verif.Model.OptionLists
open Verif.Py

/-- What the calls read of the records, and the names of the columns `makeDict` adds. `toTag` and `toFull` are `fullToTagDict` and `tagToFullDict`. -/
structure Env (V ρ : Type) where
  toTag : Str → Option Str
  toFull : Str → Option Str
  ex : Tables.Extras Str
  dict : Tables.View Str V ρ
  nlp : Tables.NlpView V ρ
  chars : Tables.Chars
  csv : WriteCsv.View ρ

/-- `fullToTagDict` (WOS/tagProcessing/tagFunctions.py, recordCollection.py:20). -/
def wosToTag (t : Str) : Option Str := TagNames.fullToTag.get? t

/-- A call that is given the list: `makeDict(onlyTheseTags = l)`, `forNLP(extraColumns = l)`, `writeCSV(onlyTheseTags = l)` or
`writeCSV(firstTags = l)`, with the other options and the records of the collection it is made on. -/
inductive Call (ρ : Type) where
  | makeDict (longNames numAuthors genderCounts : Bool) (recs : List ρ)
  | forNLP (o : Tables.NlpOpts) (recs : List ρ)
  | csvOnly (o : WriteCsv.Opts) (recs : List ρ)
  | csvFirst (o : WriteCsv.Opts) (recs : List ρ)

/-- What a call returns or writes. `none` is `KeyError`. -/
inductive Out (V : Type) where
  | table (t : Option (Dict Str (List V)))
  | file (f : Except WriteCsv.CErr WriteCsv.Out)

variable {V ρ : Type}

/-- `for i in range(len(l)): if l[i] in fullToTagDict: l[i] = fullToTagDict[l[i]]` (recordCollection.py:296-298, 300-302, 724-726). `assign` says
that the sequence is a list; assigning to an item of a tuple is a `TypeError` (`none`). -/
def inPlace (toTag : Str → Option Str) (assign : Bool) : List Str → Option (List Str)
  | [] => some []
  | t :: ts =>
    match toTag t with
    | none => (inPlace toTag assign ts).map (fun l => t :: l)
    | some u => if assign then (inPlace toTag assign ts).map (fun l => u :: l) else none

/-- The list after `if onlyTheseTags:` and the loop (recordCollection.py:299-302, 723-726); an empty list is left. -/
def selectionAfter (toTag : Str → Option Str) (l : List Str) : List Str := (inPlace toTag true l).getD l

/-- One call: its result and the list afterwards. `makeDict` (recordCollection.py:723-753) and `writeCSV` (295-371) go on with the changed list, in which
there is nothing left to translate; `forNLP` (650-680) with the list without built-in columns. -/
def call (e : Env V ρ) (l : List Str) : Call ρ → Out V × List Str
  | .makeDict longNames na gc recs =>
    let l' := selectionAfter e.toTag l
    (.table (Tables.makeDict e.ex (fun _ => none) e.toFull e.dict (some l') longNames na gc recs), l')
  | .forNLP o recs =>
    (.table (Tables.forNLP e.chars o e.nlp (some l) recs), Tables.extraList (some l))
  | .csvOnly o recs =>
    (.file (WriteCsv.writeCSV e.toTag e.toFull e.csv { o with onlyTheseTags := some l } recs), selectionAfter e.toTag l)
  | .csvFirst o recs =>
    (.file (WriteCsv.writeCSV e.toTag e.toFull e.csv { o with firstTags := some l } recs),
      WriteCsv.firstAfter e.toTag { o with firstTags := some l } e.csv.keys recs)

/-- A series of calls that are given the same list, one after the other: their results and the list in the end. -/
def run (e : Env V ρ) (l : List Str) : List (Call ρ) → List (Out V) × List Str
  | [] => ([], l)
  | c :: cs => ((call e l c).1 :: (run e (call e l c).2 cs).1, (run e (call e l c).2 cs).2)

/-- `makeDict(onlyTheseTags = (…))` with a tuple: `none` is the `TypeError`, which comes before anything else. -/
def makeDictTuple (e : Env V ρ) (l : List Str) (longNames na gc : Bool) (recs : List ρ) : Option (Option (Dict Str (List V))) :=
  match inPlace e.toTag false l with
  | none => none
  | some l' => some (Tables.makeDict e.ex (fun _ => none) e.toFull e.dict (some l') longNames na gc recs)

end Verif.Model.OptionLists
