import Verif.Py.CsvMin
import Verif.Py.Decimal
import Verif.Model.Series
import Verif.Model.Tables

/-!
# The csv files written beside the series and the tables

`outputFile` of `rankedSeries` and `timeSeries` (mkCollection.py:627-631, 733-736) and of `forBurst` and `forNLP` (recordCollection.py:546-551,
682-695). A file is its text; encodings are left out. The first two files are opened without `newline = ''`; the text is what is handed to
the file. `text` is `str` of a value, as the csv writer takes it (the empty string for `None`).
-/
set_option autoImplicit false
namespace Verif.Model.SeriesFiles
open Verif.Py Verif.Model.Series

variable {ρ α : Type} [DecidableEq α]

/-- The file of `rankedSeries` (mkCollection.py:607-608, 625-631). `none` is the exception, which comes before the file is made; `tag` is `str(tag)`. -/
def rankedFile (text : α → Str) (tag : Str) (field : ρ → Option (FieldVal α)) (recs : List ρ) (giveCounts giveRanks greatestFirst : Bool)
    (limitTo : Option (List α)) : Option Str :=
  if giveRanks && giveCounts then none
  else
    let seriesList := sortedBy Prod.snd greatestFirst (countSeries field limitTo recs)
    some (CsvMin.rows CsvMin.excel ([tag, "count".toList] :: seriesList.map (fun p => [text p.1, showNat p.2])))

/-- The rows of the file of `timeSeries` (mkCollection.py:733-736): the years of an entry are the keys of its dictionary. -/
def timeRows {β : Type} (text : β → Str) (tag : Str) (d : Dict β (Dict Nat Nat)) : Str :=
  CsvMin.rows CsvMin.excel ([tag, "years".toList] :: d.map (fun p => [text p.1, Str.join ['|'] ((Dict.keys p.2).map showNat)]))

/-- The file of `timeSeries` with a tag. -/
def timeFileTag (text : α → Str) (tag : Str) (year : ρ → Option Nat) (field : ρ → Option (FieldVal α)) (recs : List ρ) (limitTo : Option (List α)) : Str :=
  timeRows text tag (countYears year field limitTo recs)

/-- The file of `timeSeries` without a tag: `str(tag)` is `'None'`, the records are written with `str`. -/
def timeFileRecords [DecidableEq ρ] (text : ρ → Str) (year : ρ → Option Nat) (recs : List ρ) : Str :=
  timeRows text "None".toList (recordYears year recs)

/-- The file of `forBurst` (recordCollection.py:546-551): there is no header. The two columns have the same length. -/
def burstFile {Y : Type} (text : Y → Str) (t : List Y × List Str) : Str :=
  CsvMin.rows CsvMin.excel (List.zipWith (fun y w => [text y, w]) t.1 t.2)

/-- The columns of the file of `forNLP` (recordCollection.py:685-690). -/
def nlpColumns {V : Type} (d : Dict Str (List V)) : List Str :=
  ["id".toList, "year".toList, "title".toList, "keywords".toList] ++
    ((((Dict.keys d).erase "id".toList).erase "title".toList).erase "year".toList).erase "keywords".toList

/-- `{k : retDict[k][row] for k in retDict.keys()}` as the writer orders it (recordCollection.py:693-694); `none` is `IndexError` or `KeyError`. -/
def nlpFileRow {V : Type} (text : V → Str) (d : Dict Str (List V)) (row : Nat) : Option (List Str) :=
  (nlpColumns d).mapM (fun k => ((Dict.get? d k).bind (fun col => col[row]?)).map text)

/-- The file of `forNLP` (recordCollection.py:682-694). -/
def nlpFile {V : Type} (text : V → Str) (d : Dict Str (List V)) : Option Str :=
  match (List.range ((Dict.get? d "id".toList).getD []).length).mapM (nlpFileRow text d) with
  | none => none
  | some rs => some (CsvMin.rows CsvMin.excel (nlpColumns d :: rs))

end Verif.Model.SeriesFiles
