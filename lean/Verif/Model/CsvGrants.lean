import Verif.Py.Csv
import Verif.Py.Lines
import Verif.Py.Decimal

/-!
# Grants from csv files

Models `csvAndLinesReader`, `FallbackGrant`, `parserFallbackGrantFile`, `isFallbackGrantFile` of `metaknowledge/grants/baseGrant.py`, and
`CIHRGrant`, `parserCIHRfile` of `metaknowledge/grants/cihrGrant.py`, and `isNSERCfile` of `metaknowledge/grants/nsercGrant.py`, on the lines
of a file. `csv.reader` with the dialect `excel` is the state machine of `Verif.Py.Csv`, fed line by line; `csv.Error` is left out.
-/
set_option autoImplicit false
namespace Verif.Model.CsvGrants
open Verif.Py Verif.Py.Csv

/-- `csv.reader` after one line: a row, or the line ends inside quotes. -/
inductive LineEnd where
  | more (st : St) (cur : Str) (fs : List Str)
  | row (fs : List Str)

/-- One line fed to `csv.reader`. -/
def lineGo : Str → St → Str → List Str → LineEnd
  | [], .startRecord, _, _ => .row []
  | [], .inQuoted, cur, fs => .more .inQuoted cur fs
  | [], _, cur, fs => .row (fs ++ [cur])
  | c :: rest, .startRecord, _, _ =>
    if c = '\n' then .row []
    else if c = '"' then lineGo rest .inQuoted [] []
    else if c = ',' then lineGo rest .startField [] [[]]
    else lineGo rest .inField [c] []
  | c :: rest, .startField, _, fs =>
    if c = '\n' then .row (fs ++ [[]])
    else if c = '"' then lineGo rest .inQuoted [] fs
    else if c = ',' then lineGo rest .startField [] (fs ++ [[]])
    else lineGo rest .inField [c] fs
  | c :: rest, .inField, cur, fs =>
    if c = '\n' then .row (fs ++ [cur])
    else if c = ',' then lineGo rest .startField [] (fs ++ [cur])
    else lineGo rest .inField (cur ++ [c]) fs
  | c :: rest, .inQuoted, cur, fs =>
    if c = '"' then lineGo rest .quoteInQuoted cur fs
    else lineGo rest .inQuoted (cur ++ [c]) fs
  | c :: rest, .quoteInQuoted, cur, fs =>
    if c = '"' then lineGo rest .inQuoted (cur ++ ['"']) fs
    else if c = ',' then lineGo rest .startField [] (fs ++ [cur])
    else if c = '\n' then .row (fs ++ [cur])
    else lineGo rest .inField (cur ++ [c]) fs

/-- A row, with the number and the text of the last line that was read for it (`currentData`, baseGrant.py:118-121). -/
structure Read where
  num : Nat
  line : Str
  fields : List Str
deriving DecidableEq, Repr

/-- The rows that come out of `csv.reader(readerWithSideEffects(...))` (baseGrant.py:122-126), and whether it ends with an exception.
`pep479` says that a `StopIteration` which leaves a generator becomes a `RuntimeError` (Python 3.7 and later): `next(target)` at the end of
the file is such a one. Without it the reader ends, after a last row that ends inside quotes. -/
def readRows (pep479 : Bool) : List (Nat × Str) → St → Str → List Str → Nat × Str → List Read × Bool
  | [], st, cur, fs, last =>
    if st = .startRecord then ([], pep479)
    else if pep479 then ([], true)
    else ([⟨last.1, last.2, fs ++ [cur]⟩], false)
  | (n, l) :: rest, st, cur, fs, _ =>
    match lineGo l st cur fs with
    | .more st' cur' fs' => readRows pep479 rest st' cur' fs' (n, l)
    | .row r =>
      let p := readRows pep479 rest .startRecord [] [] (n, l)
      (⟨n, l, r⟩ :: p.1, p.2)

/-- A value in the dictionary of a row. -/
inductive CVal where
  | str (s : Str)
  | rest (l : List Str)
  | none
deriving DecidableEq, Repr

/-- `csv.DictReader.__next__`: the dictionary of a row. Missing values are `None`, the values too many are under the key `None`. -/
def rowDict (header row : List Str) : Dict (Option Str) CVal :=
  let d := Dict.update [] ((header.zip row).map (fun p => (some p.1, CVal.str p.2)))
  if header.length < row.length then Dict.set d Option.none (.rest (row.drop header.length))
  else (header.drop row.length).foldl (fun d k => Dict.set d (some k) .none) d

/-- `csv.DictReader` over the rows: the first row is the header, empty rows are skipped. -/
def dictRows : List Read → List (Read × Dict (Option Str) CVal)
  | [] => []
  | h :: rows => (rows.filter (fun r => r.fields ≠ [])).map (fun r => (r, rowDict h.fields r.fields))

structure CGrant where
  id : Str
  original : Str
  fields : Dict (Option Str) CVal
  bad : Bool
deriving DecidableEq, Repr

/-- The id of the grant of a row (baseGrant.py:143, cihrGrant.py:16): `hash` gives the text of the hash of the line, 20 characters wide. -/
def rowId (hash : Str → Str) (base : Str) (r : Read) : Str := base ++ "-l:".toList ++ showNat r.num ++ "-".toList ++ hash r.line

/-- `FallbackGrant.__init__` (baseGrant.py:140-144). -/
def fallbackGrant (hash : Str → Str) (base : Str) (p : Read × Dict (Option Str) CVal) : CGrant := ⟨rowId hash base p.1, p.1.line, p.2, false⟩

/-- `CIHRGrant.__init__` (cihrGrant.py:8-18). -/
def cihrGrant (hash : Str → Str) (base : Str) (p : Read × Dict (Option Str) CVal) : CGrant :=
  ⟨rowId hash base p.1, p.1.line, p.2, (Dict.get? p.2 (some "PI Names".toList)).getD (.str []) = .str []⟩

/-- `enumerate(openfile, start = 1)` -/
def numbered (lines : List Str) : List (Nat × Str) := (List.range' 1 lines.length).zip lines

/-- `parserFallbackGrantFile` (baseGrant.py:178-196): the grants in the order of the file, and whether there is an error. -/
def parseFallback (pep479 : Bool) (hash : Str → Str) (base : Str) (lines : List Str) : List CGrant × Bool :=
  let p := readRows pep479 (numbered lines) .startRecord [] [] (0, [])
  ((dictRows p.1).map (fallbackGrant hash base), p.2)

/-- `parserCIHRfile` (cihrGrant.py:41-62): as before, after three lines; a file with fewer lines makes `next(f)` raise, which is caught. -/
def parseCIHR (pep479 : Bool) (hash : Str → Str) (base : Str) (lines : List Str) : List CGrant × Bool :=
  if lines.length < 3 then ([], true)
  else
    let p := readRows pep479 ((numbered lines).drop 3) .startRecord [] [] (3, [])
    ((dictRows p.1).map (cihrGrant hash base), p.2)

/-- What the hash of a grant is taken of (mkRecord.py:90-104): the id, or of a bad grant the text of its values (`str(d.values())` is `showVals`) and of
the error, which for a csv file is always the one of cihrGrant.py:14. -/
def hashed (showVals : List CVal → Str) (g : CGrant) : Str :=
  if g.bad then showVals (g.fields.map Prod.snd) ++ "Missing 'PI Names'".toList else g.id

/-- `grantSet.add` (baseGrant.py:187, cihrGrant.py:53): grants of one class are equal if their hashes are (mkRecord.py:128-146). -/
def addGrant (hs : Str → Int) (showVals : List CVal → Str) (S : List CGrant) (g : CGrant) : List CGrant :=
  if S.any (fun x => hs (hashed showVals x) == hs (hashed showVals g)) then S else S ++ [g]

/-- The set of grants the two parsers return; its order is that in which they were added. -/
def grantSet (hs : Str → Int) (showVals : List CVal → Str) (L : List CGrant) : List CGrant := L.foldl (addGrant hs showVals) []

/-- The check that every row can be read, with at least one row (nsercGrant.py:69-76, baseGrant.py:160-171), on `csv.DictReader(openfile)`. -/
def rowsFit (rows : List (List Str)) : Bool :=
  match rows with
  | [] => false
  | header :: rest =>
    let rs := rest.filter (fun r => r ≠ [])
    rs.all (fun r => (Dict.keys (rowDict header r)).all (fun k => k ∈ header.map some) && (header.map some).all (fun k => k ∈ Dict.keys (rowDict header r)))
      && decide (rs.length ≥ 1)

/-- `isNSERCfile` (nsercGrant.py:64-80) with `useFileName`. -/
def isNserc (base : Str) (text : Str) : Bool := "NSERC_".toList.isPrefixOf base && rowsFit (Csv.read text)

/-- The loop over the rows of `isCIHRfile` (cihrGrant.py:31-34). -/
def cihrRows (rows : List (List Str)) : Bool :=
  match rows with
  | [] => true
  | header :: rest => (rest.filter (fun r => r ≠ [])).all (fun r => decide (some "PI Names".toList ∈ Dict.keys (rowDict header r)))

/-- `isCIHRfile` (cihrGrant.py:20-39) with `useFileName`, on the lines of the file. A `readline` at the end of the file gives an empty line. -/
def isCIHR (base : Str) (lines : List Str) : Bool :=
  "cihr_".toList.isPrefixOf base &&
  ("Search Criteria".toList.isPrefixOf (lines[0]?.getD []) && ",,,,,,,,,\n".toList.isSuffixOf (lines[1]?.getD []) &&
    ",,,,,,,,,\n".toList.isSuffixOf (lines[2]?.getD []) && cihrRows (Csv.read (lines.drop 3).flatten))

/-- The columns of a Scopus file (baseGrant.py:158). -/
def scopusColumns : List Str := ["Conference location", "Conference code", "ISSN", "ISBN", "CODEN", "PubMed ID", "Language of Original Document",
  "Abbreviated Source Title", "Document Type", "Source", "EID"].map String.toList

/-- `isFallbackGrantFile` (baseGrant.py:146-176) with `useFileName`. The header of an empty file is `None`, the set of it a `TypeError`. -/
def isFallback (name : Str) (text : Str) : Bool :=
  "csv".toList.isSuffixOf name &&
  match Csv.read text with
  | [] => false
  | header :: rest => !(scopusColumns.all (fun c => c ∈ header)) && rowsFit (header :: rest)

end Verif.Model.CsvGrants
