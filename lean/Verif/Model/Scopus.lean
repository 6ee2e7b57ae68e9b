import Verif.Py.Lines
import Verif.Py.StrOps
import Verif.Py.Dict

/-!
# Model of reading and writing Scopus files

`metaknowledge/scopus/recordScopus.py` and `metaknowledge/scopus/scopusHandlers.py`, and the parts of `RecordCollection.writeFile` for them.
A file is its decoded text; decoding errors and line numbers (used in messages only) are not modelled.
-/
set_option autoImplicit false
namespace Verif.Model.Scopus
open Verif.Py

/-- The columns of a record (a `dict`). -/
abbrev Fields := Dict Str Str

/-- `scopusHeader` (recordScopus.py:13-56). -/
def scopusHeader : List Str := [
  "Authors", "Title", "Year", "Source title", "Volume", "Issue", "Art. No.", "Page start", "Page end", "Page count", "Cited by", "DOI", "Link",
  "Affiliations", "Authors with affiliations", "Abstract", "Author Keywords", "Index Keywords", "Molecular Sequence Numbers", "Chemicals/CAS",
  "Tradenames", "Manufacturers", "Funding Details", "Funding Text", "References", "Correspondence Address", "Editors", "Sponsors", "Publisher",
  "Conference name", "Conference date", "Conference location", "Conference code", "ISSN", "ISBN", "CODEN", "PubMed ID",
  "Language of Original Document", "Abbreviated Source Title", "Document Type", "Source", "EID"].map String.toList

/-- `re.match(firstQuotingRegex, v)` for the regular expression `("")*"([^"]|"$)` (recordScopus.py:166): pairs of quotes, a quote, and then
another character or a last quote (`$` also matches in front of a final line end). -/
def firstQuoting : Str → Bool
  | '"' :: '"' :: s => s == [] || s == ['\n'] || firstQuoting s
  | '"' :: _ :: _ => true
  | _ => false

/-- `re.match(innerQuotingRegex, v)` for the regular expression `("")*"([^"|$])` (recordScopus.py:167): pairs of quotes, a quote, and then a
character which is no quote, no `|` and no `$`. -/
def innerQuoting : Str → Bool
  | '"' :: '"' :: s => innerQuoting s
  | '"' :: c :: _ => c != '|' && c != '$'
  | _ => false

/-- The inner loop (recordScopus.py:205-208) on the pieces in reverse order, with the pieces left. `none`: `pop` from an empty list. -/
def gatherBack (val : Str) : List Str → Option (Str × List Str)
  | [] => none
  | w :: ps => if innerQuoting w then some (w.drop 1 ++ val, ps) else gatherBack (',' :: w ++ val) ps

/-- The loop of `scopusRecordParser` (recordScopus.py:186-221) on the header and the pieces, both in reverse order. `none`: `pop` from an empty
list (`IndexError`). -/
def parseGo : List Str → List Str → Fields → Option Fields
  | [], _, d => some d
  | _ :: _, [], _ => none
  | key :: hs, v :: ps, d =>
    if v = [] then parseGo hs ps d
    else if v.getLast? = some '"' then
      if firstQuoting v then parseGo hs ps (Dict.set d key (v.drop 1).dropLast)
      else match gatherBack (',' :: v.dropLast) ps with
        | none => none
        | some (val, ps') => parseGo hs ps' (Dict.set d key val)
    else parseGo hs ps (Dict.set d key v)

/-- `scopusRecordParser` (recordScopus.py:169-221). -/
def recordParser (header : List Str) (record : Str) : Option Fields :=
  parseGo header.reverse (Str.split [','] record.dropLast).reverse []

/-- A record, as far as the reader and the writer look at it. -/
structure Rec where
  fields : Fields
  id : Option Str
  bad : Bool
  deriving DecidableEq, Repr

def eid : Str := "EID".toList

/-- `ScopusRecord.__init__` (recordScopus.py:63-84) on a string. An `IndexError` leaves no columns. -/
def ofString (header : List Str) (record : Str) : Rec :=
  let fs := (recordParser header record).getD []
  match Dict.get? fs eid with
  | some v => ⟨fs, some ("EID:".toList ++ v), false⟩
  | none => ⟨fs, none, true⟩

/-- `ScopusRecord.writeRecord` (recordScopus.py:101-105); raises `BadScopusRecord` (`none`) for a bad record. -/
def writeRecord (r : Rec) : Option Str :=
  if r.bad then none else
  some (Str.join [','] (scopusHeader.map (fun k => '"' :: (Dict.get? r.fields k).getD [] ++ ['"'])))

/-- What equality of records compares (mkRecord.py:90-106, 128-146), hashes taken to be without collisions: the id or, for a bad record, the
values of its columns. -/
def Rec.key (r : Rec) : Sum (Option Str) (List Str) := if r.bad then .inr (r.fields.map Prod.snd) else .inl r.id

/-- `set.add`. -/
def addRec (rs : List Rec) (r : Rec) : List Rec := if rs.any (fun s => s.key = r.key) then rs else rs ++ [r]

/-- `len(set(a) ^ set(b))` -/
def symDiff (a b : List Str) : Nat :=
  ((a.filter (fun x => x ∉ b)).dedup ++ (b.filter (fun x => x ∉ a)).dedup).length

/-- The header used for a file whose first line is this (scopusHandlers.py:67-69). -/
def headerOf (line : Str) : List Str :=
  let header := Str.split [','] line.dropLast
  if symDiff header scopusHeader = 0 then scopusHeader else header

/-- `scopusParser` (scopusHandlers.py:42-84): `openfile.read(1)` drops the first character. It never reports an error for text that could be
decoded. -/
def scopusParser (text : Str) : List Rec :=
  match Lines.lines ((Lines.univ text).drop 1) with
  | [] => []
  | h :: rows => rows.foldl (fun rs row => addRec rs (ofString (headerOf h) row)) []

/-- `isScopusFile` (scopusHandlers.py:9-40) with its defaults. A `readline` at the end of the file gives an empty line. -/
def isScopusFile (text : Str) : Bool :=
  match Lines.univ text with
  | [] => false
  | c :: s => if c = '﻿' then ((Lines.lines s ++ [[], []]).take 2).any (fun l => decide (symDiff (Str.split [','] l.dropLast) scopusHeader < 3)) else false

/-- `RecordCollection.writeFile` for Scopus records (recordCollection.py:216-245), the records in iteration order. An empty collection raises
`AttributeError` (`none`), as `peek` gives `None`. -/
def writeFile (rs : List Rec) : Option Str :=
  if rs = [] then none else
  (rs.mapM writeRecord).map (fun ts => '﻿' :: Str.join [','] scopusHeader ++ ['\n'] ++ (ts.map (· ++ ['\n'])).flatten)

end Verif.Model.Scopus
