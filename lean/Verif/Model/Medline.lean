import Verif.Py.Lines
import Verif.Py.StrOps
import Verif.Py.Dict

/-!
# Model of reading and writing Medline files

`metaknowledge/medline/recordMedline.py` and `metaknowledge/medline/medlineHandlers.py`, and the parts of `RecordCollection.writeFile` for them.
A file is its decoded text (latin-1 decodes every file); line numbers, used in messages only, are not modelled. `ws` and `alpha` are the
classes of characters of `str.rstrip` and `str.isalpha`.
-/
set_option autoImplicit false
namespace Verif.Model.Medline
open Verif.Py

/-- The fields of a record: tags with their values, in order (an `OrderedDict`). -/
abbrev Fields := Dict Str (List Str)

/-- `authorBasedTags` (medline/tagProcessing/tagNames.py:4-7). -/
def authorBasedTags : List Str := ["AD".toList, "AUID".toList]

/-- What `medlineRecordParser` can raise. -/
inductive PErr where
  /-- `BadPubmedRecord` -/
  | badRecord
  /-- `IndexError`, from `line[4]` -/
  | index
  /-- `KeyError`, from `tagDict[tag]` -/
  | key
  deriving DecidableEq, Repr

/-- `str.isalpha` -/
def isAlpha (alpha : Char → Bool) (s : Str) : Bool := !s.isEmpty && s.all alpha

/-- The variables of the loop of `medlineRecordParser` (recordMedline.py:104-106). -/
structure St where
  d : Fields
  tag : Str
  /-- `mostRecentAuthor` -/
  mra : Option Str
  deriving DecidableEq, Repr

/-- The tag of the authors. -/
def auTag : Str := "AU".toList

/-- How `"{}".format` shows `mostRecentAuthor`. -/
def showAuthor : Option Str → Str
  | none => "None".toList
  | some a => a

/-- `try: d[t].append(v) except KeyError: d[t] = [v]` (recordMedline.py:116-119). -/
def push (d : Fields) (t v : Str) : Fields := Dict.set d t (((Dict.get? d t).getD []) ++ [v])

/-- A line with a tag (recordMedline.py:110-119). -/
def tagLine (s : St) (tag contents : Str) : St :=
  let mra := if tag = auTag then some contents else s.mra
  let contents := if tag ∈ authorBasedTags then showAuthor mra ++ " : ".toList ++ contents else contents
  ⟨push s.d tag contents, tag, mra⟩

/-- `vs[-1] += v` on a list which is not empty. -/
def extendLast (vs : List Str) (v : Str) : List Str :=
  match vs.getLast? with
  | none => vs
  | some w => vs.dropLast ++ [w ++ v]

/-- `medlineRecordParser` (recordMedline.py:90-127) from the given values of its variables, with the lines it leaves unread. -/
def parseFrom (ws alpha : Char → Bool) (s : St) : List Str → Except PErr Fields × List Str
  | [] => (.ok s.d, [])
  | l :: ls =>
    let tmptag := Str.rstrip ws (l.take 4)
    let contents := l.dropLast.drop 6
    if isAlpha alpha tmptag = true ∧ l.length < 5 then (.error .index, ls)
    else if isAlpha alpha tmptag = true ∧ l[4]? = some '-' then parseFrom ws alpha (tagLine s tmptag contents) ls
    else if l.take 6 = "      ".toList then
      match Dict.get? s.d s.tag with
      | none => (.error .key, ls)
      | some vs => parseFrom ws alpha { s with d := Dict.set s.d s.tag (extendLast vs ('\n' :: contents)) } ls
    else if l = ['\n'] then (.ok s.d, ls)
    else (.error .badRecord, ls)

def pmid : Str := "PMID".toList

/-- `medlineRecordParser` (recordMedline.py:104-106). -/
def recordParser (ws alpha : Char → Bool) (ls : List Str) : Except PErr Fields × List Str := parseFrom ws alpha ⟨[], pmid, none⟩ ls

/-- A line, or lines, for a value: `"{0}{1}- {2}\n".format(tag, ' ' * (4 - len(tag)), v.replace('\n', '\n      '))`. -/
def entry (tag v : Str) : Str :=
  tag ++ List.replicate (4 - tag.length) ' ' ++ "- ".toList ++ Str.replace ['\n'] "\n      ".toList v ++ ['\n']

/-- `authTags` in `writeRecord` (recordMedline.py:72-79). -/
def authTags (d : Fields) : Dict Str (List Str) :=
  authorBasedTags.foldl (fun acc tag => ((Dict.get? d tag).getD []).foldl (fun acc val =>
    let split := Str.split " : ".toList val
    push acc (split.headD []) (entry tag (Str.join " : ".toList split.tail))) acc) []

/-- A record, as far as the reader and the writer look at it. -/
structure Rec where
  fields : Fields
  id : Option Str
  bad : Bool
  deriving DecidableEq, Repr

/-- `MedlineRecord.writeRecord` on the fields (recordMedline.py:72-88). -/
def writeFields (d : Fields) : Str :=
  d.flatMap (fun f => if f.1 ∈ authorBasedTags then [] else
    f.2.flatMap (fun v => entry f.1 v ++ (if f.1 = auTag then ((Dict.get? (authTags d) v).getD []).flatten else [])))

/-- `MedlineRecord.writeRecord` (recordMedline.py:66-88), which raises `BadPubmedRecord` (`none`) for a bad record. -/
def writeRecord (r : Rec) : Option Str := if r.bad then none else some (writeFields r.fields)

/-- `MedlineRecord.__init__` after parsing (recordMedline.py:37-48). A `BadPubmedRecord` leaves no fields; other exceptions go on to the
caller. The error of a bad record is "Missing PMID" in both cases. -/
def mkRec (r : Except PErr Fields) : Except PErr Rec :=
  let build (fs : Fields) : Except PErr Rec :=
    match Dict.get? fs pmid with
    | some (v :: _) => .ok ⟨fs, some ("PMID:".toList ++ v), false⟩
    | some [] => .error .index
    | none => .ok ⟨fs, none, true⟩
  match r with
  | .error .badRecord => build []
  | .error e => .error e
  | .ok fs => build fs

/-- `MedlineRecord(text)` for a string (recordMedline.py:29-34). -/
def ofString (ws alpha : Char → Bool) (text : Str) : Except PErr Rec :=
  mkRec (recordParser ws alpha ((Str.split ['\n'] text).map (· ++ ['\n']))).1

/-- What equality of records compares (mkRecord.py:90-106, 128-146), hashes taken to be without collisions: the id or, for a bad record, the
values of its fields. -/
def Rec.key (r : Rec) : Sum (Option Str) (List (List Str)) := if r.bad then .inr (r.fields.map Prod.snd) else .inl r.id

/-- `set.add`. -/
def addRec (rs : List Rec) (r : Rec) : List Rec := if rs.any (fun s => s.key = r.key) then rs else rs ++ [r]

/-- What `medlineParser` returns: the records and whether an error is reported. -/
structure Res where
  recs : List Rec
  error : Bool
  deriving DecidableEq, Repr

/-- The loop of `medlineParser` (medlineHandlers.py:63-84), with the line read first in front. `BadPubmedFile` is never raised in the code it
guards, so that handler (lines 68-77) is left out; an `IndexError` or `KeyError` leaves the function. The number bounds the rounds; the outer
`none` means it was too small. -/
def loop (ws alpha : Char → Bool) : Nat → List Str → Res → Option (Except PErr Res)
  | 0, _, _ => none
  | _ + 1, [], res => some (.ok res)
  | n + 1, l :: ls, res =>
    if "PMID- ".toList.isPrefixOf l then
      let p := recordParser ws alpha (l :: ls)
      match mkRec p.1 with
      | .ok r => loop ws alpha n p.2 { res with recs := addRec res.recs r }
      | .error e => some (.error e)
    else if l = ['\n'] then loop ws alpha n ls res
    else loop ws alpha n ls { res with error := true }

/-- `medlineParser` (medlineHandlers.py:38-89) on the text of a file. Line 62 (`next(f)` outside the inner `try`) raises `StopIteration` for
an empty file: the outer `none` of the result. -/
def medlineParser (ws alpha : Char → Bool) (text : Str) : Option (Except PErr Res) :=
  match Lines.fileLines text with
  | [] => none
  | l :: ls => loop ws alpha (ls.length + 2) (l :: ls) ⟨[], false⟩

/-- `isMedlineFile` (medlineHandlers.py:6-36): one of the first lines starts an entry. -/
def isMedlineFile (text : Str) : Bool := ((Lines.fileLines text).take 2).any (fun l => "PMID- ".toList.isPrefixOf l)

/-- `RecordCollection.writeFile` for Medline records (recordCollection.py:216-245), the records in iteration order. An empty collection raises
`AttributeError` (`none`), as `peek` gives `None`. -/
def writeFile (rs : List Rec) : Option Str :=
  if rs = [] then none else (rs.mapM writeRecord).map (fun ts => '\n' :: (ts.map (· ++ ['\n'])).flatten)

end Verif.Model.Medline
