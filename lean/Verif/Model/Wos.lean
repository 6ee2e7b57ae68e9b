import Verif.Py.Lines
import Verif.Py.Dict

/-!
# Model of reading and writing Web of Science files

`metaknowledge/WOS/recordWOS.py` and `metaknowledge/WOS/wosHandlers.py`, and the parts of `RecordCollection.writeFile` for them. A file is its
decoded text; encoding errors and line numbers (used in messages only) are not modelled, and messages are cut down to their kind.
-/
set_option autoImplicit false
namespace Verif.Model.Wos
open Verif.Py

/-- The fields of a record: tags with their lines, in order. -/
abbrev Fields := List (Str × List Str)

/-- What `recordParser` can raise. -/
inductive PErr where
  /-- `BadWOSRecord` -/
  | badRecord
  /-- `BadWOSFile` -/
  | badFile
  /-- `IndexError`, from `tagList[-1]` on an empty list -/
  | index
  deriving DecidableEq, Repr

/-- `tagList[-1][1].append(v)` on a list which is not empty. -/
def appendLast (acc : Fields) (v : Str) : Fields :=
  match acc.getLast? with
  | none => acc
  | some (t, vs) => acc.dropLast ++ [(t, vs ++ [v])]

/-- The end of `recordParser` (recordWOS.py:193-201): a repeated tag is an error. -/
def finish (acc : Fields) : Except PErr Fields := if (acc.map Prod.fst).Nodup then .ok acc else .error .badRecord

/-- `recordParser` (recordWOS.py:170-201), with the lines it leaves unread. -/
def recordParser (acc : Fields) : List Str → Except PErr Fields × List Str
  | [] => (.error .badRecord, [])
  | l :: ls =>
    if l.length < 3 then (.error .badRecord, ls)
    else if l.take 2 = ['E', 'R'] then (finish acc, ls)
    else if l[2]? ≠ some ' ' then (.error .badFile, ls)
    else if l.take 3 = [' ', ' ', ' '] then
      if acc = [] then (.error .index, ls) else recordParser (appendLast acc (l.drop 3).dropLast) ls
    else recordParser (acc ++ [(l.take 2, [(l.drop 3).dropLast])]) ls

/-- A record, as far as the reader and the writer look at it. -/
structure Rec where
  fields : Fields
  id : Str
  bad : Bool
  deriving DecidableEq, Repr

/-- The tag of the accession number. -/
def utTag : Str := ['U', 'T']

def missingId : Str := "WOS:Missing".toList

/-- `WOSRecord.__init__` after parsing (recordWOS.py:79-91). A `BadWOSRecord` leaves no fields. -/
def mkRec (r : Except PErr Fields) : Except PErr Rec :=
  match r with
  | .error .badRecord => .ok ⟨[], missingId, true⟩
  | .error e => .error e
  | .ok fs =>
    match Dict.get? fs utTag with
    | some (v :: _) => .ok ⟨fs, v, false⟩
    | some [] => .error .index
    | none => .ok ⟨fs, missingId, true⟩

/-- What equality of records compares (mkRecord.py:90-106, 128-146), hashes taken to be without collisions: the accession number or, for a
bad record, the values of its fields (the message is the same for all). -/
def Rec.key (r : Rec) : Sum Str (List (List Str)) := if r.bad then .inr (r.fields.map Prod.snd) else .inl r.id

/-- `set.add`. -/
def addRec (rs : List Rec) (r : Rec) : List Rec := if rs.any (fun s => s.key = r.key) then rs else rs ++ [r]

/-- The kinds of errors `wosParser` reports. -/
inductive FErr where
  /-- the file ends before EF was found -/
  | noEF
  /-- EF not at the end -/
  | afterEF
  deriving DecidableEq, Repr

/-- What `wosParser` returns, and whether the `return` in its `finally` clause (wosHandlers.py:98-101) discarded an exception. -/
structure Res where
  recs : List Rec
  error : Option FErr
  crashed : Bool
  deriving DecidableEq, Repr

/-- Skipping to the end of a damaged record (wosHandlers.py:77-79). `none`: the file ended. The error stored then (line 81) is replaced
at once, since the next line is read from the exhausted file. -/
def skipER : List Str → Option (List Str)
  | [] => none
  | s :: ls => if s.take 2 = ['E', 'R'] then some ls else skipER ls

/-- `str.isspace` -/
def isSpace (ws : Char → Bool) (s : Str) : Bool := !s.isEmpty && s.all ws

/-- The main loop (wosHandlers.py:62-87, 94-95). The number bounds the rounds; `none` means it was too small. -/
def loop (ws : Char → Bool) : Nat → List Str → List Rec → Option Res
  | 0, _, _ => none
  | _ + 1, [], rs => some ⟨rs, some .noEF, false⟩
  | n + 1, l :: ls, rs =>
    if isSpace ws l then loop ws n ls rs
    else if l.take 2 = ['E', 'F'] then some ⟨rs, if ls = [] then none else some .afterEF, false⟩
    else
      let p := recordParser [] (l :: ls)
      match mkRec p.1 with
      | .ok r => loop ws n p.2 (addRec rs r)
      | .error .badFile =>
        match skipER p.2 with
        | none => some ⟨rs, some .noEF, false⟩
        | some ls' => loop ws n ls' rs
      | .error _ => some ⟨rs, none, true⟩

/-- Skipping to the header (wosHandlers.py:60-61). -/
def skipVR : List Str → Option (List Str)
  | [] => none
  | l :: ls => if Str.contains "VR 1.0".toList l then some ls else skipVR ls

/-- The codec `utf-8-sig` drops a byte order mark. -/
def dropBOM : Str → Str
  | c :: s => if c = '﻿' then s else c :: s
  | [] => []

/-- `wosParser` (wosHandlers.py:36-101) on the text of a file. -/
def wosParser (ws : Char → Bool) (text : Str) : Option Res :=
  let ls := Lines.fileLines (dropBOM text)
  match skipVR ls with
  | none => some ⟨[], some .noEF, false⟩
  | some ls => loop ws (ls.length + 1) ls []

/-- `isWOSFile` (wosHandlers.py:6-34). -/
def isWOSFile (text : Str) : Bool := ((Lines.fileLines (dropBOM text)).take 3).any (fun l => Str.contains "VR 1.0".toList l)

/-- The lines `writeRecord` writes for a field. -/
def fieldLines (f : Str × List Str) : List Str :=
  match f.2 with
  | [] => []
  | v :: vs => (f.1 ++ [' '] ++ v ++ ['\n']) :: vs.map (fun v => [' ', ' ', ' '] ++ v ++ ['\n'])

/-- `WOSRecord.writeRecord` (recordWOS.py:125-144), which raises `BadWOSRecord` (`none`) for a bad record. `Record.__bytes__`
(mkRecord.py:176-190) gives the same text. -/
def writeRecord (r : Rec) : Option Str := if r.bad then none else some ((r.fields.flatMap fieldLines).flatten ++ ['E', 'R', '\n'])

/-- `RecordCollection.writeFile` for WOS records (recordCollection.py:216-245), the records in iteration order. An empty collection raises
`AttributeError` (`none`), as `peek` gives `None`. -/
def writeFile (rs : List Rec) : Option Str :=
  if rs = [] then none else
  (rs.mapM writeRecord).map (fun ts =>
    "﻿FN Thomson Reuters Web of Science™\nVR 1.0\n".toList ++ (ts.map (· ++ ['\n'])).flatten ++ ['E', 'F'])

/-- `WOSRecord(text)` for a string (recordWOS.py:73-78). -/
def ofString (text : Str) : Except PErr Rec :=
  mkRec (recordParser [] ((Lines.lines (text ++ ['\n'])))).1

end Verif.Model.Wos
