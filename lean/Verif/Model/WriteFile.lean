import Verif.Py.Codec
import Verif.Model.GraphPaths
import Verif.Model.Files
import Verif.Model.Wos
import Verif.Model.Medline
import Verif.Model.Scopus

/-!
# Model of `RecordCollection.writeFile` (recordCollection.py:214-245)

The records of a collection may be of different kinds, and what is written around them depends on the types the collection has noted
(`_collectedTypes`, whose upkeep is in `Verif.Model.Collection`). Files hold bytes. Simplified: as in `Verif.Model.GraphPaths`, a file can be
written if its directory exists and it is no directory itself, there are no symbolic links, and a file that is open when an exception leaves the
function keeps what was written; the conversion of `'\n'` on other systems is left out.
-/
set_option autoImplicit false
namespace Verif.Model.WriteFile
open Verif.Py Verif.Spec.Paths

/-- A record of one of the four kinds; of one from ProQuest only its id matters here. -/
inductive AnyRec where
  | wos (r : Wos.Rec)
  | medline (r : Medline.Rec)
  | scopus (r : Scopus.Rec)
  | proQuest (id : Str)
deriving DecidableEq

/-- `type(R).__name__` -/
def AnyRec.tyName : AnyRec → String
  | .wos _ => "WOSRecord"
  | .medline _ => "MedlineRecord"
  | .scopus _ => "ScopusRecord"
  | .proQuest _ => "ProQuestRecord"

/-- The exceptions: `AttributeError`; `BadWOSRecord`, `BadPubmedRecord` and `BadScopusRecord`; `RecordsNotCompatible`; `UnicodeEncodeError`;
`OSError`. -/
inductive WErr where
  | attributeError
  | badRecord
  | notCompatible
  | encodeError
  | osError
deriving DecidableEq, Repr

/-- `encoding` (recordWOS.py:93-94, recordMedline.py:50-51, recordScopus.py:87-88, recordProQuest.py:50-51). -/
def encoding : AnyRec → Codec
  | .wos _ => .utf8
  | .medline _ => .latin1
  | .scopus _ => .utf8
  | .proQuest _ => .utf8

/-- The calls of `write` for a field of a WOS record (recordWOS.py:137-143). -/
def wosField (f : Str × List Str) : List Str :=
  match f.2 with
  | [] => []
  | v :: vs => [f.1 ++ [' '], v ++ ['\n']] ++ vs.flatMap (fun v => [[' ', ' ', ' '], v ++ ['\n']])

/-- The calls of `write` for the fields of a Medline record (recordMedline.py:80-88). -/
def medlineFields (d : Medline.Fields) : List Str :=
  d.flatMap (fun f => if f.1 ∈ Medline.authorBasedTags then [] else
    f.2.flatMap (fun v => Medline.entry f.1 v :: (if f.1 = Medline.auTag then (Dict.get? (Medline.authTags d) v).getD [] else [])))

/-- `R.writeRecord(f)` as the texts it writes one after the other (recordWOS.py:125-144, recordMedline.py:66-88, recordScopus.py:101-105,
recordProQuest.py:67-68). A bad record raises before anything is written. -/
def pieces : AnyRec → Except WErr (List Str)
  | .wos r => if r.bad then .error .badRecord else .ok (r.fields.flatMap wosField ++ [['E', 'R', '\n']])
  | .medline r => if r.bad then .error .badRecord else .ok (medlineFields r.fields)
  | .scopus r =>
    match Scopus.writeRecord r with
    | none => .error .badRecord
    | some t => .ok [t]
  | .proQuest _ => .error .notCompatible

/-- Several calls of `f.write`: the text in the file afterwards, and a `UnicodeEncodeError` if there is one. -/
def putAll (c : Codec) (done : Str) : List Str → Str × Option WErr
  | [] => (done, none)
  | p :: ps => if c.fits p then putAll c (done ++ p) ps else (done, some .encodeError)

/-- What comes first (recordCollection.py:231-238). -/
def header (types : List String) : List Str :=
  if types = ["WOSRecord"] then ["﻿FN Thomson Reuters Web of Science™\n".toList, "VR 1.0\n".toList]
  else if types = ["MedlineRecord"] then [['\n']]
  else if types = ["ScopusRecord"] then ['﻿' :: Str.join [','] Scopus.scopusHeader ++ ['\n']]
  else []

/-- The loop over the records (recordCollection.py:239-241). -/
def records (c : Codec) (done : Str) : List AnyRec → Str × Option WErr
  | [] => (done, none)
  | r :: rs =>
    match pieces r with
    | .error e => (done, some e)
    | .ok ps =>
      match putAll c done (ps ++ [['\n']]) with
      | (d, some e) => (d, some e)
      | (d, none) => records c d rs

/-- What comes last (recordCollection.py:242-243). -/
def footer (types : List String) : List Str := if types = ["WOSRecord"] then [['E', 'F']] else []

/-- The text that gets into the file, and the exception (recordCollection.py:231-244). -/
def written (c : Codec) (types : List String) (rs : List AnyRec) : Str × Option WErr :=
  match putAll c [] (header types) with
  | (d, some e) => (d, some e)
  | (d, none) =>
    match records c d rs with
    | (d, some e) => (d, some e)
    | (d, none) => putAll c d (footer types)

/-- `recEncoding` (recordCollection.py:223-226); `none` is the `AttributeError` for an empty collection. -/
def recEncoding (types : List String) (rs : List AnyRec) : Option Codec :=
  if types.length < 2 then rs.head?.map encoding else some .utf8

/-- The path opened (recordCollection.py:227-230); no `fname` is the empty one. -/
def outPath (fname name : Str) : Str := if fname = [] then name.take 200 ++ ".txt".toList else fname

/-- `RecordCollection.writeFile` (recordCollection.py:214-245) for a collection with this name, these types and these records in iteration
order. -/
def writeFile (cwd : Loc) (fname name : Str) (types : List String) (rs : List AnyRec) (fs : FS (List UInt8)) : FS (List UInt8) × Option WErr :=
  match recEncoding types rs with
  | none => (fs, some .attributeError)
  | some c =>
    match GraphPaths.openWrite fs (walk cwd (outPath fname name)) (c.bytes (written c types rs).1) with
    | none => (fs, some .osError)
    | some fs' => (fs', (written c types rs).2)

/-- The name of a collection read from a file (recordCollection.py:90, 95-96), `os.path.realpath` being `os.path.abspath` without links. -/
def nameOfFile (home : Str → Option Str) (cwd : Loc) (path : Str) : Str :=
  (Path.splitext (Path.split (Path.abspath cwd (Path.expanduser home path))).2).1

/-- The name of a collection read from a directory (recordCollection.py:90, 111-114). -/
def nameOfDir (home : Str → Option Str) (cwd : Loc) (extension path : Str) : Str :=
  let p := Path.abspath cwd (Path.expanduser home path)
  if extension ≠ [] then extension ++ "-files-from-".toList ++ p else "files-from-".toList ++ p

/-- A file as the detectors see it (wosHandlers.py:26, medlineHandlers.py:27, proQuestHandlers.py:29, scopusHandlers.py:35). -/
def asFile (b : List UInt8) : Files.File := ⟨Codec.utf8Text b, Codec.latin1Text b⟩

end Verif.Model.WriteFile
