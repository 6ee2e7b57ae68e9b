import Verif.Py.Dict
import Verif.Py.Lines
import Verif.Model.Wos
import Verif.Model.Medline
import Verif.Model.ProQuest
import Verif.Model.Scopus

/-!
# Choosing the reader of a file

Models `metaknowledge/fileHandlers.py`, the parts of `RecordCollection.__init__` and `GrantCollection.__init__` that read a file or a directory,
and `isProQuestFile`. Caches are the subject of `Verif.Model.Cache`. The merging of NSERC grants is modelled in `Verif.Model.Nserc`.
-/
set_option autoImplicit false
namespace Verif.Model.Files
open Verif.Py

variable {φ ρ ε : Type} [DecidableEq φ] [DecidableEq ρ]

/-- `ProccessorTuple` (fileHandlers.py:19). -/
structure Handler (φ ρ ε : Type) where
  kind : Str
  process : φ → List ρ × Option ε
  detector : φ → Bool

/-- The loop `for recordType, processor, detector in recordHandlers` (recordCollection.py:98-105, grantCollection.py:49-56). The last entry of the
table raises `UnknownFile` (fileHandlers.py:21-22, 31, 41): `none`. -/
def pick (f : φ) : List (Handler φ ρ ε) → Option (Handler φ ρ ε)
  | [] => none
  | h :: hs => if h.detector f then some h else pick f hs

/-- What is handed to `CollectionWithIDs.__init__` (recordCollection.py:160). -/
structure Loaded (φ ρ ε : Type) where
  recs : List ρ
  kinds : List Str
  bad : Bool
  errors : Dict φ ε

inductive LErr where
  | extension
  | badInput
  deriving DecidableEq, Repr

/-- `set.add` / `|=`: an element equal to one that is there is not added. -/
def addAll {α : Type} [DecidableEq α] (a b : List α) : List α := b.foldl (fun s x => if x ∈ s then s else s ++ [x]) a

/-- Reading one file with its reader (recordCollection.py:99-104, 137-143). -/
def readWith (h : Handler φ ρ ε) (f : φ) (c : Loaded φ ρ ε) : Loaded φ ρ ε :=
  let p := h.process f
  let c := { c with kinds := addAll c.kinds [h.kind], recs := addAll c.recs p.1 }
  match p.2 with
  | some e => { c with bad := true, errors := Dict.set c.errors f e }
  | none => c

/-- The branch for a file (recordCollection.py:91-107, grantCollection.py:42-58); `suits` is `endswith(extension)`. -/
def loadFile (hs : List (Handler φ ρ ε)) (suits : φ → Bool) (f : φ) : Except LErr (Loaded φ ρ ε) :=
  if !suits f then .error .extension
  else match pick f hs with
    | some h => .ok (readWith h f ⟨[], [], false, []⟩)
    | none => .error .badInput

/-- The loop over the files of a directory (recordCollection.py:132-149, grantCollection.py:79-118); `anyExtension` is `extension == ''`. -/
def readFiles (hs : List (Handler φ ρ ε)) (anyExtension : Bool) : List φ → Loaded φ ρ ε → Except LErr (Loaded φ ρ ε)
  | [], c => .ok c
  | f :: fs, c =>
    match pick f hs with
    | some h => readFiles hs anyExtension fs (readWith h f c)
    | none => if anyExtension then readFiles hs anyExtension fs c else .error .badInput

/-- The branch for a directory (recordCollection.py:108-149); `listing` are its files, of which those with the extension are read. -/
def loadDir (hs : List (Handler φ ρ ε)) (suits : φ → Bool) (anyExtension : Bool) (listing : List φ) : Except LErr (Loaded φ ρ ε) :=
  readFiles hs anyExtension (listing.filter suits) ⟨[], [], false, []⟩

/-! ## The detectors for records -/

/-- A file as the detectors see it: the text under the codec `utf-8` (`none` for a `UnicodeDecodeError`), with the byte order mark if there is
one, and the text under `latin-1`, which decodes everything. Simplified: a decoding error far into the file counts even if the
detector does not read that far. -/
structure File where
  utf8 : Option Str
  latin1 : Str

/-- The loop of `isProQuestFile` (proQuestHandlers.py:28-36): a line after a failed test is consumed. -/
def proQuestGo : Nat → List Str → Bool
  | 0, _ => false
  | _ + 1, [] => false
  | n + 1, l :: ls =>
    if l = ProQuest.separator then
      match ls with
      | [] => false
      | b :: ls =>
        if b = ['\n'] then
          match ls with
          | [] => false
          | r :: ls => if r = "Report Information from ProQuest\n".toList then true else proQuestGo n ls
        else proQuestGo n ls
    else proQuestGo n ls

/-- `isProQuestFile` (proQuestHandlers.py:5-40) with its defaults. -/
def isProQuestFile (text : Str) : Bool := proQuestGo 2 (Lines.fileLines text)

/-- `recordHandlers` (fileHandlers.py:34-42): the names and the detectors, in order. -/
def recordDetectors : List (Str × (File → Bool)) := [
  ("WOSRecord".toList, fun f => f.utf8.any Wos.isWOSFile),
  ("MedlineRecord".toList, fun f => Medline.isMedlineFile f.latin1),
  ("ProQuestRecord".toList, fun f => f.utf8.any isProQuestFile),
  ("ScopusRecord".toList, fun f => f.utf8.any Scopus.isScopusFile)]

/-- The table with readers put in. -/
def recordHandlers {ρ ε : Type} (process : Str → File → List ρ × Option ε) : List (Handler File ρ ε) :=
  recordDetectors.map (fun p => ⟨p.1, process p.1, p.2⟩)

end Verif.Model.Files
