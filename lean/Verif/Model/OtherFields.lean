import Verif.Model.WosFields

/-!
# What the columns of a Scopus record and the fields of a ProQuest record are turned into

`metaknowledge/scopus/tagProcessing/tagFunctions.py` and `specialFunctions.py`, `metaknowledge/proquest/tagProcessing/tagFunctions.py` and
`specialFunctions.py`. The raw value of a Scopus column is a string, that of a ProQuest field is the list of its lines.
-/
set_option autoImplicit false
namespace Verif.Model.OtherFields
open Verif.Py
open Verif.Model.WosFields (VErr Prims line0)

/-! ## Scopus -/

/-- A processed value. Grants and citations are kept as the strings they are made from (`ScopusGrant(s)`, `Citation(s, scopusMode = True)`). -/
inductive SVal
  | text (s : Str)
  | texts (l : List Str)
  | num (n : Int)
  | grants (l : List Str)
  | cites (l : List Str)
  deriving DecidableEq

/-- The functions of scopus/tagProcessing/tagFunctions.py:4-23. -/
inductive SKind
  | commaList | semiList | bareSemiList | string | integer | grants | citations
  deriving DecidableEq

/-- `scopusTagToFunction` (scopus/tagProcessing/tagFunctions.py:25-68). -/
def scopusKinds : Dict Str SKind :=
  [("Authors".toList, .commaList), ("Title".toList, .string), ("Year".toList, .integer), ("Source title".toList, .string), ("Volume".toList, .string),
   ("Issue".toList, .string), ("Art. No.".toList, .string), ("Page start".toList, .string), ("Page end".toList, .string),
   ("Page count".toList, .integer), ("Cited by".toList, .integer), ("DOI".toList, .string), ("Link".toList, .string),
   ("Affiliations".toList, .string), ("Authors with affiliations".toList, .semiList), ("Abstract".toList, .string),
   ("Author Keywords".toList, .semiList), ("Index Keywords".toList, .semiList), ("Molecular Sequence Numbers".toList, .string),
   ("Chemicals/CAS".toList, .string), ("Tradenames".toList, .semiList), ("Manufacturers".toList, .semiList), ("Funding Details".toList, .grants),
   ("References".toList, .citations), ("Correspondence Address".toList, .semiList), ("Editors".toList, .string), ("Sponsors".toList, .bareSemiList),
   ("Publisher".toList, .string), ("Conference name".toList, .string), ("Conference date".toList, .string), ("Conference location".toList, .string),
   ("Conference code".toList, .integer), ("ISSN".toList, .string), ("ISBN".toList, .semiList), ("CODEN".toList, .string),
   ("PubMed ID".toList, .string), ("Language of Original Document".toList, .semiList), ("Abbreviated Source Title".toList, .string),
   ("Document Type".toList, .string), ("Source".toList, .string), ("EID".toList, .string)]

/-- The functions of scopus/tagProcessing/tagFunctions.py:4-23. -/
def processScopus (P : Prims) (k : SKind) (val : Str) : Except VErr SVal :=
  match k with
  | .commaList => .ok (.texts (Str.split [',', ' '] val))
  | .semiList => .ok (.texts (Str.split [';', ' '] val))
  | .bareSemiList => .ok (.texts (Str.split [';'] val))
  | .string => .ok (.text val)
  | .integer => match P.int val with | some n => .ok (.num n) | none => .error .valueError
  | .grants => .ok (.grants (Str.split [';', ' '] val))
  | .citations => .ok (.cites (Str.split [';', ' '] val))

/-- `R[tag]` for a column the record has (`ScopusRecord.tagProcessingFunc`, scopus/recordScopus.py:94-96): `KeyError` for an unknown column. -/
def scopusValue (P : Prims) (tag : Str) (val : Str) : Except VErr SVal :=
  match scopusKinds.get? tag with
  | some k => processScopus P k val
  | none => .error .keyError

/-! ## ProQuest -/

/-- A processed value: a text, a list of texts or a list of tuples. -/
inductive QVal
  | text (s : Str)
  | texts (l : List Str)
  | tuples (l : List (List Str))
  | num (n : Int)
  deriving DecidableEq

/-- `singleLineEntries` (proquest/tagProcessing/tagFunctions.py:1-28). -/
def singleLineEntries : List Str :=
  ["Author", "Title", "Advisor", "Name", "Committee member", "Copyright", "Country of publication", "Database", "Degree", "Degree date",
   "Department", "Dissertation/thesis number", "Document type", "Language", "Number of pages", "Place of publication", "ProQuest document ID",
   "Publication year", "School code", "Source", "Source type", "University location", "University/institution", "ISBN",
   "Publication subject"].map String.toList

/-- `proQuestTagToFunc` applied to the raw value (proquest/tagProcessing/tagFunctions.py:30-68). -/
def proQuestValue (tag : Str) (val : List Str) : Except VErr QVal :=
  if tag ∈ singleLineEntries then do .ok (.text (← line0 val))
  else if tag = "Classification".toList then do .ok (.tuples ((Str.split [';', ' '] (← line0 val)).map (Str.split [':', ' '])))
  else if tag = "Identifier / keyword".toList then do .ok (.texts (Str.split [',', ' '] (← line0 val)))
  else if tag = "Subject".toList then do .ok (.texts (Str.split [';', ' '] (← line0 val)))
  else .ok (.texts val)

/-- `R[tag]` for a field name (`KeyError` when the record does not have it). -/
def proQuestItem (R : Dict Str (List Str)) (tag : Str) : Except VErr QVal :=
  match R.get? tag with
  | none => .error .keyError
  | some val => proQuestValue tag val

/-- The entries of `proQuestSpecialTagToFunc` (proquest/tagProcessing/specialFunctions.py:1-18) that do not make a citation or give the id. -/
def proQuestSpecial (R : Dict Str (List Str)) (name : Str) : Except VErr QVal :=
  if name = "authorsShort".toList then proQuestItem R "Author".toList
  else if name = "beginningPage".toList then .ok (.num 0)
  else if name = "keywords".toList then proQuestItem R "Identifier / keyword".toList
  else if name = "abstract".toList then proQuestItem R "Abstract".toList
  else if name = "authorsFull".toList then .ok (.text "Author".toList)
  else if name = "year".toList then proQuestItem R "Degree date".toList
  else if name = "title".toList then proQuestItem R "Title".toList
  else .error .keyError

end Verif.Model.OtherFields
