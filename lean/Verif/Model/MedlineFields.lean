import Verif.Model.WosFields
import Verif.Model.Medline

/-!
# What the fields of a Medline record are turned into

`metaknowledge/medline/tagProcessing/tagFunctions.py` and `specialFunctions.py`. The parser has put the author in front of each affiliation and
identifier (`author : affiliation`). Reading a field by its long name and remembering values are modelled in `Verif.Model.RecordAccess`.
-/
set_option autoImplicit false
namespace Verif.Model.MedlineFields
open Verif.Py Verif.Model.WosFields Verif.Model.Medline

/-- A processed value. A grant is kept as the string it is made from (`MedlineGrant(v)`, modelled in `Verif.Model.Grants`). -/
inductive MVal
  | text (s : Str)
  | texts (l : List Str)
  | addresses (d : Dict Str (List Str))
  | ids (d : Dict Str Str)
  | grants (l : List Str)
  deriving DecidableEq

/-- The bodies of the functions of medline/tagProcessing/tagFunctions.py: `whole` is `return val` (3-49, 56-58, 66-80, 86-160, 166-172, 179-190, 197-207,
214-216, 227-229, 241-320, 331-345); `first` is `return val[0]` (51-54, 60-64, 162-164, 174-177, 192-195, 209-212, 231-239); `pmid` 82-84; `ad` 218-225;
`auid` 322-329; `grants` 347-349. -/
inductive MKind
  | whole | first | pmid | ad | auid | grants
  deriving DecidableEq

/-- `medlineTagToFunc` (medline/tagProcessing/tagFunctions.py:351-434), each function given by its body. -/
def medlineKinds : Dict Str MKind :=
  [(['I', 'R'], .whole), (['F', 'I', 'R'], .whole), (['P', 'R', 'O', 'F'], .whole), (['P', 'U', 'B', 'M'], .whole), (['C', 'N'], .whole),
   (['M', 'H', 'D', 'A'], .whole), (['L', 'I', 'D'], .whole), (['E', 'D', 'A', 'T'], .whole), (['O', 'C', 'I'], .whole), (['S', 'B'], .whole),
   (['D', 'A'], .whole), (['P', 'M', 'C', 'R'], .whole), (['P', 'G'], .first), (['G', 'S'], .whole), (['V', 'I'], .first), (['U', 'O', 'F'], .whole),
   (['O', 'W', 'N'], .whole), (['O', 'R', 'I'], .whole), (['M', 'I', 'D'], .whole), (['P', 'M', 'I', 'D'], .pmid), (['P', 'M', 'C'], .whole),
   (['R', 'I', 'N'], .whole), (['R', 'P', 'F'], .whole), (['C', 'I', 'N'], .whole), (['F', 'P', 'S'], .whole), (['T', 'T'], .whole),
   (['P', 'H', 'S', 'T'], .whole), (['E', 'F', 'R'], .whole), (['P', 'S', 'T'], .whole), (['S', 'P', 'I', 'N'], .whole), (['A', 'U'], .whole),
   (['F', 'E', 'D'], .whole), (['N', 'M'], .whole), (['S', 'O'], .whole), (['I', 'P'], .whole), (['O', 'A', 'B', 'L'], .whole),
   (['C', 'R', 'D', 'T'], .whole), (['D', 'D', 'I', 'N'], .whole), (['M', 'H'], .whole), (['D', 'P'], .first), (['G', 'N'], .whole),
   (['C', 'R', 'F'], .whole), (['T', 'I'], .first), (['C', 'R', 'I'], .whole), (['O', 'T'], .whole), (['R', 'O', 'F'], .whole),
   (['O', 'T', 'O'], .first), (['O', 'I', 'D'], .whole), (['P', 'T'], .whole), (['R', 'P', 'I'], .whole), (['A', 'B'], .first), (['E', 'N'], .whole),
   (['A', 'D'], .ad), (['L', 'A'], .whole), (['T', 'A'], .first), (['J', 'T'], .first), (['I', 'R', 'A', 'D'], .whole), (['P', 'S'], .whole),
   (['I', 'S'], .whole), (['P', 'L'], .whole), (['C', 'T', 'I'], .whole), (['F', 'A', 'U'], .whole), (['V', 'T', 'I'], .whole),
   (['D', 'C', 'O', 'M'], .whole), (['B', 'T', 'I'], .whole), (['C', 'I'], .whole), (['S', 'T', 'A', 'T'], .whole), (['D', 'R', 'I', 'N'], .whole),
   (['R', 'F'], .whole), (['U', 'I', 'N'], .whole), (['L', 'R'], .whole), (['S', 'F', 'M'], .whole), (['E', 'I', 'N'], .whole),
   (['A', 'I', 'D'], .whole), (['P', 'R', 'I', 'N'], .whole), (['D', 'E', 'P'], .whole), (['A', 'U', 'I', 'D'], .auid), (['S', 'I'], .whole),
   (['I', 'S', 'B', 'N'], .whole), (['R', 'N'], .whole), (['J', 'I', 'D'], .whole), (['G', 'R'], .grants)]

/-- `' : '` -/
def colon : Str := [' ', ':', ' ']

/-- One line of `AD` (medline/tagProcessing/tagFunctions.py:223-224): the author and the addresses. -/
def adLine (v : Str) : Str × List Str :=
  ((Str.split colon v).headD [],
    (Str.split [';'] (Str.replace ['\n'] [] (Str.join colon (Str.split colon v).tail))).filter (· ≠ []))

/-- `AD` (medline/tagProcessing/tagFunctions.py:218-225). -/
def ad (val : List Str) : Dict Str (List Str) := val.foldl (fun d v => d.set (adLine v).1 (adLine v).2) []

/-- One line of `AUID` (medline/tagProcessing/tagFunctions.py:327-328). -/
def auidLine (v : Str) : Str × Str := ((Str.split colon v).headD [], Str.join colon (Str.split colon v).tail)

/-- `AUID` (medline/tagProcessing/tagFunctions.py:322-329). -/
def auid (val : List Str) : Dict Str Str := val.foldl (fun d v => d.set (auidLine v).1 (auidLine v).2) []

/-- The functions of medline/tagProcessing/tagFunctions.py:3-349; see `MKind`. -/
def process (k : MKind) (val : List Str) : Except VErr MVal :=
  match k with
  | .whole => .ok (.texts val)
  | .first => do .ok (.text (← line0 val))
  | .pmid => do .ok (.text (['P', 'M', 'I', 'D', ':'] ++ (← line0 val)))
  | .ad => .ok (.addresses (ad val))
  | .auid => .ok (.ids (auid val))
  | .grants => .ok (.grants val)

/-- `R[tag]` for a tag the record has (`MedlineRecord.tagProcessingFunc`, medline/recordMedline.py:57-59: `KeyError` for a tag that is not in the table)
and `KeyError` for one it does not have. -/
def item (R : Fields) (tag : Str) : Except VErr MVal :=
  match R.get? tag with
  | none => .error .keyError
  | some val =>
    match medlineKinds.get? tag with
    | none => .error .keyError
    | some k => process k val

/-- `R[tag]` where the function of the tag is `return val[0]`. -/
def text (R : Fields) (tag : Str) : Except VErr Str :=
  match R.get? tag with
  | none => .error .keyError
  | some val => line0 val

/-- `R[tag]` where the function of the tag is `return val`. -/
def lines (R : Fields) (tag : Str) : Except VErr (List Str) :=
  match R.get? tag with
  | none => .error .keyError
  | some val => .ok val

/-- `s.split(' ')[0]` -/
def word0 (s : Str) : Str := (Str.split [' '] s).headD []

/-- `re.match(r'-?\d{1,4}', s)`, the characters matched; `dig` is `\d`. -/
def yearAt (dig : Char → Bool) (s : Str) : Option Str :=
  match s with
  | '-' :: cs => if (cs.takeWhile dig).isEmpty then none else some ('-' :: (cs.takeWhile dig).take 4)
  | s => if (s.takeWhile dig).isEmpty then none else some ((s.takeWhile dig).take 4)

/-- `re.search(r'-?\d{1,4}', s)`: the first place where it matches. -/
def yearSearch (dig : Char → Bool) : Str → Option Str
  | [] => none
  | c :: cs =>
    match yearAt dig (c :: cs) with
    | some w => some w
    | none => yearSearch dig cs

/-- `year` (medline/tagProcessing/specialFunctions.py:5-13). -/
def year (P : Prims) (dig : Char → Bool) (R : Fields) : Except VErr Int := do
  let w := word0 (← text R ['D', 'P'])
  match P.int w with
  | some n => .ok n
  | none =>
    match yearSearch dig w with
    | none => .ok 0
    | some y =>
      match P.int y with
      | some n => .ok n
      | none => .error .valueError

/-- `month` (medline/tagProcessing/specialFunctions.py:15-21). -/
def month (P : Prims) (R : Fields) : Except VErr FVal := do
  match (Str.split [' '] (← text R ['D', 'P']))[1]? with
  | none => .error .keyError
  | some m => getMonth P m

/-- `volume` (medline/tagProcessing/specialFunctions.py:23-25). -/
def volume (R : Fields) : Except VErr Str := do .ok (word0 (← text R ['V', 'I']))

/-- `'suppl '` -/
def suppl : Str := ['s', 'u', 'p', 'p', 'l', ' ']

/-- `beginningPage` (medline/tagProcessing/specialFunctions.py:27-32), of the page field. -/
def firstPage (p : Str) : Str :=
  let p := if suppl.isPrefixOf p then p.drop 6 else p
  Str.replace [';'] [] ((Str.split ['-'] (word0 p)).headD [])

/-- `beginningPage` (medline/tagProcessing/specialFunctions.py:27-32). -/
def beginningPage (R : Fields) : Except VErr Str := do .ok (firstPage (← text R ['P', 'G']))

/-- `' [doi]'` -/
def doiMark : Str := [' ', '[', 'd', 'o', 'i', ']']

/-- `DOI` (medline/tagProcessing/specialFunctions.py:35-40). -/
def DOI (R : Fields) : Except VErr Str := do
  match (← lines R ['A', 'I', 'D']).find? (fun a => doiMark.isSuffixOf a) with
  | some a => .ok (a.take (a.length - 6))
  | none => .error .keyError

/-- `address` (medline/tagProcessing/specialFunctions.py:42-44). The index `R['AD']` is evaluated before `R['AU']`. -/
def address (R : Fields) : Except VErr Str := do
  let d := ad (← lines R ['A', 'D'])
  let a ← line0 (← lines R ['A', 'U'])
  match d.get? a with
  | none => .error .keyError
  | some l => line0 l

end Verif.Model.MedlineFields
