import Verif.Py.StrOps
import Verif.Py.Dict
import Verif.Py.Decimal

/-!
# What the fields of a WOS record are turned into

`metaknowledge/WOS/tagProcessing/tagFunctions.py` has one function per tag; all but six of them have one of ten bodies, so a body is a `Kind` and the
table says which tag has which. The field's raw value is the list of its lines.
-/
set_option autoImplicit false
namespace Verif.Model.WosFields
open Verif.Py

/-- The string functions of Python that are left open: `str.upper`, `str.lower`, the characters `strip` removes, `str.isdigit` and `int` of a string
(`none`: it raises `ValueError`). -/
structure Prims where
  upper : Str → Str
  lower : Str → Str
  ws : Char → Bool
  isdigit : Str → Bool
  int : Str → Option Int

/-- A processed value. A citation is kept as the string it is made from (`Citation(c)`, whose reading is modelled in `Verif.Model.Citation`). -/
inductive FVal
  | text (s : Str)
  | texts (l : List Str)
  | num (n : Int)
  | cites (l : List Str)
  deriving DecidableEq

/-- The exceptions of the functions. -/
inductive VErr
  | indexError
  | valueError
  | keyError
  deriving DecidableEq

/-- The bodies of the functions of WOS/tagProcessing/tagFunctions.py.
* `first`, `return val[0]`: 7-26, 50-69, 155-174, 289-308, 331-350, 442-461, 550-569, 571-590, 592-611, 634-653, 655-674, 676-695, 718-737, 865-884,
  1123-1142, 1165-1184, 1186-1205, 1251-1270, 1272-1291
* `whole`, `return val`: 29-48, 71-90, 92-111, 113-132, 134-153, 197-203
* `joined`, `return ' '.join(val)`: 176-195, 226-245, 247-266, 310-329, 421-440, 844-863, 991-1010, 1012-1031, 1033-1052
* `joinedUpper`, `return ' '.join(val).upper()`: 205-224, 529-548, 739-758, 781-800
* `commaJoined`: 268-287
* `commaList`: 352-371
* `semiList`, `return ' '.join(val).split('; ')`: 463-482, 484-503, 613-632, 697-716, 802-821, 907-926, 1207-1226
* `semiListLower`: 1100-1121
* `semiListUpper`: 1228-1249
* `lineJoined`: 970-989
* `number`, `return int(val[0])`: 373-392, 760-779, 928-947, 1144-1163
* `firstStripped`, `return val[0].strip()`: 886-905, 949-968, 1054-1073
* `authAddress`: 394-419; `citations`: 505-527; `month`: 823-842; `year`: 1075-1098 -/
inductive Kind
  | first | whole | joined | joinedUpper | commaJoined | commaList | semiList | semiListLower | semiListUpper | lineJoined | number | firstStripped
  | authAddress | citations | month | year
  deriving DecidableEq

/-- `tagToFunc` (WOS/tagProcessing/tagFunctions.py:1293-1355), each function given by its body. -/
def wosKinds : Dict Str Kind :=
  [(['P', 'T'], .first),
   (['A', 'F'], .whole),
   (['G', 'P'], .first),
   (['B', 'E'], .whole),
   (['A', 'U'], .whole),
   (['B', 'A'], .whole),
   (['B', 'F'], .whole),
   (['C', 'A'], .first),
   (['E', 'D'], .whole),
   (['T', 'I'], .joined),
   (['S', 'O'], .joinedUpper),
   (['S', 'E'], .joined),
   (['B', 'S'], .joined),
   (['L', 'A'], .commaJoined),
   (['D', 'T'], .first),
   (['C', 'T'], .joined),
   (['C', 'Y'], .first),
   (['H', 'O'], .joined),
   (['C', 'L'], .joined),
   (['S', 'P'], .commaList),
   (['D', 'E'], .semiListLower),
   (['I', 'D'], .semiListUpper),
   (['A', 'B'], .lineJoined),
   (['C', '1'], .authAddress),
   (['R', 'P'], .first),
   (['E', 'M'], .semiList),
   (['R', 'I'], .semiList),
   (['O', 'I'], .semiList),
   (['F', 'U'], .semiList),
   (['F', 'X'], .joined),
   (['C', 'R'], .citations),
   (['N', 'R'], .number),
   (['T', 'C'], .number),
   (['Z', '9'], .number),
   (['P', 'U'], .joinedUpper),
   (['P', 'I'], .joinedUpper),
   (['P', 'A'], .joined),
   (['S', 'C'], .semiList),
   (['S', 'N'], .first),
   (['E', 'I'], .first),
   (['B', 'N'], .semiList),
   (['J', '9'], .first),
   (['J', 'I'], .joinedUpper),
   (['P', 'D'], .month),
   (['P', 'Y'], .year),
   (['V', 'L'], .firstStripped),
   (['I', 'S'], .first),
   (['P', 'N'], .first),
   (['S', 'U'], .joined),
   (['S', 'I'], .first),
   (['M', 'A'], .first),
   (['B', 'P'], .firstStripped),
   (['E', 'P'], .firstStripped),
   (['A', 'R'], .first),
   (['P', 'G'], .number),
   (['W', 'C'], .semiList),
   (['D', 'I'], .first),
   (['D', '2'], .first),
   (['G', 'A'], .first),
   (['U', 'T'], .first),
   (['P', 'M'], .first)]

/-- `monthDict` (WOS/tagProcessing/helpFuncs.py:2). -/
def monthDict : Dict Str Nat :=
  [(['S', 'P', 'R'], 3), (['S', 'U', 'M'], 6), (['F', 'A', 'L'], 9), (['W', 'I', 'N'], 12), (['J', 'A', 'N'], 1), (['F', 'E', 'B'], 2),
   (['M', 'A', 'R'], 3), (['A', 'P', 'R'], 4), (['M', 'A', 'Y'], 5), (['J', 'U', 'N'], 6), (['J', 'U', 'L'], 7), (['A', 'U', 'G'], 8),
   (['S', 'E', 'P'], 9), (['O', 'C', 'T'], 10), (['N', 'O', 'V'], 11), (['D', 'E', 'C'], 12)]

/-- `getMonth` (WOS/tagProcessing/helpFuncs.py:4-25). The `raise ValueError` at its end is never reached. -/
def getMonth (P : Prims) (s : Str) : Except VErr FVal :=
  let first := P.upper ((Str.split ['-'] s).headD [])
  match monthDict.get? first with
  | some n => .ok (.num n)
  | none =>
    let last := P.upper ((Str.split ['-'] s).getLastD [])
    if P.isdigit last then .ok (.text last)
    else match monthDict.get? last with
      | some n => .ok (.num n)
      | none => .error .keyError

/-- The body of the loop of `authAddress` (WOS/tagProcessing/tagFunctions.py:414-418); `a[0]` raises `IndexError` when the line is empty. -/
def address1 (a : Str) : Except VErr Str :=
  match a with
  | [] => .error .indexError
  | c :: _ => if c = '[' then .ok (Str.join [']', ' '] ((Str.split [']', ' '] a).tail)) else .ok a

/-- `val[0]` -/
def line0 (val : List Str) : Except VErr Str :=
  match val with
  | [] => .error .indexError
  | v :: _ => .ok v

/-- `int(s)` -/
def toInt (P : Prims) (s : Str) : Except VErr FVal :=
  match P.int s with
  | some n => .ok (.num n)
  | none => .error .valueError

/-- `year` (WOS/tagProcessing/tagFunctions.py:1094-1098), of its first line. -/
def year (P : Prims) (yearField : Str) : Except VErr FVal := if yearField.length = 4 then toInt P yearField else .error .valueError

/-- The functions of WOS/tagProcessing/tagFunctions.py:7-1291; see `Kind`. -/
def process (P : Prims) (k : Kind) (val : List Str) : Except VErr FVal :=
  match k with
  | .first => do .ok (.text (← line0 val))
  | .whole => .ok (.texts val)
  | .joined => .ok (.text (Str.join [' '] val))
  | .joinedUpper => .ok (.text (P.upper (Str.join [' '] val)))
  | .commaJoined => .ok (.text (Str.join [',', ' '] val))
  | .commaList => .ok (.texts (Str.split [',', ' '] (Str.join [',', ' '] val)))
  | .semiList => .ok (.texts (Str.split [';', ' '] (Str.join [' '] val)))
  | .semiListLower => .ok (.texts (Str.split [';', ' '] (P.lower (Str.join [' '] val))))
  | .semiListUpper => .ok (.texts (Str.split [';', ' '] (P.upper (Str.join [' '] val))))
  | .lineJoined => .ok (.text (Str.join ['\n'] val))
  | .number => do toInt P (← line0 val)
  | .firstStripped => do .ok (.text (Str.strip P.ws (← line0 val)))
  | .authAddress => do .ok (.texts (← val.mapM address1))
  | .citations => .ok (.cites val)
  | .month => do getMonth P ((Str.split [' '] (← line0 val)).headD [])
  | .year => do year P (← line0 val)

/-- What `R[tag]` makes of the raw value of a field stored under `tag` (`WOSRecord.tagProcessingFunc`, WOS/recordWOS.py:100-102): a tag that is not
known has the identity. -/
def wosValue (P : Prims) (tag : Str) (val : List Str) : Except VErr FVal :=
  match wosKinds.get? tag with
  | some k => process P k val
  | none => .ok (.texts val)

end Verif.Model.WosFields
