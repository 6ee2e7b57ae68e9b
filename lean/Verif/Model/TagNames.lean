import Verif.Py.Str
import Verif.Py.Dict

/-!
# Model of the tag tables: `metaknowledge/WOS/tagProcessing/funcDicts.py`, `helpFuncs.py`, `metaknowledge/medline/tagProcessing/tagNames.py`

`upper` stands for `str.upper`, which is not defined here; the theorems assume only what it does on the names in the table.
-/
set_option autoImplicit false
namespace Verif.Model.TagNames
open Verif.Py

/-- `reverseDict` (WOS/tagProcessing/helpFuncs.py:37-45). -/
def reverseDict (d : Dict Str Str) : Dict Str Str := d.foldl (fun r p => r.set p.2 p.1) []

/-- `makeBiDirectional` (WOS/tagProcessing/helpFuncs.py:27-35). -/
def makeBiDirectional (d : Dict Str Str) : Dict Str Str := d.foldl (fun r p => r.set p.2 p.1) d

/-- The tags of `tagToFunc` with the names of their functions (WOS/tagProcessing/tagFunctions.py:1293-1355); this is `tagToFullDict`
(WOS/tagProcessing/funcDicts.py:5). -/
def wosTags : Dict Str Str :=
  [(['P', 'T'], ['p', 'u', 'b', 'T', 'y', 'p', 'e']),
   (['A', 'F'], ['a', 'u', 't', 'h', 'o', 'r', 's', 'F', 'u', 'l', 'l']),
   (['G', 'P'], ['g', 'r', 'o', 'u', 'p']),
   (['B', 'E'], ['e', 'd', 'i', 't', 'e', 'd', 'B', 'y']),
   (['A', 'U'], ['a', 'u', 't', 'h', 'o', 'r', 's', 'S', 'h', 'o', 'r', 't']),
   (['B', 'A'], ['b', 'o', 'o', 'k', 'A', 'u', 't', 'h', 'o', 'r']),
   (['B', 'F'], ['b', 'o', 'o', 'k', 'A', 'u', 't', 'h', 'o', 'r', 'F', 'u', 'l', 'l']),
   (['C', 'A'], ['g', 'r', 'o', 'u', 'p', 'N', 'a', 'm', 'e']),
   (['E', 'D'], ['e', 'd', 'i', 't', 'o', 'r', 's']),
   (['T', 'I'], ['t', 'i', 't', 'l', 'e']),
   (['S', 'O'], ['j', 'o', 'u', 'r', 'n', 'a', 'l']),
   (['S', 'E'], ['s', 'e', 'r', 'i', 'e', 's', 'T', 'i', 't', 'l', 'e']),
   (['B', 'S'], ['s', 'e', 'r', 'i', 'e', 's', 'S', 'u', 'b', 't', 'i', 't', 'l', 'e']),
   (['L', 'A'], ['l', 'a', 'n', 'g', 'u', 'a', 'g', 'e']),
   (['D', 'T'], ['d', 'o', 'c', 'T', 'y', 'p', 'e']),
   (['C', 'T'], ['c', 'o', 'n', 'f', 'T', 'i', 't', 'l', 'e']),
   (['C', 'Y'], ['c', 'o', 'n', 'f', 'D', 'a', 't', 'e']),
   (['H', 'O'], ['c', 'o', 'n', 'f', 'H', 'o', 's', 't']),
   (['C', 'L'], ['c', 'o', 'n', 'f', 'L', 'o', 'c', 'a', 't', 'i', 'o', 'n']),
   (['S', 'P'], ['c', 'o', 'n', 'f', 'S', 'p', 'o', 'n', 's', 'o', 'r', 's']),
   (['D', 'E'], ['a', 'u', 't', 'h', 'K', 'e', 'y', 'w', 'o', 'r', 'd', 's']),
   (['I', 'D'], ['k', 'e', 'y', 'w', 'o', 'r', 'd', 's']),
   (['A', 'B'], ['a', 'b', 's', 't', 'r', 'a', 'c', 't']),
   (['C', '1'], ['a', 'u', 't', 'h', 'A', 'd', 'd', 'r', 'e', 's', 's']),
   (['R', 'P'], ['r', 'e', 'p', 'r', 'i', 'n', 't', 'A', 'd', 'd', 'r', 'e', 's', 's']),
   (['E', 'M'], ['e', 'm', 'a', 'i', 'l']),
   (['R', 'I'], ['R', 'e', 's', 'e', 'a', 'r', 'c', 'h', 'e', 'r', 'I', 'D', 'n', 'u', 'm', 'b', 'e', 'r']),
   (['O', 'I'], ['o', 'r', 'c', 'I', 'D']),
   (['F', 'U'], ['f', 'u', 'n', 'd', 'i', 'n', 'g']),
   (['F', 'X'], ['f', 'u', 'n', 'd', 'i', 'n', 'g', 'T', 'e', 'x', 't']),
   (['C', 'R'], ['c', 'i', 't', 'a', 't', 'i', 'o', 'n', 's']),
   (['N', 'R'], ['c', 'i', 't', 'e', 'd', 'R', 'e', 'f', 's', 'C', 'o', 'u', 'n', 't']),
   (['T', 'C'], ['w', 'o', 's', 'T', 'i', 'm', 'e', 's', 'C', 'i', 't', 'e', 'd']),
   (['Z', '9'], ['t', 'o', 't', 'a', 'l', 'T', 'i', 'm', 'e', 's', 'C', 'i', 't', 'e', 'd']),
   (['P', 'U'], ['p', 'u', 'b', 'l', 'i', 's', 'h', 'e', 'r']),
   (['P', 'I'], ['p', 'u', 'b', 'l', 'i', 's', 'h', 'e', 'r', 'C', 'i', 't', 'y']),
   (['P', 'A'], ['p', 'u', 'b', 'l', 'i', 's', 'h', 'e', 'r', 'A', 'd', 'd', 'r', 'e', 's', 's']),
   (['S', 'C'], ['s', 'u', 'b', 'j', 'e', 'c', 't', 'C', 'a', 't', 'e', 'g', 'o', 'r', 'y']),
   (['S', 'N'], ['I', 'S', 'S', 'N']),
   (['E', 'I'], ['e', 'I', 'S', 'S', 'N']),
   (['B', 'N'], ['I', 'S', 'B', 'N']),
   (['J', '9'], ['j', '9']),
   (['J', 'I'], ['i', 's', 'o', 'A', 'b', 'b', 'r', 'e', 'v', 'i', 'a', 't', 'i', 'o', 'n']),
   (['P', 'D'], ['m', 'o', 'n', 't', 'h']),
   (['P', 'Y'], ['y', 'e', 'a', 'r']),
   (['V', 'L'], ['v', 'o', 'l', 'u', 'm', 'e']),
   (['I', 'S'], ['i', 's', 's', 'u', 'e']),
   (['P', 'N'], ['p', 'a', 'r', 't', 'N', 'u', 'm', 'b', 'e', 'r']),
   (['S', 'U'], ['s', 'u', 'p', 'p', 'l', 'e', 'm', 'e', 'n', 't']),
   (['S', 'I'], ['s', 'p', 'e', 'c', 'i', 'a', 'l', 'I', 's', 's', 'u', 'e']),
   (['M', 'A'], ['m', 'e', 'e', 't', 'i', 'n', 'g', 'A', 'b', 's', 't', 'r', 'a', 'c', 't']),
   (['B', 'P'], ['b', 'e', 'g', 'i', 'n', 'n', 'i', 'n', 'g', 'P', 'a', 'g', 'e']),
   (['E', 'P'], ['e', 'n', 'd', 'i', 'n', 'g', 'P', 'a', 'g', 'e']),
   (['A', 'R'], ['a', 'r', 't', 'i', 'c', 'l', 'e', 'N', 'u', 'm', 'b', 'e', 'r']),
   (['P', 'G'], ['p', 'a', 'g', 'e', 'C', 'o', 'u', 'n', 't']),
   (['W', 'C'], ['s', 'u', 'b', 'j', 'e', 'c', 't', 's']),
   (['D', 'I'], ['D', 'O', 'I']),
   (['D', '2'], ['b', 'o', 'o', 'k', 'D', 'O', 'I']),
   (['G', 'A'], ['d', 'o', 'c', 'u', 'm', 'e', 'n', 't', 'D', 'e', 'l', 'i', 'v', 'e', 'r', 'y', 'N', 'u', 'm', 'b', 'e', 'r']),
   (['U', 'T'], ['w', 'o', 's', 'S', 't', 'r', 'i', 'n', 'g']),
   (['P', 'M'], ['p', 'u', 'b', 'M', 'e', 'd', 'I', 'D'])]

/-- `fullToTagDict` (funcDicts.py:7). -/
def fullToTag : Dict Str Str := reverseDict wosTags

/-- `fullToTagDictUpper` (funcDicts.py:9). -/
def fullToTagUpper (upper : Str → Str) : Dict Str Str := fullToTag.foldl (fun r p => r.set (upper p.1) p.2) []

/-- `tagNameConverterDict` (funcDicts.py:12). -/
def wosConverter : Dict Str Str := makeBiDirectional wosTags

/-- `tagsAndNameSet` (funcDicts.py:14). -/
def tagsAndNames : List Str := wosConverter.keys

/-- `normalizeToTag` (funcDicts.py:41-66) of a string; `none` is `KeyError`. -/
def normalizeToTag (upper : Str → Str) (val : Str) : Option Str :=
  let v := upper val
  if v ∈ tagsAndNames.map upper then
    match (fullToTagUpper upper).get? v with
    | some t => some t
    | none => some v
  else none

/-- `normalizeToName` (funcDicts.py:68-89); `none` is `KeyError`. -/
def normalizeToName (val : Str) : Option Str :=
  if val ∈ tagsAndNames then
    match wosTags.get? val with
    | some n => some n
    | none => some val
  else none

/-- What `tagToFull` raises for an unknown tag: `raise("…")` of a string is a `TypeError` (funcDicts.py:38). -/
inductive TErr where
  | typeError
  | keyError
deriving DecidableEq, Repr

/-- `tagToFull` (funcDicts.py:20-38). -/
def tagToFull (tag : Str) : Except TErr Str :=
  match wosTags.get? tag with
  | some n => .ok n
  | none => .error .typeError

/-- `isTagOrName` (funcDicts.py:91-106). -/
def isTagOrName (val : Str) : Bool := decide (val ∈ tagsAndNames)

/-- `WOSRecord.getAltName` (WOS/recordWOS.py:97-98). -/
def wosAlt (tag : Str) : Option Str := wosConverter.get? tag

/-- The literal `tagNameDict` of Medline as written (medline/tagProcessing/tagNames.py:9-94), with its repeated keys. -/
def medlineLiteral : List (Str × Str) :=
  [(['A', 'b', 's', 't', 'r', 'a', 'c', 't'], ['A', 'B']),
   (['C', 'o', 'p', 'y', 'r', 'i', 'g', 'h', 't', 'I', 'n', 'f', 'o', 'r', 'm', 'a', 't', 'i', 'o', 'n'], ['C', 'I']),
   (['A', 'f', 'f', 'i', 'l', 'i', 'a', 't', 'i', 'o', 'n'], ['A', 'D']),
   (['I', 'n', 'v', 'e', 's', 't', 'i', 'g', 'a', 't', 'o', 'r', 'A', 'f', 'f', 'i', 'l', 'i', 'a', 't', 'i', 'o', 'n'], ['I', 'R', 'A', 'D']),
   (['A', 'r', 't', 'i', 'c', 'l', 'e', 'I', 'd', 'e', 'n', 't', 'i', 'f', 'i', 'e', 'r'], ['A', 'I', 'D']),
   (['A', 'u', 't', 'h', 'o', 'r'], ['A', 'U']),
   (['A', 'u', 't', 'h', 'o', 'r', 'I', 'd', 'e', 'n', 't', 'i', 'f', 'i', 'e', 'r'], ['A', 'U', 'I', 'D']),
   (['F', 'u', 'l', 'l', 'A', 'u', 't', 'h', 'o', 'r'], ['F', 'A', 'U']),
   (['B', 'o', 'o', 'k', 'T', 'i', 't', 'l', 'e'], ['B', 'T', 'I']),
   (['C', 'o', 'l', 'l', 'e', 'c', 't', 'i', 'o', 'n', 'T', 'i', 't', 'l', 'e'], ['C', 'T', 'I']),
   (['C', 'o', 'r', 'p', 'o', 'r', 'a', 't', 'e', 'A', 'u', 't', 'h', 'o', 'r'], ['C', 'N']),
   (['C', 'r', 'e', 'a', 't', 'e', 'D', 'a', 't', 'e'], ['C', 'R', 'D', 'T']),
   (['D', 'a', 't', 'e', 'C', 'o', 'm', 'p', 'l', 'e', 't', 'e', 'd'], ['D', 'C', 'O', 'M']),
   (['D', 'a', 't', 'e', 'C', 'r', 'e', 'a', 't', 'e', 'd'], ['D', 'A']),
   (['D', 'a', 't', 'e', 'L', 'a', 's', 't', 'R', 'e', 'v', 'i', 's', 'e', 'd'], ['L', 'R']),
   (['D', 'a', 't', 'e', 'E', 'l', 'e', 'c', 't', 'r', 'o', 'n', 'i', 'c', 'P', 'u', 'b', 'l', 'i', 'c', 'a', 't', 'i', 'o', 'n'], ['D', 'E', 'P']),
   (['D', 'a', 't', 'e', 'P', 'u', 'b', 'l', 'i', 'c', 'a', 't', 'i', 'o', 'n'], ['D', 'P']),
   (['E', 'd', 'i', 't', 'i', 'o', 'n'], ['E', 'N']),
   (['E', 'd', 'i', 't', 'o', 'r'], ['E', 'D']),
   (['E', 'd', 'i', 't', 'o', 'r'], ['F', 'E', 'D']),
   (['E', 'n', 't', 'r', 'e', 'z', 'D', 'a', 't', 'e'], ['E', 'D', 'A', 'T']),
   (['G', 'e', 'n', 'e', 'S', 'y', 'm', 'b', 'o', 'l'], ['G', 'S']),
   (['G', 'e', 'n', 'e', 'r', 'a', 'l', 'N', 'o', 't', 'e'], ['G', 'N']),
   (['G', 'r', 'a', 'n', 't', 'N', 'u', 'm', 'b', 'e', 'r'], ['G', 'R']),
   (['I', 'n', 'v', 'e', 's', 't', 'i', 'g', 'a', 't', 'o', 'r'], ['I', 'R']),
   (['I', 'n', 'v', 'e', 's', 't', 'i', 'g', 'a', 't', 'o', 'r', 'F', 'u', 'l', 'l'], ['F', 'I', 'R']),
   (['I', 'S', 'B', 'N'], ['I', 'S', 'B', 'N']),
   (['I', 'S', 'S', 'N'], ['I', 'S']),
   (['I', 's', 's', 'u', 'e'], ['I', 'P']),
   (['J', 'o', 'u', 'r', 'n', 'a', 'l', 'T', 'i', 't', 'l', 'e', 'A', 'b', 'b', 'r', 'e', 'v', 'i', 'a', 't', 'i', 'o', 'n'], ['T', 'A']),
   (['J', 'o', 'u', 'r', 'n', 'a', 'l', 'T', 'i', 't', 'l', 'e'], ['J', 'T']),
   (['L', 'a', 'n', 'g', 'u', 'a', 'g', 'e'], ['L', 'A']),
   (['L', 'o', 'c', 'a', 't', 'i', 'o', 'n', 'I', 'd', 'e', 'n', 't', 'i', 'f', 'i', 'e', 'r'], ['L', 'I', 'D']),
   (['M', 'a', 'n', 'u', 's', 'c', 'r', 'i', 'p', 't', 'I', 'd', 'e', 'n', 't', 'i', 'f', 'i', 'e', 'r'], ['M', 'I', 'D']),
   (['M', 'e', 'S', 'H', 'D', 'a', 't', 'e'], ['M', 'H', 'D', 'A']),
   (['M', 'e', 'S', 'H', 'T', 'e', 'r', 'm', 's'], ['M', 'H']),
   (['N', 'L', 'M', 'I', 'D'], ['J', 'I', 'D']),
   (['N', 'u', 'm', 'b', 'e', 'r', 'R', 'e', 'f', 'e', 'r', 'e', 'n', 'c', 'e', 's'], ['R', 'F']),
   (['O', 't', 'h', 'e', 'r', 'A', 'b', 's', 't', 'r', 'a', 'c', 't'], ['O', 'A', 'B']),
   (['O', 't', 'h', 'e', 'r', 'A', 'b', 's', 't', 'r', 'a', 'c', 't'], ['O', 'A', 'B', 'L']),
   (['O', 't', 'h', 'e', 'r', 'C', 'o', 'p', 'y', 'r', 'i', 'g', 'h', 't'], ['O', 'C', 'I']),
   (['O', 't', 'h', 'e', 'r', 'I', 'D'], ['O', 'I', 'D']),
   (['O', 't', 'h', 'e', 'r', 'T', 'e', 'r', 'm'], ['O', 'T']),
   (['O', 't', 'h', 'e', 'r', 'T', 'e', 'r', 'm', 'O', 'w', 'n', 'e', 'r'], ['O', 'T', 'O']),
   (['O', 'w', 'n', 'e', 'r'], ['O', 'W', 'N']),
   (['P', 'a', 'g', 'i', 'n', 'a', 't', 'i', 'o', 'n'], ['P', 'G']),
   (['P', 'e', 'r', 's', 'o', 'n', 'a', 'l', 'N', 'a', 'm', 'e', 'S', 'u', 'b', 'j', 'e', 'c', 't'], ['P', 'S']),
   (['F', 'u', 'l', 'l', 'P', 'e', 'r', 's', 'o', 'n', 'a', 'l', 'N', 'a', 'm', 'e', 'S', 'u', 'b', 'j', 'e', 'c', 't'], ['F', 'P', 'S']),
   (['P', 'l', 'a', 'c', 'e', 'P', 'u', 'b', 'l', 'i', 'c', 'a', 't', 'i', 'o', 'n'], ['P', 'L']),
   (['P', 'u', 'b', 'l', 'i', 'c', 'a', 't', 'i', 'o', 'n', 'H', 'i', 's', 't', 'o', 'r', 'y', 'S', 't', 'a', 't', 'u', 's'], ['P', 'H', 'S', 'T']),
   (['P', 'u', 'b', 'l', 'i', 'c', 'a', 't', 'i', 'o', 'n', 'S', 't', 'a', 't', 'u', 's'], ['P', 'S', 'T']),
   (['P', 'u', 'b', 'l', 'i', 'c', 'a', 't', 'i', 'o', 'n', 'T', 'y', 'p', 'e'], ['P', 'T']),
   (['P', 'u', 'b', 'l', 'i', 's', 'h', 'i', 'n', 'g', 'M', 'o', 'd', 'e', 'l'], ['P', 'U', 'B', 'M']),
   (['P', 'u', 'b', 'M', 'e', 'd', 'C', 'e', 'n', 't', 'r', 'a', 'l', 'I', 'd', 'e', 'n', 't', 'i', 'f', 'i', 'e', 'r'], ['P', 'M', 'C']),
   (['P', 'u', 'b', 'M', 'e', 'd', 'C', 'e', 'n', 't', 'r', 'a', 'l', 'R', 'e', 'l', 'e', 'a', 's', 'e'], ['P', 'M', 'C', 'R']),
   (['P', 'u', 'b', 'M', 'e', 'd', 'U', 'n', 'i', 'q', 'u', 'e', 'I', 'd', 'e', 'n', 't', 'i', 'f', 'i', 'e', 'r'], ['P', 'M', 'I', 'D']),
   (['R', 'e', 'g', 'i', 's', 't', 'r', 'y', 'N', 'u', 'm', 'b', 'e', 'r'], ['R', 'N']),
   (['S', 'u', 'b', 's', 't', 'a', 'n', 'c', 'e', 'N', 'a', 'm', 'e'], ['N', 'M']),
   (['S', 'e', 'c', 'o', 'n', 'd', 'a', 'r', 'y', 'S', 'o', 'u', 'r', 'c', 'e', 'I', 'D'], ['S', 'I']),
   (['S', 'o', 'u', 'r', 'c', 'e'], ['S', 'O']),
   (['S', 'p', 'a', 'c', 'e', 'F', 'l', 'i', 'g', 'h', 't', 'M', 'i', 's', 's', 'i', 'o', 'n'], ['S', 'F', 'M']),
   (['S', 't', 'a', 't', 'u', 's'], ['S', 'T', 'A', 'T']),
   (['S', 'u', 'b', 's', 'e', 't'], ['S', 'B']),
   (['T', 'i', 't', 'l', 'e'], ['T', 'I']),
   (['T', 'r', 'a', 'n', 's', 'l', 'i', 't', 'e', 'r', 'a', 't', 'e', 'd', 'T', 'i', 't', 'l', 'e'], ['T', 'T']),
   (['V', 'o', 'l', 'u', 'm', 'e'], ['V', 'I']),
   (['V', 'o', 'l', 'u', 'm', 'e', 'T', 'i', 't', 'l', 'e'], ['V', 'T', 'I']),
   (['C', 'o', 'm', 'm', 'e', 'n', 't', 'I', 'n'], ['C', 'I', 'N']),
   (['E', 'r', 'r', 'a', 't', 'u', 'm', 'I', 'n'], ['E', 'I', 'N']),
   (['E', 'r', 'r', 'a', 't', 'u', 'm', 'F', 'o', 'r'], ['E', 'F', 'R']),
   (['C', 'o', 'r', 'r', 'e', 'c', 't', 'e', 'd', 'R', 'e', 'p', 'u', 'b', 'l', 'i', 's', 'h', 'e', 'd', 'I', 'n'], ['C', 'R', 'I']),
   (['C', 'o', 'r', 'r', 'e', 'c', 't', 'e', 'd', 'R', 'e', 'p', 'u', 'b', 'l', 'i', 's', 'h', 'e', 'd', 'F', 'r', 'o', 'm'], ['C', 'R', 'F']),
   (['D', 'a', 't', 'a', 's', 'e', 't', 'I', 'n'], ['D', 'D', 'I', 'N']),
   (['D', 'a', 't', 'a', 's', 'e', 't', 'U', 's', 'e', 'R', 'e', 'p', 'o', 'r', 't', 'e', 'd', 'I', 'n'], ['D', 'R', 'I', 'N']),
   (['P', 'a', 'r', 't', 'i', 'a', 'l', 'R', 'e', 't', 'r', 'a', 'c', 't', 'i', 'o', 'n', 'I', 'n'], ['P', 'R', 'I', 'N']),
   (['P', 'a', 'r', 't', 'i', 'a', 'l', 'R', 'e', 't', 'r', 'a', 'c', 't', 'i', 'o', 'n', 'O', 'f'], ['P', 'R', 'O', 'F']),
   (['R', 'e', 'p', 'u', 'b', 'l', 'i', 's', 'h', 'e', 'd', 'I', 'n'], ['R', 'P', 'I']),
   (['R', 'e', 'p', 'u', 'b', 'l', 'i', 's', 'h', 'e', 'd', 'F', 'r', 'o', 'm'], ['R', 'P', 'F']),
   (['R', 'e', 't', 'r', 'a', 'c', 't', 'i', 'o', 'n', 'I', 'n'], ['R', 'I', 'N']),
   (['R', 'e', 't', 'r', 'a', 'c', 't', 'i', 'o', 'n', 'O', 'f'], ['R', 'O', 'F']),
   (['U', 'p', 'd', 'a', 't', 'e', 'I', 'n'], ['U', 'I', 'N']),
   (['U', 'p', 'd', 'a', 't', 'e', 'O', 'f'], ['U', 'O', 'F']),
   (['S', 'u', 'm', 'm', 'a', 'r', 'y', 'F', 'o', 'r', 'P', 'a', 't', 'i', 'e', 'n', 't', 's'], ['S', 'P', 'I', 'N']),
   (['O', 'r', 'i', 'g', 'i', 'n', 'a', 'l', 'R', 'e', 'p', 'o', 'r', 't', 'I', 'n'], ['O', 'R', 'I'])]

/-- The dictionary the literal makes: of a repeated key the last value stays. -/
def medlineTags : Dict Str Str := medlineLiteral.foldl (fun d p => d.set p.1 p.2) []

/-- `tagNameConverterDict` of Medline (medline/tagProcessing/tagNames.py:96). -/
def medlineConverter : Dict Str Str := makeBiDirectional medlineTags

/-- `MedlineRecord.getAltName` (medline/recordMedline.py:54-55). -/
def medlineAlt (tag : Str) : Option Str := medlineConverter.get? tag

end Verif.Model.TagNames
