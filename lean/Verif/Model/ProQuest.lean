import Verif.Py.Lines
import Verif.Py.StrOps
import Verif.Py.Dict

/-!
# Model of reading ProQuest records

`metaknowledge/proquest/recordProQuest.py`. Line numbers (used in messages only) are not modelled. `ws` is the class of characters of
`str.rstrip`.
-/
set_option autoImplicit false
namespace Verif.Model.ProQuest
open Verif.Py

/-- The fields of a record (an `OrderedDict`). -/
abbrev Fields := Dict Str (List Str)

/-- What `proQuestRecordParser` can raise. -/
inductive PErr where
  /-- `StopIteration`: the lines ended -/
  | stop
  /-- `KeyError`, from `tagDict[None]` -/
  | key
  deriving DecidableEq, Repr

/-- The values of `currentEntry`. The code compares it by `is` with the constants `'Name'` and `'url'`, and a key taken from a line is another
object, also if it has the same characters. -/
inductive Cur where
  | name
  | url
  | none
  | key (k : Str)
  deriving DecidableEq, Repr

/-- `'_' * 60 + '\n'` (recordProQuest.py:92). -/
def separator : Str := List.replicate 60 '_' ++ ['\n']

/-- `proQuestRecordParser` (recordProQuest.py:70-108) from the given values of its variables, with the lines it leaves unread. A key in
`currentEntry` is always in the dictionary. -/
def parseFrom (ws : Char → Bool) (cur : Cur) (d : Fields) : List Str → Except PErr Fields × List Str
  | [] => (.error .stop, [])
  | l :: ls =>
    if l = separator then (.ok d, ls)
    else if l = ['\n'] then parseFrom ws cur d ls
    else if cur = .name then parseFrom ws .none (Dict.set d "Name".toList [Str.rstrip ws l]) ls
    else if cur = .url then parseFrom ws .none (Dict.set d "url".toList [Str.rstrip ws l]) ls
    else if ':' ∈ l ∧ ¬ "http://".toList.isPrefixOf l = true then
      let splitLine := Str.split ": ".toList l
      let k := splitLine.headD []
      parseFrom ws (if k = "Author".toList then .url else .key k) (Dict.set d k [Str.rstrip ws (Str.join ": ".toList splitLine.tail)]) ls
    else match cur with
      | .key k =>
        match Dict.get? d k with
        | some vs => parseFrom ws cur (Dict.set d k (vs ++ [Str.rstrip ws l])) ls
        | none => (.error .key, ls)
      | _ => (.error .key, ls)

/-- `proQuestRecordParser` (recordProQuest.py:88-89). -/
def recordParser (ws : Char → Bool) (ls : List Str) : Except PErr Fields × List Str := parseFrom ws .name [] ls

/-- A record. -/
structure Rec where
  fields : Fields
  id : Str
  bad : Bool
  deriving DecidableEq, Repr

/-- `ProQuestRecord.__init__` (recordProQuest.py:16-48) on lines; nothing raises `BadProQuestRecord`. Lists in the dictionary are not empty. -/
def mkRec (fs : Fields) : Rec :=
  match Dict.get? fs "ProQuest document ID".toList with
  | some (v :: _) => ⟨fs, "PROQUEST:".toList ++ v, false⟩
  | _ => ⟨fs, "PROQUEST:MISSING".toList, true⟩

end Verif.Model.ProQuest
