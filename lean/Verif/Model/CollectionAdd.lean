import Verif.Model.Collection
import Verif.Model.Tables

/-!
# Model of `RecordCollection.__add__`, `__bytes__` and `findProbableCopyright` of `metaknowledge/recordCollection.py`
-/
set_option autoImplicit false
namespace Verif.Model.CollectionAdd
open Verif.Py Verif.Model

section add
variable {α κ ε : Type} [DecidableEq α] [DecidableEq κ]

/-- `for rec in xs: new_col.add(rec)` (recordCollection.py:184-188). -/
def addAll (isInst : α → Bool) (tyName : α → String) : Coll α κ ε → List α → Except CollErr (Coll α κ ε)
  | c, [] => .ok c
  | c, x :: xs =>
    match Coll.add isInst tyName c x with
    | .error e => .error e
    | .ok c' => addAll isInst tyName c' xs

/-- `RecordCollection.__add__` (recordCollection.py:179-190). The other operand is anything that can be iterated over: its name (the empty string
when it has none) and its elements. -/
def addColl (isInst : α → Bool) (tyName : α → String) (a : Coll α κ ε) (otherName : String) (other : List α) : Except CollErr (Coll α κ ε) :=
  match addAll isInst tyName (Coll.fresh "RecordCollection" [] (a.name ++ " " ++ otherName)) a.items with
  | .error e => .error e
  | .ok c => addAll isInst tyName c other
end add

/-- `RecordCollection.findProbableCopyright` (recordCollection.py:420-434). `abstract` is what `R.get('abstract', '')` gives. The result is a set turned into a list: its order is
not fixed. -/
def findProbableCopyright (ws digit : Char → Bool) : List Str → List Str → List Str
  | ret, [] => ret
  | ret, abstract :: rest =>
    let abS := (Tables.findCopyright ws digit abstract).2
    findProbableCopyright ws digit (if abS ≠ [] then PSet.add ret abS else ret) rest

/-- `RecordCollection.__bytes__` (recordCollection.py:172-177), before encoding: the text of a record is `none` when it is bad. An empty collection has no element to peek at:
`none`, too. -/
def bytesText : List (Option Str) → Option Str
  | [] => none
  | rs => (rs.mapM id).map (Str.join ['\n'])

end Verif.Model.CollectionAdd
