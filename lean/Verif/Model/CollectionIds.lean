import Verif.Model.Collection

/-!
# Model of `metaknowledge/mkCollection.py`, class `CollectionWithIDs`: lookup by id, bad entries, tags

`idOf`, `badOf` and `keysOf` read the attributes `id`, `bad` and `keys()` of an item.
-/
set_option autoImplicit false
namespace Verif.Model.Coll
open Verif.Py
variable {α κ ε ι : Type} [DecidableEq α] [DecidableEq κ] [DecidableEq ι]

/-- The shared loop `for i in self: if i.id == idVal` (mkCollection.py:435-436, 449-450, 463-464, 484-485). -/
def findID (idOf : α → ι) (idVal : ι) : List α → Option α
  | [] => none
  | i :: rest => if idOf i = idVal then some i else findID idOf idVal rest

/-- `CollectionWithIDs.containsID` (mkCollection.py:420-438). -/
def containsID (idOf : α → ι) (c : Coll α κ ε) (idVal : ι) : Bool :=
  match findID idOf idVal c.items with
  | some _ => true
  | none => false

/-- `CollectionWithIDs.discardID` (mkCollection.py:440-452). -/
def discardID (idOf : α → ι) (c : Coll α κ ε) (idVal : ι) : Coll α κ ε :=
  match findID idOf idVal c.items with
  | some i => { c with items := PSet.discard c.items i }
  | none => c

/-- `CollectionWithIDs.removeID` (mkCollection.py:454-467). -/
def removeID (idOf : α → ι) (c : Coll α κ ε) (idVal : ι) : Except CollErr (Coll α κ ε) :=
  match findID idOf idVal c.items with
  | some i => .ok { c with items := PSet.discard c.items i }
  | none => .error .keyError

/-- `CollectionWithIDs.getID` (mkCollection.py:469-487). -/
def getID (idOf : α → ι) (c : Coll α κ ε) (idVal : ι) : Option α := findID idOf idVal c.items

/-- `CollectionWithIDs.badEntries` (mkCollection.py:489-502); the new collection's name is empty. -/
def badEntries (badOf : α → Bool) (c : Coll α κ ε) : Coll α κ ε :=
  fresh c.cls (c.items.foldl (fun acc i => if badOf i then PSet.add acc i else acc) []) ""

/-- `CollectionWithIDs.dropBadEntries` (mkCollection.py:504-509). -/
def dropBadEntries (badOf : α → Bool) (c : Coll α κ ε) : Coll α κ ε :=
  { c with items := PSet.ofList (c.items.filter (fun i => !badOf i)), bad := false, errors := [] }

/-- `CollectionWithIDs.tags` (mkCollection.py:511-523). -/
def tags {τ : Type} [DecidableEq τ] (keysOf : α → List τ) (c : Coll α κ ε) : List τ :=
  c.items.foldl (fun acc i => PSet.union acc (PSet.ofList (keysOf i))) []

end Verif.Model.Coll
