import Verif.Py.Dict
import Verif.Py.PSet

/-!
# Model of `metaknowledge/mkCollection.py`, class `Collection`

Simplifications, for the whole file: an element is a value of an arbitrary type `α` with decidable equality
(Python's `==`, which for records is equality of hashes); `isinstance(elem, self._allowedTypes)` is a predicate
`isInst` and `type(elem).__name__` a function `tyName`; an error dictionary maps keys `κ` to exceptions `ε`;
`type(self)` is the field `cls`.
-/
namespace Verif.Model
open Verif.Py

/-- The state of a `Collection` (mkCollection.py:73-81). `items` is `_collection`, `types` is `_collectedTypes`;
`_allowedTypes` is the parameter `isInst` of the operations that consult it. -/
structure Coll (α κ ε : Type) where
  cls : String
  items : List α
  types : List String
  name : String
  bad : Bool
  errors : Dict κ ε
deriving DecidableEq

/-- The exceptions raised by `Collection` methods. -/
inductive CollErr | collectionTypeError | keyError
deriving DecidableEq, Repr

namespace Coll
variable {α κ ε : Type} [DecidableEq α] [DecidableEq κ]

/-- The representation invariant of `_collection` (a Python set) and `errors` (a Python dict). -/
def WF (c : Coll α κ ε) : Prop := c.items.Nodup ∧ Dict.WF c.errors

/-- `type(self)(inSet, name = …, quietStart = True)`: what the subclass constructors do with an iterable
(recordCollection.py:78-81,152-160, grantCollection.py:30-33,122-132): a fresh set, no collected types, not bad, no
errors. The constructors check that each element is a `Record`/`Grant`; here the elements come from a collection.
Not modelled: a name that is the empty string is replaced by the grant constructor. -/
def fresh (cls : String) (items : List α) (name : String) : Coll α κ ε :=
  { cls, items := PSet.ofList items, types := [], name, bad := false, errors := [] }

/-- `Collection.__len__` (mkCollection.py:108-109). -/
def len (c : Coll α κ ε) : Nat := c.items.length

/-- `Collection.__contains__` (mkCollection.py:115-116). -/
def contains (c : Coll α κ ε) (x : α) : Bool := decide (x ∈ c.items)

/-- `Collection.__le__` (mkCollection.py:90-94); `none` is `NotImplemented`. -/
def le (a b : Coll α κ ε) : Option Bool := if a.cls ≠ b.cls then none else some (decide (a.len ≤ b.len))

/-- `Collection.__ge__` (mkCollection.py:96-100). -/
def ge (a b : Coll α κ ε) : Option Bool := if a.cls ≠ b.cls then none else some (decide (a.len ≥ b.len))

/-- `Collection.__eq__` (mkCollection.py:102-106): equality of the two sets. Set equality of Python compares
the sizes and looks up every element of one in the other. -/
def eq (a b : Coll α κ ε) : Option Bool :=
  if a.cls ≠ b.cls then none
  else some (decide (a.items.length = b.items.length) && a.items.all (fun x => decide (x ∈ b.items)))

/-- `Collection.__hash__` (mkCollection.py:85-86): `hash(sum(hash(i) for i in self))`; the element hash `h` and the
hash of integers `hashInt` are parameters. -/
def hash (h : α → Int) (hashInt : Int → Int) (c : Coll α κ ε) : Int :=
  hashInt ((c.items.map h).foldl (· + ·) 0)

/-- `Collection.add` (mkCollection.py:120-133). -/
def add (isInst : α → Bool) (tyName : α → String) (c : Coll α κ ε) (x : α) : Except CollErr (Coll α κ ε) :=
  if isInst x then
    .ok { c with items := PSet.add c.items x, types := PSet.add c.types (tyName x) }
  else .error .collectionTypeError

/-- `Collection.discard` (mkCollection.py:135-145). -/
def discard (c : Coll α κ ε) (x : α) : Coll α κ ε := { c with items := PSet.discard c.items x }

/-- `Collection.remove` (mkCollection.py:147-159). -/
def remove (c : Coll α κ ε) (x : α) : Except CollErr (Coll α κ ε) :=
  if x ∈ c.items then .ok { c with items := PSet.discard c.items x } else .error .keyError

/-- `Collection.clear` (mkCollection.py:161-166). -/
def clear (c : Coll α κ ε) : Coll α κ ε := { c with bad := false, errors := [], items := [] }

/-- `Collection.pop` (mkCollection.py:168-180). Python does not say which element `set.pop` removes: `choice` is the
schedule, reduced modulo the size, so every element can be the one chosen. -/
def pop (choice : Nat) (c : Coll α κ ε) : Except CollErr (α × Coll α κ ε) :=
  match c.items[choice % c.items.length]? with
  | none => .error .keyError
  | some x => .ok (x, { c with items := PSet.discard c.items x })

/-- `Collection.peek` (mkCollection.py:295-307). -/
def peek (c : Coll α κ ε) : Option α := c.items.head?

/-- The bookkeeping shared by the four in-place operators (mkCollection.py:187-192 and the copies at 199-204,
211-216, 223-228): `_collectedTypes |=`, new name, and `bad`/`errors`. -/
def inplaceWith (sym : String) (items : List α) (a b : Coll α κ ε) : Coll α κ ε :=
  { a with
    items := items
    types := PSet.union a.types b.types
    name := a.name ++ sym ++ b.name
    bad := if b.bad || a.bad then true else a.bad
    errors := if b.bad || a.bad then a.errors.update b.errors else a.errors }

/-- `Collection.__ior__` (mkCollection.py:182-192); `none` is `NotImplemented`. -/
def ior (a b : Coll α κ ε) : Option (Coll α κ ε) :=
  if a.cls ≠ b.cls then none else some (inplaceWith " |= " (PSet.union a.items b.items) a b)

/-- `Collection.__iand__` (mkCollection.py:194-204). -/
def iand (a b : Coll α κ ε) : Option (Coll α κ ε) :=
  if a.cls ≠ b.cls then none else some (inplaceWith " &= " (PSet.inter a.items b.items) a b)

/-- `Collection.__ixor__` (mkCollection.py:206-216). -/
def ixor (a b : Coll α κ ε) : Option (Coll α κ ε) :=
  if a.cls ≠ b.cls then none else some (inplaceWith " ^= " (PSet.symm a.items b.items) a b)

/-- `Collection.__isub__` (mkCollection.py:218-228). -/
def isub (a b : Coll α κ ε) : Option (Coll α κ ε) :=
  if a.cls ≠ b.cls then none else some (inplaceWith " -= " (PSet.diff a.items b.items) a b)

/-- The construction shared by the four binary operators (mkCollection.py:237-241 and the copies at 247-251,
257-261, 267-271): a fresh collection, then `bad`/`errors` from `other` when either operand is bad. -/
def binaryWith (sym : String) (items : List α) (a b : Coll α κ ε) : Coll α κ ε :=
  let ret : Coll α κ ε := fresh a.cls items (a.name ++ sym ++ b.name)
  if b.bad || a.bad then { ret with bad := true, errors := ret.errors.update b.errors } else ret

/-- `Collection.__or__` (mkCollection.py:233-241). -/
def or (a b : Coll α κ ε) : Option (Coll α κ ε) :=
  if a.cls ≠ b.cls then none else some (binaryWith " | " (PSet.union a.items b.items) a b)

/-- `Collection.__and__` (mkCollection.py:243-251). -/
def and (a b : Coll α κ ε) : Option (Coll α κ ε) :=
  if a.cls ≠ b.cls then none else some (binaryWith " & " (PSet.inter a.items b.items) a b)

/-- `Collection.__sub__` (mkCollection.py:253-261). -/
def sub (a b : Coll α κ ε) : Option (Coll α κ ε) :=
  if a.cls ≠ b.cls then none else some (binaryWith " - " (PSet.diff a.items b.items) a b)

/-- `Collection.__xor__` (mkCollection.py:263-271). -/
def xor (a b : Coll α κ ε) : Option (Coll α κ ε) :=
  if a.cls ≠ b.cls then none else some (binaryWith " ^ " (PSet.symm a.items b.items) a b)

/-- The loop body of `Collection.chunk` (mkCollection.py:327-333): `chunks` so far and `currentSize`.
`chunks[-1].add(i)` on an empty list of chunks would be an `IndexError`; `currentSize` starts above `maxSize`, so the
first element always opens a chunk. The type check inside `add` cannot fail here: `i` is already a member. -/
def chunkStep (cls name : String) (tyName : α → String) (maxSize : Int)
    (st : List (Coll α κ ε) × Int) (i : α) : Option (List (Coll α κ ε) × Int) :=
  if st.2 ≥ maxSize then
    some (st.1 ++ [fresh cls [i] ("Chunk-" ++ toString st.1.length ++ "-of-" ++ name)], 0 + 1)
  else
    match st.1.getLast? with
    | none => none
    | some last =>
      some (st.1.dropLast ++ [{ last with items := PSet.add last.items i
                                          types := PSet.add last.types (tyName i) }], st.2 + 1)

/-- `Collection.chunk` (mkCollection.py:309-334); `none` would be an `IndexError`. -/
def chunk (tyName : α → String) (c : Coll α κ ε) (maxSize : Int) : Option (List (Coll α κ ε)) :=
  (c.items.foldlM (chunkStep c.cls c.name tyName maxSize) ([], maxSize + 1)).map Prod.fst

/-- The `while True` loop of `Collection.split` (mkCollection.py:351-364). `sched n` is the choice of the `n`-th
`pop`. The loop ends with the `KeyError` that `pop` raises on the empty collection (`pop` is evaluated before
`chunks.append`, so the chunk list is unaffected by the failing iteration), then clears and renames. The recursion is
on the number of elements left, which each `pop` decreases. -/
def splitLoop (tyName : α → String) (maxSize : Int) (sched : Nat → Nat) :
    (fuel : Nat) → (n : Nat) → Coll α κ ε → List (Coll α κ ε) × Int →
    Option (List (Coll α κ ε) × Coll α κ ε)
  | fuel, n, c, st =>
    match c.pop (sched n) with
    | .error _ => some (st.1, { c.clear with name := "Emptied-" ++ c.name })
    | .ok (x, c') =>
      match fuel with
      | 0 => none
      | fuel + 1 =>
        match chunkStep c.cls c.name tyName maxSize st x with
        | none => none
        | some st' => splitLoop tyName maxSize sched fuel (n + 1) c' st'

/-- `Collection.split` (mkCollection.py:336-364): the returned chunks and the source afterwards. -/
def split (tyName : α → String) (sched : Nat → Nat) (c : Coll α κ ε) (maxSize : Int) :
    Option (List (Coll α κ ε) × Coll α κ ε) :=
  splitLoop tyName maxSize sched c.items.length 0 c ([], maxSize + 1)

end Coll
end Verif.Model
