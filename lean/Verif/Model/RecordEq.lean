import Verif.Py.Str

/-!
# Model of equality and hashing of records (`metaknowledge/mkRecord.py`)

Python's `hash` of strings and IDs is an arbitrary function; the subclass relation of the classes is an argument.
-/
set_option autoImplicit false
namespace Verif.Model.RecordEq
open Verif.Py

variable {C I : Type} [DecidableEq C]

/-- What hashing reads of a record (mkRecord.py:75-86): its class, the flag, the ID, `str(self._fieldDict.values())` and `str(self.error)`.
`obj` tells objects apart (`is`). -/
structure Rec (C I : Type) where
  obj : Nat
  cls : C
  bad : Bool
  id : I
  values : Str
  error : Str

/-- The hash function of this run of Python, and the subclass relation. -/
structure World (C I : Type) where
  hashStr : Str → Int
  hashId : I → Int
  sub : C → C → Bool

/-- `Record.__hash__` (mkRecord.py:90-104). -/
def recHash (w : World C I) (r : Rec C I) : Int :=
  if r.bad then w.hashStr (r.values ++ r.error) else w.hashId r.id

/-- `Record.__eq__` (mkRecord.py:128-146); `none` is `NotImplemented`. -/
def eqMethod (w : World C I) (a b : Rec C I) : Option Bool :=
  if !(w.sub b.cls a.cls) then none else some (recHash w a == recHash w b)

/-- `a == b` of Python: the right operand is asked first when its class is a proper subclass; when both methods give `NotImplemented`, the
objects are compared by identity. -/
def pyEq (w : World C I) (a b : Rec C I) : Bool :=
  let first := if a.cls ≠ b.cls ∧ w.sub b.cls a.cls then (b, a) else (a, b)
  match eqMethod w first.1 first.2 with
  | some x => x
  | none => match eqMethod w first.2 first.1 with
    | some x => x
    | none => a.obj == b.obj

/-- Membership in a Python set: same hash, and identical or equal. -/
def inSet (w : World C I) (s : List (Rec C I)) (r : Rec C I) : Bool :=
  s.any (fun x => recHash w x == recHash w r && (x.obj == r.obj || pyEq w x r))

/-- `s.add(r)`: nothing happens when an equal record is in. -/
def setAdd (w : World C I) (s : List (Rec C I)) (r : Rec C I) : List (Rec C I) :=
  if inSet w s r then s else s ++ [r]

/-- `set(rs)`. -/
def toSet (w : World C I) (rs : List (Rec C I)) : List (Rec C I) := rs.foldl (setAdd w) []

/-- The record classes (mkRecord.py:28, 229; grants/baseGrant.py:14, 131 and the class lines of the other record and grant modules). -/
inductive Cls where
  | record | extendedRecord | wos | medline | scopus | proQuest
  | grant | fallbackGrant | scopusGrant | nsercGrant | nsfGrant | medlineGrant | cihrGrant
deriving DecidableEq, Repr

/-- The base class that each class line names. -/
def Cls.base : Cls → Option Cls
  | .record => none
  | .extendedRecord | .grant => some .record
  | .wos | .medline | .scopus | .proQuest => some .extendedRecord
  | .fallbackGrant | .scopusGrant | .nsercGrant | .nsfGrant | .medlineGrant | .cihrGrant => some .grant

/-- `issubclass(c, d)`: `d` is reached from `c` by going to the base class; no chain is longer than two. -/
def Cls.sub (c d : Cls) : Bool :=
  c = d || c.base = some d || (c.base.bind Cls.base) = some d

end Verif.Model.RecordEq
