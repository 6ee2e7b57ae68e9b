import Verif.Model.Collection

/-!
# Making collections from iterables, and operators on collections and ordinary sets

Models the last two branches of `RecordCollection.__init__` and `GrantCollection.__init__`, and the operators of Python where an operand is a collection:
what the classes define (`Verif.Model.Collection`), what they inherit from `collections.abc.Set`, and the rule that calls one or the other. The methods
inherited are those of CPython's `_collections_abc.py`, which is not in /repo: `class Collection(collections.abc.MutableSet, …)` (mkCollection.py:24) takes
them over. Simplified: the two classes are not subclasses of each other; an iterator whose elements are rejected is not looked at again.
-/
set_option autoImplicit false
namespace Verif.Model.CollectionMixed
open Verif.Py Verif.Model

variable {α κ ε : Type} [DecidableEq α] [DecidableEq κ]

/-- Something that can be iterated over: something that stores its elements, such as a list, a set or a collection, or an iterator, such as a generator, with
the elements it has not given yet. -/
inductive Iter (α : Type) where
  | stored (items : List α)
  | once (left : List α)
deriving DecidableEq

/-- The elements a `for` loop over it gets, and what it is afterwards. -/
def Iter.pass : Iter α → List α × Iter α
  | .stored l => (l, .stored l)
  | .once l => (l, .once [])

/-- The exceptions: `RCTypeError`, `GrantCollectionException`, the `TypeError` of an operator, and the `UnboundLocalError` for `cacheName`. -/
inductive Err where
  | rcTypeError | grantCollectionException | typeError | unboundLocalError
deriving DecidableEq, Repr

/-- The two classes. -/
inductive Kind where
  | records | grants
deriving DecidableEq, Repr

/-- The name of the class. -/
def Kind.cls : Kind → String
  | .records => "RecordCollection"
  | .grants => "GrantCollection"

/-- `RecordCollection(it, name, cached)` (recordCollection.py:71-81, 152-170) and `GrantCollection(it, name, cached)` (grantCollection.py:21-33, 122-140) for something
that can be iterated over and is no string: first all elements are checked, then the set is made. `isInst` says which objects are records or grants, `typeName` is the
name of the type of the argument. Only the first class looks whether there is a cache file before it writes it. -/
def make (isInst : Kind → α → Bool) (kind : Kind) (name typeName : String) (cached : Bool) (it : Iter α) : Except Err (Coll α κ ε) :=
  let p := it.pass
  match kind with
  | .records =>
    if p.1.all (isInst .records) then .ok (Coll.fresh kind.cls p.2.pass.1 name) else .error .rcTypeError
  | .grants =>
    if p.1.all (isInst .grants) then
      if cached then .error .unboundLocalError
      else .ok (Coll.fresh kind.cls p.2.pass.1 (if name = "" then "Grants-from-a-" ++ typeName else name))
    else .error .grantCollectionException

/-- `RecordCollection()` and `GrantCollection()` (recordCollection.py:82-86, grantCollection.py:34-38). -/
def makeEmpty (kind : Kind) (name : String) (cached : Bool) : Except Err (Coll α κ ε) :=
  if kind = .grants ∧ cached = true then .error .unboundLocalError
  else .ok (Coll.fresh kind.cls [] (if name = "" then "Empty" else name))

/-- An operand: a collection of one of the classes, or an ordinary set. -/
inductive Val (α κ ε : Type) where
  | coll (k : Kind) (c : Coll α κ ε)
  | set (s : List α)

/-- The elements. -/
def Val.items : Val α κ ε → List α
  | .coll _ c => c.items
  | .set s => s

variable (isInst : Kind → α → Bool)

/-- `Set._from_iterable` with a generator. -/
def fromGenerator (k : Kind) (l : List α) : Except Err (Val α κ ε) :=
  match make isInst k "" "generator" false (.once l) with
  | .ok c => .ok (.coll k c)
  | .error e => .error e

/-- `Set.__ror__`, which is `Set.__or__`, called as `c.__ror__(other)`. -/
def ror (k : Kind) (c : Coll α κ ε) (other : List α) : Except Err (Val α κ ε) := fromGenerator isInst k (c.items ++ other)

/-- `Set.__rand__`. -/
def rand (k : Kind) (c : Coll α κ ε) (other : List α) : Except Err (Val α κ ε) :=
  fromGenerator isInst k (other.filter (fun x => decide (x ∈ c.items)))

/-- `Set.__rsub__`. -/
def rsub (k : Kind) (c : Coll α κ ε) (other : List α) : Except Err (Val α κ ε) :=
  fromGenerator isInst k (other.filter (fun x => decide (x ∉ c.items)))

/-- The result of a method of the left operand, when it is defined. -/
def given (k : Kind) : Option (Coll α κ ε) → Except Err (Val α κ ε) → Except Err (Val α κ ε)
  | some c, _ => .ok (.coll k c)
  | none, reflected => reflected

/-- `x | y`: the method of `x` (mkCollection.py:233-241), and when it returns `NotImplemented` the reflected one of `y`. -/
def opOr : Val α κ ε → Val α κ ε → Except Err (Val α κ ε)
  | .set s, .set t => .ok (.set (PSet.union s t))
  | .coll k a, .coll k' b => given k (a.or b) (ror isInst k' b a.items)
  | .coll _ _, .set _ => .error .typeError
  | .set s, .coll k c => ror isInst k c s

/-- `x & y` (mkCollection.py:243-251). -/
def opAnd : Val α κ ε → Val α κ ε → Except Err (Val α κ ε)
  | .set s, .set t => .ok (.set (PSet.inter s t))
  | .coll k a, .coll k' b => given k (a.and b) (rand isInst k' b a.items)
  | .coll _ _, .set _ => .error .typeError
  | .set s, .coll k c => rand isInst k c s

/-- `x - y` (mkCollection.py:253-261). -/
def opSub : Val α κ ε → Val α κ ε → Except Err (Val α κ ε)
  | .set s, .set t => .ok (.set (PSet.diff s t))
  | .coll k a, .coll k' b => given k (a.sub b) (rsub isInst k' b a.items)
  | .coll _ _, .set _ => .error .typeError
  | .set s, .coll k c => rsub isInst k c s

/-- `Set.__rxor__`, which is `Set.__xor__`: `(self - other) | (other - self)`. -/
def rxor (self other : Val α κ ε) : Except Err (Val α κ ε) :=
  match opSub isInst self other with
  | .error e => .error e
  | .ok l =>
    match opSub isInst other self with
    | .error e => .error e
    | .ok r => opOr isInst l r

/-- `x ^ y` (mkCollection.py:263-271). -/
def opXor : Val α κ ε → Val α κ ε → Except Err (Val α κ ε)
  | .set s, .set t => .ok (.set (PSet.symm s t))
  | .coll k a, .coll k' b => given k (a.xor b) (rxor isInst (.coll k' b) (.coll k a))
  | .coll _ _, .set _ => .error .typeError
  | .set s, .coll k c => rxor isInst (.coll k c) (.set s)

/-- `s |= y` for an ordinary set: `set.__ior__` declines what is no set, and `s = s | y` is done instead. -/
def assignOr (s : List α) : Val α κ ε → Except Err (Val α κ ε)
  | .set t => .ok (.set (PSet.union s t))
  | .coll k c => opOr isInst (.set s) (.coll k c)

/-- `Set.__lt__` and `Set.__gt__`: `none` is `NotImplemented`; `cmp` is the `__le__` or `__ge__` called (mkCollection.py:90-100). -/
def strict (shorter : Bool) (cmp : Option Bool) : Option Bool := if shorter then cmp else some false

/-- `x < y`. The methods `<`, `>`, `<=` and `>=` of ordinary sets decline collections. -/
def opLt : Val α κ ε → Val α κ ε → Except Err Bool
  | .set s, .set t => .ok (s.all (fun x => decide (x ∈ t)) && decide (s.length < t.length))
  | .coll _ a, .coll _ b =>
    match strict (decide (a.len < b.len)) (a.le b) with
    | some r => .ok r
    | none => match strict (decide (b.len > a.len)) (b.ge a) with
      | some r => .ok r
      | none => .error .typeError
  | .coll _ a, .set s => match strict (decide (a.len < s.length)) none with
    | some r => .ok r
    | none => .error .typeError
  | .set s, .coll _ c => match strict (decide (c.len > s.length)) none with
    | some r => .ok r
    | none => .error .typeError

/-- `x <= y`. -/
def opLe : Val α κ ε → Val α κ ε → Except Err Bool
  | .set s, .set t => .ok (s.all (fun x => decide (x ∈ t)))
  | .coll _ a, .coll _ b =>
    match a.le b with
    | some r => .ok r
    | none => match b.ge a with
      | some r => .ok r
      | none => .error .typeError
  | .coll _ _, .set _ => .error .typeError
  | .set _, .coll _ _ => .error .typeError

/-- `x == y` for different objects: when both decline they are not the same object. -/
def opEq : Val α κ ε → Val α κ ε → Bool
  | .set s, .set t => s.all (fun x => decide (x ∈ t)) && t.all (fun x => decide (x ∈ s))
  | .coll _ a, .coll _ b => (a.eq b).getD false
  | .coll _ _, .set _ => false
  | .set _, .coll _ _ => false

/-- `Set.isdisjoint`. -/
def isdisjoint (c : Coll α κ ε) : List α → Bool
  | [] => true
  | x :: xs => if x ∈ c.items then false else isdisjoint c xs

end Verif.Model.CollectionMixed
