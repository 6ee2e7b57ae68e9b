import Verif.Model.RecordAccess
import Verif.Py.Str

/-!
# A record as a mapping

`__iter__`, `__len__`, `values`, `items`, `__str__` and `__repr__` of `metaknowledge/mkRecord.py`, on the model of `__getitem__` in `Model/RecordAccess`. `keys()` and the views
`items()` and `values()` give are those of `collections.abc.Mapping`: going through one gets the next tag and then reads it.
-/
set_option autoImplicit false
namespace Verif.Model.RecordMapping
open Verif.Py Verif.Model.RecordAccess
variable {κ Raw V : Type} [DecidableEq κ]

/-- `list(R)` and `list(R.keys())` (mkRecord.py:117-120). -/
def keys (R : Rec κ Raw V) : List κ := R.fields.map Prod.fst

/-- `len(R)` (mkRecord.py:122-124), also of the views. -/
def len (R : Rec κ Raw V) : Nat := R.fields.length

/-- `list(R.items(raw = True))` (mkRecord.py:434-435). -/
def itemsRaw (R : Rec κ Raw V) : List (κ × Raw) := R.fields

/-- `list(R.values(raw = True))` (mkRecord.py:412-413). -/
def valuesRaw (R : Rec κ Raw V) : List Raw := R.fields.map Prod.snd

/-- An iterator of `R.items()` or of `R.values()`: the tags still to come, what it gave, and the exception that ended it. -/
structure Iter (κ V : Type) where
  todo : List κ
  out : List (κ × V)
  failed : Option AErr

/-- `iter(R.items())` (mkRecord.py:436-437). -/
def start (R : Rec κ Raw V) : Iter κ V := ⟨keys R, [], none⟩

/-- `next` of it: `ItemsView.__iter__` is `for key in self._mapping: yield (key, self._mapping[key])`, and an exception ends a generator. -/
def next (C : Cls κ Raw V) (n : Nat) (R : Rec κ Raw V) (it : Iter κ V) : Rec κ Raw V × Iter κ V :=
  match it.todo with
  | [] => (R, it)
  | k :: ks =>
    match getitem C n R k with
    | (.ok v, R') => (R', ⟨ks, it.out ++ [(k, v)], it.failed⟩)
    | (.error e, R') => (R', ⟨[], it.out, some e⟩)

/-- What a program does with a record: read something, begin to go through it, go on with one of the iterators. -/
inductive Act (κ V : Type) where
  | read (o : Op κ V)
  | start
  | next (i : Nat)

/-- The record with the iterators a program has begun. -/
abbrev St (κ Raw V : Type) := Rec κ Raw V × List (Iter κ V)

/-- One action. Going on with an iterator that was not begun does nothing. -/
def act (C : Cls κ Raw V) (n : Nat) (s : St κ Raw V) : Act κ V → St κ Raw V
  | .read o => (after C n s.1 o, s.2)
  | .start => (s.1, s.2 ++ [start s.1])
  | .next i => match s.2[i]? with
    | none => s
    | some it => let p := next C n s.1 it
      (p.1, s.2.set i p.2)

/-- `for x in …` to the end. -/
def exhaust (C : Cls κ Raw V) (n : Nat) : Nat → Rec κ Raw V → Iter κ V → Rec κ Raw V × Iter κ V
  | 0, R, it => (R, it)
  | m + 1, R, it => let p := next C n R it
    exhaust C n m p.1 p.2

/-- `list(R.items())` and `dict(R)`, or the exception (mkRecord.py:419-437). -/
def items (C : Cls κ Raw V) (n : Nat) (R : Rec κ Raw V) : Except AErr (List (κ × V)) :=
  let it := (exhaust C n (len R) R (start R)).2
  match it.failed with
  | some e => .error e
  | none => .ok it.out

/-- `list(R.values())` (mkRecord.py:398-415). -/
def values (C : Cls κ Raw V) (n : Nat) (R : Rec κ Raw V) : Except AErr (List V) := (items C n R).map (List.map Prod.snd)

/-- `(k, v) in R.items()` (`collections.abc.ItemsView.__contains__`). -/
def itemsContains [DecidableEq V] (C : Cls κ Raw V) (n : Nat) (R : Rec κ Raw V) (k : κ) (v : V) : Except AErr Bool :=
  match (getitem C n R k).1 with
  | .ok w => .ok (decide (w = v))
  | .error .keyError => .ok false
  | .error e => .error e

/-- `str(R)` (mkRecord.py:150-160). `text` is the text of a value. -/
def str (C : Cls String Raw V) (n : Nat) (text : V → Str) (cls ident : Str) (R : Rec String Raw V) : Except AErr Str :=
  match (getitem C n R "title").1 with
  | .ok v => .ok (cls ++ "(".toList ++ text v ++ ")".toList)
  | .error .keyError => .ok (cls ++ "(".toList ++ ident ++ ")".toList)
  | .error e => .error e

/-- `repr(R)` (mkRecord.py:162-174). -/
def repr (bad : Bool) (cls ident : Str) : Str :=
  if bad then "<metaknowledge.".toList ++ cls ++ " object BAD>".toList else "<metaknowledge.".toList ++ cls ++ " object ".toList ++ ident ++ ">".toList

end Verif.Model.RecordMapping
