import Verif.Model.WosFields
import Verif.Model.TagNames

/-!
# Records as objects in memory: reads, copies and changes of the lists a record gives out

`Verif.Model.RecordAccess` takes values to be immutable. Here the lists have addresses, so that it can be said which lists of a record, of its copy
and of the caller are the same list. A list of citations is kept as the list of the strings they are made from. Special functions are values of the
class; `selfCitation`, which reads other tags first, is left out.
-/
set_option autoImplicit false
namespace Verif.Model.RecordHeap
open Verif.Py

/-- The lists in memory; an address is a position. -/
abbrev Heap := List (List Str)

/-- A value as the caller sees it: a list, or something that cannot be changed (a string, a number). -/
inductive Seen (V : Type)
  | list (l : List Str)
  | atom (v : V)
  deriving DecidableEq

/-- A value as it is stored: a list is its address. -/
inductive Ref (V : Type)
  | obj (a : Nat)
  | val (v : V)
  deriving DecidableEq

/-- What `tagProcessingFunc(tag)` does with the raw list: return that list itself (`return val`, `lambda x: x`), or make a new value from it (`none`
is an exception). -/
inductive Proc (V : Type)
  | same
  | made (f : List Str → Option (Seen V))

/-- A subclass of `ExtendedRecord` (mkRecord.py:469-532) and what its special functions give for the record (`none` is `KeyError`). -/
structure Cls (V : Type) where
  alt : Str → Option Str
  proc : Str → Proc V
  special : Str → Option (Seen V)

/-- The two dictionaries of a record (mkRecord.py:86, 317). -/
structure Rec (V : Type) where
  fields : Dict Str Nat
  memo : Dict Str (Ref V)

variable {V : Type}

/-- A list that has just been made gets a new address. -/
def make (h : Heap) : Seen V → Ref V × Heap
  | .list l => (.obj h.length, h ++ [l])
  | .atom v => (.val v, h)

/-- What the caller sees. -/
def deref (h : Heap) : Ref V → Seen V
  | .obj a => .list (h.getD a [])
  | .val v => .atom v

/-- `self.tagProcessingFunc(key)(self._fieldDict[key])` (mkRecord.py:345, 348). -/
def process (C : Cls V) (h : Heap) (tag : Str) (a : Nat) : Option (Ref V × Heap) :=
  match C.proc tag with
  | .same => some (.obj a, h)
  | .made f => (f (h.getD a [])).map (make h)

/-- The end of `__getitem__` (mkRecord.py:355-359): both names get the same object. -/
def store (C : Cls V) (R : Rec V) (key : Str) (r : Ref V) : Rec V :=
  match C.alt key with
  | some b => ⟨R.fields, (R.memo.set key r).set b r⟩
  | none => ⟨R.fields, R.memo.set key r⟩

/-- The value is stored and returned, or an exception is passed on. -/
def finish (C : Cls V) (h : Heap) (R : Rec V) (key : Str) : Option (Ref V × Heap) → Option (Ref V) × Heap × Rec V
  | none => (none, h, R)
  | some p => (some p.1, p.2, store C R key p.1)

/-- The field an access is about (mkRecord.py:344-347): the key, or its other name. -/
def resolve (C : Cls V) (F : Dict Str Nat) (key : Str) : Option (Str × Nat) :=
  match F.get? key with
  | some a => some (key, a)
  | none => match C.alt key with
    | none => none
    | some b => (F.get? b).map (fun a => (b, a))

/-- `ExtendedRecord.__getitem__` (mkRecord.py:337-363); `none` is an exception. -/
def read (C : Cls V) (h : Heap) (R : Rec V) (key : Str) : Option (Ref V) × Heap × Rec V :=
  match R.memo.get? key with
  | some r => (some r, h, R)
  | none =>
    match resolve C R.fields key with
    | some p => finish C h R p.1 (process C h p.1 p.2)
    | none => finish C h R key ((C.special key).map (make h))

/-- `copy()` and `copy.copy`, through `__getstate__` and `__setstate__` (mkRecord.py:192-200, 202-213, 444-452): a new dictionary with the same lists, and an empty memo. -/
def copy (R : Rec V) : Rec V := ⟨R.fields, []⟩

/-- Some records that share the memory. -/
structure World (V : Type) where
  heap : Heap
  recs : List (Rec V)

/-- Things a program does: read a tag of a record, copy a record (the copy is put last), or read a tag and change the list it got, if it is one, so that
it contains `l`. -/
inductive Op
  | read (i : Nat) (k : Str)
  | copy (i : Nat)
  | change (i : Nat) (k : Str) (l : List Str)

/-- The change of a list the caller holds. -/
def overwrite (h : Heap) (l : List Str) : Option (Ref V) → Heap
  | some (.obj a) => h.set a l
  | _ => h

def step (C : Cls V) (w : World V) : Op → World V
  | .read i k => match w.recs[i]? with
    | none => w
    | some R => let p := read C w.heap R k; ⟨p.2.1, w.recs.set i p.2.2⟩
  | .copy i => match w.recs[i]? with
    | none => w
    | some R => ⟨w.heap, w.recs ++ [copy R]⟩
  | .change i k l => match w.recs[i]? with
    | none => w
    | some R => let p := read C w.heap R k; ⟨overwrite p.2.1 l p.1, w.recs.set i p.2.2⟩

def run (C : Cls V) (w : World V) (ops : List Op) : World V := ops.foldl (step C) w

/-- What the caller sees of `R[k]`. -/
def look (C : Cls V) (h : Heap) (R : Rec V) (k : Str) : Option (Seen V) := let p := read C h R k; p.1.map (deref p.2.1)

/-- The raw fields, as `values(raw = True)`, `items(raw = True)` (mkRecord.py:417-442) and `writeRecord` see them. -/
def raw (h : Heap) (R : Rec V) : List (Str × List Str) := R.fields.map (fun p => (p.1, h.getD p.2 []))

/-! ## Web of Science records -/

open Verif.Model in
/-- What the caller sees of a processed value. -/
def seen : WosFields.FVal → Seen (Str ⊕ Int)
  | .text s => .atom (.inl s)
  | .texts l => .list l
  | .num n => .atom (.inr n)
  | .cites l => .list l

open Verif.Model in
/-- `WOSRecord` (WOS/recordWOS.py:96-111) with the functions of WOS/tagProcessing/tagFunctions.py; `ident` is the id of the record. -/
def wosCls (P : WosFields.Prims) (ident : Str) : Cls (Str ⊕ Int) where
  alt := TagNames.wosAlt
  proc := fun tag => match WosFields.wosKinds.get? tag with
    | none => .same
    | some .whole => .same
    | some k => .made (fun val => ((WosFields.process P k val).toOption).map seen)
  special := fun k => if k = "id".toList then some (.atom (.inl ident)) else if k = "grants".toList then some (.list []) else none

end Verif.Model.RecordHeap
