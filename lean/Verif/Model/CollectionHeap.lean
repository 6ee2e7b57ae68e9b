import Verif.Model.CollectionRun
import Mathlib.Logic.Function.Basic

/-!
# Model of `metaknowledge/mkCollection.py`, class `Collection`, with references

The same methods as in `Verif.Model.Collection`, but several collections live side by side and their sets and dictionaries are kept in a
store under addresses, as Python does: an assignment to an attribute changes the address, an in-place operation changes what is stored
there. `_collection`, `_collectedTypes` and `errors` have a store each; all addresses come from one counter. `_allowedTypes` is never
changed. A collection is named by its position in the list of collections made so far.
-/
set_option autoImplicit false
namespace Verif.Model.CollHeap
open Verif.Py Verif.Spec Verif.Model

variable {α κ ε : Type} [DecidableEq α] [DecidableEq κ]

/-- A `Collection` object: the addresses of its set, its collected types and its errors (mkCollection.py:73-81). -/
structure Obj where
  cls : String
  name : String
  bad : Bool
  items : Nat
  types : Nat
  errors : Nat

/-- The store, the next free address, and the collections. -/
structure Heap (α κ ε : Type) where
  sets : Nat → List α
  tys : Nat → List String
  errs : Nat → Dict κ ε
  next : Nat
  objs : List Obj

/-- The four operators. -/
inductive Sym where
  | or | and | sub | xor
deriving DecidableEq

/-- What the caller does: make a collection from elements, copy one, apply a binary operator to two, or call a mutating method, whose right
operand is again one of the collections. -/
inductive HOp (α : Type) where
  | make (cls : String) (items : List α) (name : String)
  | copy (i : Nat)
  | binary (s : Sym) (i j : Nat)
  | mutate (i : Nat) (op : SetOp α Nat)

/-- The set operation of an operator. -/
def Sym.app (s : Sym) (a b : List α) : List α :=
  match s with
  | .or => PSet.union a b
  | .and => PSet.inter a b
  | .sub => PSet.diff a b
  | .xor => PSet.symm a b

/-- Its symbol in names. -/
def Sym.txt : Sym → String
  | .or => "|" | .and => "&" | .sub => "-" | .xor => "^"

/-- A new object with a set, types and errors of its own (recordCollection.py:78-81,152-160; grantCollection.py likewise). -/
def alloc (h : Heap α κ ε) (cls name : String) (bad : Bool) (items : List α) (types : List String) (errors : Dict κ ε) : Heap α κ ε :=
  { sets := Function.update h.sets h.next items
    tys := Function.update h.tys h.next types
    errs := Function.update h.errs h.next errors
    next := h.next + 1
    objs := h.objs ++ [⟨cls, name, bad, h.next, h.next, h.next⟩] }

/-- `Collection.copy` (mkCollection.py:279-293): the copy gets a new set and new errors; the types of `self` are replaced by a copy, and
the copy keeps the old ones. -/
def copy (h : Heap α κ ε) (i : Nat) (o : Obj) : Heap α κ ε :=
  { h with
    sets := Function.update h.sets h.next (h.sets o.items)
    tys := Function.update h.tys h.next (h.tys o.types)
    errs := Function.update h.errs h.next (h.errs o.errors)
    next := h.next + 1
    objs := h.objs.set i { o with types := h.next } ++ [{ o with items := h.next, errors := h.next }] }

/-- The binary operators (mkCollection.py:233-271); the flag says whether the classes agreed. -/
def binary (h : Heap α κ ε) (s : Sym) (a b : Obj) : Heap α κ ε × Bool :=
  if a.cls ≠ b.cls then (h, false)
  else
    let bad := b.bad || a.bad
    (alloc h a.cls (a.name ++ (" " ++ s.txt ++ " ") ++ b.name) bad (PSet.ofList (s.app (h.sets a.items) (h.sets b.items))) []
      (if bad then Dict.update [] (h.errs b.errors) else []), true)

/-- The in-place operators (mkCollection.py:182-228): `_collection` and `_collectedTypes` are changed where they are stored, `errors` is
updated where it is stored when one of the collections is bad. -/
def inplace (h : Heap α κ ε) (s : Sym) (i : Nat) (a b : Obj) : Heap α κ ε × SetOutcome α :=
  if a.cls ≠ b.cls then (h, .notImplemented)
  else
    let bad := b.bad || a.bad
    ({ h with
       sets := Function.update h.sets a.items (s.app (h.sets a.items) (h.sets b.items))
       tys := Function.update h.tys a.types (PSet.union (h.tys a.types) (h.tys b.types))
       errs := if bad then Function.update h.errs a.errors ((h.errs a.errors).update (h.errs b.errors)) else h.errs
       objs := h.objs.set i { a with name := a.name ++ (" " ++ s.txt ++ "= ") ++ b.name, bad := if bad then true else a.bad } }, .done)

/-- The mutating methods (mkCollection.py:120-228) on the object `a` at position `i`. `clear` empties the set where it is stored and makes a
new dictionary of errors. A position that does not exist as right operand is not a case of the code; nothing happens. -/
def mutate (isInst : α → Bool) (tyName : α → String) (choice : Nat) (h : Heap α κ ε) (i : Nat) (a : Obj) :
    SetOp α Nat → Heap α κ ε × SetOutcome α
  | .add x =>
    if isInst x then
      ({ h with sets := Function.update h.sets a.items (PSet.add (h.sets a.items) x)
                tys := Function.update h.tys a.types (PSet.add (h.tys a.types) (tyName x)) }, .done)
    else (h, .typeError)
  | .discard x => ({ h with sets := Function.update h.sets a.items (PSet.discard (h.sets a.items) x) }, .done)
  | .remove x =>
    if x ∈ h.sets a.items then ({ h with sets := Function.update h.sets a.items (PSet.discard (h.sets a.items) x) }, .done)
    else (h, .keyError)
  | .clear =>
    ({ h with sets := Function.update h.sets a.items []
              errs := Function.update h.errs h.next []
              next := h.next + 1
              objs := h.objs.set i { a with bad := false, errors := h.next } }, .done)
  | .pop =>
    match (h.sets a.items)[choice % (h.sets a.items).length]? with
    | none => (h, .keyError)
    | some x => ({ h with sets := Function.update h.sets a.items (PSet.discard (h.sets a.items) x) }, .popped x)
  | .ior j => match h.objs[j]? with
    | some b => inplace h .or i a b
    | none => (h, .done)
  | .iand j => match h.objs[j]? with
    | some b => inplace h .and i a b
    | none => (h, .done)
  | .isub j => match h.objs[j]? with
    | some b => inplace h .sub i a b
    | none => (h, .done)
  | .ixor j => match h.objs[j]? with
    | some b => inplace h .xor i a b
    | none => (h, .done)

/-- One call. Positions that do not exist are not a case of the code; nothing happens. -/
def step (isInst : α → Bool) (tyName : α → String) (choice : Nat) (h : Heap α κ ε) : HOp α → Heap α κ ε × SetOutcome α
  | .make cls items name => (alloc h cls name false (PSet.ofList items) [] [], .done)
  | .copy i => match h.objs[i]? with
    | some o => (copy h i o, .done)
    | none => (h, .done)
  | .binary s i j => match h.objs[i]?, h.objs[j]? with
    | some a, some b =>
      let r := binary h s a b
      (r.1, if r.2 then .done else .notImplemented)
    | _, _ => (h, .done)
  | .mutate i op => match h.objs[i]? with
    | some a => mutate isInst tyName choice h i a op
    | none => (h, .done)

/-- A history; `sched` gives the choices of the `pop`s. -/
def run (isInst : α → Bool) (tyName : α → String) (sched : Nat → Nat) :
    Nat → Heap α κ ε → List (HOp α) → Heap α κ ε × List (SetOutcome α)
  | _, h, [] => (h, [])
  | n, h, op :: ops =>
    let r := step isInst tyName (sched n) h op
    let rest := run isInst tyName sched (n + 1) r.1 ops
    (rest.1, r.2 :: rest.2)

/-- Nothing made yet. -/
def empty : Heap α κ ε := ⟨fun _ => [], fun _ => [], fun _ => [], 0, []⟩

/-- What the caller sees of an object. -/
def view (h : Heap α κ ε) (o : Obj) : Coll α κ ε :=
  ⟨o.cls, h.sets o.items, h.tys o.types, o.name, o.bad, h.errs o.errors⟩

/-- What the caller sees of all collections. -/
def views (h : Heap α κ ε) : List (Coll α κ ε) := h.objs.map (view h)

end Verif.Model.CollHeap
