import Verif.Model.Collection
import Verif.Spec.Collection

/-! # Histories of mutating calls on a `Collection` -/
set_option autoImplicit false

namespace Verif.Model.Coll
open Verif.Py Verif.Spec
variable {α κ ε : Type} [DecidableEq α] [DecidableEq κ]

/-- One user call on a collection (dispatch over the methods of mkCollection.py:120-228). `choice` decides which element
`pop` takes. A method that raises leaves the object as it was; an in-place operator may return
`NotImplemented`; the object is then as it was, and what the interpreter tries next is modelled in `Verif.Model.CollectionMixed`. -/
def step (isInst : α → Bool) (tyName : α → String) (choice : Nat) (c : Coll α κ ε) :
    SetOp α (Coll α κ ε) → Coll α κ ε × SetOutcome α
  | .add x => match c.add isInst tyName x with
    | .ok c' => (c', .done)
    | .error .collectionTypeError => (c, .typeError)
    | .error .keyError => (c, .keyError)
  | .discard x => (c.discard x, .done)
  | .remove x => match c.remove x with
    | .ok c' => (c', .done)
    | .error .collectionTypeError => (c, .typeError)
    | .error .keyError => (c, .keyError)
  | .clear => (c.clear, .done)
  | .pop => match c.pop choice with
    | .ok (x, c') => (c', .popped x)
    | .error .collectionTypeError => (c, .typeError)
    | .error .keyError => (c, .keyError)
  | .ior o => inplace c (c.ior o)
  | .iand o => inplace c (c.iand o)
  | .isub o => inplace c (c.isub o)
  | .ixor o => inplace c (c.ixor o)
where
  /-- the result of an in-place operator, `none` being `NotImplemented` -/
  inplace (c : Coll α κ ε) : Option (Coll α κ ε) → Coll α κ ε × SetOutcome α
    | some c' => (c', .done)
    | none => (c, .notImplemented)

/-- A whole history with the observations; `sched` gives the choices of the `pop`s. -/
def run (isInst : α → Bool) (tyName : α → String) (sched : Nat → Nat) :
    Nat → Coll α κ ε → List (SetOp α (Coll α κ ε)) → Coll α κ ε × List (SetOp α (Coll α κ ε) × SetOutcome α)
  | _, c, [] => (c, [])
  | n, c, op :: ops =>
    let r := step isInst tyName (sched n) c op
    let rest := run isInst tyName sched (n + 1) r.1 ops
    (rest.1, (op, r.2) :: rest.2)

end Verif.Model.Coll
