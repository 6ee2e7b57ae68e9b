import Verif.Model.CollectionHeap

/-!
# Several collections, each a value of its own

What the calls mean when no two collections share anything: a copy is another collection with the same contents, the result of an operator is
another collection, and a mutating method changes the collection it is called on and no other. The effect on that one collection is the one
given by `Verif.Model.Collection`, which C01–C03 compare with mathematical sets.
-/
set_option autoImplicit false
namespace Verif.Spec.CollHeap
open Verif.Py Verif.Spec Verif.Model Verif.Model.CollHeap

variable {α κ ε : Type} [DecidableEq α] [DecidableEq κ]

/-- The right operand of a method, looked up among the collections. -/
def operand (l : List (Coll α κ ε)) : SetOp α Nat → Option (SetOp α (Coll α κ ε))
  | .add x => some (.add x)
  | .discard x => some (.discard x)
  | .remove x => some (.remove x)
  | .clear => some .clear
  | .pop => some .pop
  | .ior j => l[j]?.map .ior
  | .iand j => l[j]?.map .iand
  | .isub j => l[j]?.map .isub
  | .ixor j => l[j]?.map .ixor

/-- The result of an operator. -/
def result (s : Sym) (a b : Coll α κ ε) : Option (Coll α κ ε) :=
  match s with
  | .or => a.or b
  | .and => a.and b
  | .sub => a.sub b
  | .xor => a.xor b

/-- One call. -/
def step (isInst : α → Bool) (tyName : α → String) (choice : Nat) (l : List (Coll α κ ε)) : HOp α → List (Coll α κ ε) × SetOutcome α
  | .make cls items name => (l ++ [Coll.fresh cls items name], .done)
  | .copy i => match l[i]? with
    | some c => (l ++ [c], .done)
    | none => (l, .done)
  | .binary s i j => match l[i]?, l[j]? with
    | some a, some b => match result s a b with
      | some r => (l ++ [r], .done)
      | none => (l, .notImplemented)
    | _, _ => (l, .done)
  | .mutate i op => match l[i]?, operand l op with
    | some c, some op' =>
      let r := Coll.step isInst tyName choice c op'
      (l.set i r.1, r.2)
    | _, _ => (l, .done)

/-- A history. -/
def run (isInst : α → Bool) (tyName : α → String) (sched : Nat → Nat) :
    Nat → List (Coll α κ ε) → List (HOp α) → List (Coll α κ ε) × List (SetOutcome α)
  | _, l, [] => (l, [])
  | n, l, op :: ops =>
    let r := step isInst tyName (sched n) l op
    let rest := run isInst tyName sched (n + 1) r.1 ops
    (rest.1, r.2 :: rest.2)

end Verif.Spec.CollHeap
