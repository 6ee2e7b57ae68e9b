import Mathlib.Data.Finset.Basic
import Mathlib.Data.Finset.SymmDiff

/-!
# Specifications for collections

Nothing here refers to the model of the code.
-/
namespace Verif.Spec

/-- `parts` cuts `whole` into blocks of `size`: every element of `whole` is in exactly one block (the blocks laid end to
end are a rearrangement of `whole`), no block is empty, none is longer than `size`, and only the last may be shorter. -/
structure IsBlockPartition {α : Type} (size : Nat) (parts : List (List α)) (whole : List α) : Prop where
  cover : parts.flatten.Perm whole
  nonempty : ∀ p ∈ parts, p ≠ []
  bounded : ∀ p ∈ parts, p.length ≤ size
  full : ∀ p ∈ parts.dropLast, p.length = size

/-- What a user may do to a collection that changes it; `γ` is the type of the right operands. -/
inductive SetOp (α γ : Type)
  | add (x : α) | discard (x : α) | remove (x : α) | clear
  | pop
  | ior (other : γ) | iand (other : γ) | isub (other : γ) | ixor (other : γ)

/-- What the caller observes. -/
inductive SetOutcome (α : Type)
  | done | popped (x : α) | typeError | keyError | notImplemented
deriving DecidableEq

/-- The intended meaning of one operation on a mathematical finite set. `allowed` says which elements may be added;
`operand` reads a right operand as a set, `none` if it is a collection of another class. -/
def SetStep {α γ : Type} [DecidableEq α] (allowed : α → Prop) (operand : γ → Option (Finset α))
    (S : Finset α) : SetOp α γ → SetOutcome α → Finset α → Prop
  | .add x, out, S' => (allowed x ∧ out = .done ∧ S' = insert x S) ∨ (¬ allowed x ∧ out = .typeError ∧ S' = S)
  | .discard x, out, S' => out = .done ∧ S' = S.erase x
  | .remove x, out, S' => (x ∈ S ∧ out = .done ∧ S' = S.erase x) ∨ (x ∉ S ∧ out = .keyError ∧ S' = S)
  | .clear, out, S' => out = .done ∧ S' = ∅
  | .pop, out, S' => (∃ x ∈ S, out = .popped x ∧ S' = S.erase x) ∨ (S = ∅ ∧ out = .keyError ∧ S' = S)
  | .ior o, out, S' => OperandStep (operand o) (fun T => S ∪ T) out S'
  | .iand o, out, S' => OperandStep (operand o) (fun T => S ∩ T) out S'
  | .isub o, out, S' => OperandStep (operand o) (fun T => S \ T) out S'
  | .ixor o, out, S' => OperandStep (operand o) (fun T => (S \ T) ∪ (T \ S)) out S'
where
  /-- a set operation with an operand that may be of the wrong class -/
  OperandStep (T : Option (Finset α)) (f : Finset α → Finset α) (out : SetOutcome α) (S' : Finset α) : Prop :=
    match T with
    | some T => out = .done ∧ S' = f T
    | none => out = .notImplemented ∧ S' = S

/-- A history: a list of operations with what was observed, leading from `S` to `S'`. -/
inductive SetRun {α γ : Type} [DecidableEq α] (allowed : α → Prop) (operand : γ → Option (Finset α)) :
    Finset α → List (SetOp α γ × SetOutcome α) → Finset α → Prop
  | nil (S) : SetRun allowed operand S [] S
  | cons {S S' S'' op out rest} : SetStep allowed operand S op out S' → SetRun allowed operand S' rest S'' →
      SetRun allowed operand S ((op, out) :: rest) S''

end Verif.Spec
