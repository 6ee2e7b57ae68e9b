import Verif.Spec.Pipeline
import Verif.Model.Derived

/-!
# What an expression over files says

`Plan` is an expression over files given by their papers, and `Plan.Has` says which papers its collection is to have. `Verif.Model.Derived` is imported for the type of
expressions over the texts of files.
-/
set_option autoImplicit false
namespace Verif.Spec.Derived
open Verif.Py Verif.Spec.Pipeline

/-- How a collection is made from files of papers. -/
inductive Plan where
  | file (origin : Str) (papers : List Paper)
  | or (a b : Plan)
  | and (a b : Plan)
  | sub (a b : Plan)
  | xor (a b : Plan)
  | years (s e : Int) (dropMissing : Bool) (a : Plan)
  | ofType (ptVal : Str) (dropBad invert : Bool) (a : Plan)

/-- The same with the texts of the files. -/
def Plan.expr : Plan → Model.Derived.Expr
  | .file origin papers => .file (fileText origin papers)
  | .or a b => .or a.expr b.expr
  | .and a b => .and a.expr b.expr
  | .sub a b => .sub a.expr b.expr
  | .xor a b => .xor a.expr b.expr
  | .years s e m a => .years s e m a.expr
  | .ofType t b i a => .ofType t b i a.expr

/-- The paper says it is of this year. -/
def OfYear (p : Paper) (y : Nat) : Prop := 1000 ≤ y ∧ y < 10000 ∧ (linesOf p "PY").head? = some (showNat y)

/-- The paper is to be in the collection. -/
def Plan.Has (upper : Str → Str) : Plan → Paper → Prop
  | .file _ papers, p => p ∈ papers
  | .or a b, p => a.Has upper p ∨ b.Has upper p
  | .and a b, p => a.Has upper p ∧ b.Has upper p
  | .sub a b, p => a.Has upper p ∧ ¬ b.Has upper p
  | .xor a b, p => ¬ (a.Has upper p ↔ b.Has upper p)
  | .years s e _ a, p => a.Has upper p ∧ ∃ y : Nat, OfYear p y ∧ s ≤ y ∧ y ≤ e
  | .ofType t _ invert a, p => a.Has upper p ∧ (if invert then (linesOf p "PT").head? ≠ some (upper t) else (linesOf p "PT").head? = some (upper t))

/-- The files are files of papers of the pool, and where the plan insists on years or looks at types each paper has one. -/
def Plan.Ok (ws : Char → Bool) (upper : Str → Str) (pool : List Paper) : Plan → Prop
  | .file origin papers => FileOk ws origin papers ∧ ∀ p ∈ papers, p ∈ pool
  | .or a b => a.Ok ws upper pool ∧ b.Ok ws upper pool
  | .and a b => a.Ok ws upper pool ∧ b.Ok ws upper pool
  | .sub a b => a.Ok ws upper pool ∧ b.Ok ws upper pool
  | .xor a b => a.Ok ws upper pool ∧ b.Ok ws upper pool
  | .years _ _ dropMissing a => a.Ok ws upper pool ∧ (dropMissing = false → ∀ p ∈ pool, a.Has upper p → linesOf p "PY" ≠ [])
  | .ofType _ _ _ a => a.Ok ws upper pool ∧ ∀ p ∈ pool, a.Has upper p → linesOf p "PT" ≠ []

/-- Every paper of the pool has no year or one of four digits. -/
def YearsOk (pool : List Paper) : Prop := ∀ p ∈ pool, linesOf p "PY" = [] ∨ ∃ y : Nat, OfYear p y

end Verif.Spec.Derived
