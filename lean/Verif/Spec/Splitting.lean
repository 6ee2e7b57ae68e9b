import Verif.Py.Str

/-!
# Splitting a text at a separator, and trimming
-/
set_option autoImplicit false
namespace Verif.Spec.Splitting
open Verif.Py

/-- `Splits sep s ps`: `ps` are the pieces of `s` between the occurrences of `sep`, found from the left. A piece in front of a separator ends at
the first occurrence: none starts inside of it. -/
inductive Splits (sep : Str) : Str → List Str → Prop where
  | last (p : Str) : ¬ sep <:+: p → Splits sep p [p]
  | cons (p s : Str) (ps : List Str) : ¬ sep <:+: p ++ sep.dropLast → Splits sep s ps → Splits sep (p ++ sep ++ s) (p :: ps)

/-- `Trimmed ws p q`: `q` is `p` without the white space at its ends. -/
def Trimmed (ws : Char → Bool) (p q : Str) : Prop :=
  ∃ a b, p = a ++ q ++ b ∧ (∀ c ∈ a, ws c = true) ∧ (∀ c ∈ b, ws c = true) ∧ (∀ c, q.head? = some c → ws c = false) ∧ ∀ c, q.getLast? = some c → ws c = false

end Verif.Spec.Splitting
