import Mathlib.Data.List.Infix

/-!
# Python strings

A string is the list of its characters. Nothing here models a particular file of /repo.
-/
set_option autoImplicit false
namespace Verif.Py

abbrev Str := List Char

namespace Str

/-- `k in s` -/
def contains (k : Str) : Str → Bool
  | [] => k.isEmpty
  | c :: s => k.isPrefixOf (c :: s) || contains k s

theorem contains_iff (k s : Str) : contains k s = true ↔ k <:+: s := by
  induction s with
  | nil => simp [contains]
  | cons c s ih =>
    rw [contains, Bool.or_eq_true, ih, List.isPrefixOf_iff_prefix, List.infix_cons_iff]

end Str
end Verif.Py
