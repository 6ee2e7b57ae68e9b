import Verif.Py.Str

/-!
# How BibTeX reads a value

A value is a text in quotes, without quotes inside, a text in braces, or several texts in quotes joined by ` # `, which stand for their concatenation.
-/
set_option autoImplicit false
namespace Verif.Spec.Bib
open Verif.Py

/-- `Reads v ps`: the value `v` consists of the texts `ps`. -/
inductive Reads : Str → List Str → Prop where
  | quoted (p : Str) : '"' ∉ p → Reads ("\"".toList ++ p ++ "\"".toList) [p]
  | concat (p v : Str) (ps : List Str) : '"' ∉ p → Reads ("\"".toList ++ v) ps → Reads ("\"".toList ++ p ++ "\" # \"".toList ++ v) (p :: ps)
  | braced (p : Str) : Reads ("{".toList ++ p ++ "}".toList) [p]

/-- The documented changes to a text: quotes are left out of a text that is split up, braces are escaped in one put into braces. -/
def withoutQuotes (s : Str) : Str := s.filter (fun c => c ≠ '"')

def escaped (s : Str) : Str := s.flatMap (fun c => if c = '{' then ['\\', '{'] else if c = '}' then ['\\', '}'] else [c])

end Verif.Spec.Bib
