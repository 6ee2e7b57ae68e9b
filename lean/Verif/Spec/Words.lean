import Verif.Py.Str

/-!
# Words of a text

What the cleaning options of `forNLP` and `forBurst` are to do, said about words. Nothing here uses the model.
-/
set_option autoImplicit false
namespace Verif.Spec.Words
open Verif.Py

/-- Words written one after the other with a single space between them. -/
def spaced : List Str → Str
  | [] => []
  | [w] => w
  | w :: v :: l => w ++ ' ' :: spaced (v :: l)

/-- `Words space s ws`: the text `s` is the words `ws`, which hold no white space, kept apart by runs of white space. Only the first word and
the last may be empty: the text may begin and end with white space. -/
inductive Words (space : Char → Bool) : Str → List Str → Prop
  | last (w : Str) (hw : ∀ c ∈ w, space c = false) : Words space w [w]
  | more (w r s v : Str) (l : List Str) (hw : ∀ c ∈ w, space c = false) (hr : r ≠ []) (hrs : ∀ c ∈ r, space c = true)
      (hv : v ≠ [] ∨ l = []) (hs : Words space s (v :: l)) : Words space (w ++ r ++ s) (w :: v :: l)

/-- The characters that are kept: `numbers`, `nonWords` say which are to be removed. -/
def cleaned (digit word : Char → Bool) (numbers nonWords : Bool) (w : Str) : Str :=
  w.filter (fun c => !(numbers && digit c) && !(nonWords && !word c))

/-- The words that are left when the occurrences of `d` are dropped from left to right; the word after a dropped one always stays, for the
space before it is gone. -/
def dropped (d : Str) : List Str → List Str
  | [] => []
  | [w] => if w = d then [] else [w]
  | w :: v :: l => if w = d then v :: dropped d l else w :: dropped d (v :: l)

end Verif.Spec.Words
