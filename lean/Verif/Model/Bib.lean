import Verif.Py.StrOps

/-!
# BibTeX values

Models `_bibFormatter` of `metaknowledge/mkRecord.py`.
-/
set_option autoImplicit false
namespace Verif.Model.Bib
open Verif.Py

/-- A field value: a string, a list (whose members are given by their `str`) or anything else (given by its `str`). -/
inductive Value where
  | str (s : Str)
  | list (l : List Str)
  | other (s : Str)

/-- The text of a value (mkRecord.py:777-780). -/
def Value.text : Value → Str
  | .str s => s
  | .list l => Str.join " and ".toList l
  | .other s => s

/-- The slices `s[i * m: (i + 1) * m]` for `i in range(len(s) // m)` (mkRecord.py:783); for a negative `m` the range is empty. -/
def pieces (s : Str) (m : Int) : List Str :=
  (List.range (Int.fdiv s.length m).toNat).map (fun i => (s.drop (i * m.toNat)).take m.toNat)

/-- `_bibFormatter` (mkRecord.py:769-790); `none` is the `ZeroDivisionError`. -/
def bibFormatter (v : Value) (m : Int) : Option Str :=
  let s := v.text
  if (s.length : Int) > m then
    let t := Str.replace "\"".toList [] s
    if m = 0 then none
    else some ("\"".toList ++ Str.join "\" # \"".toList (pieces t m) ++ "\"".toList)
  else if '"' ∉ s then some ("\"".toList ++ s ++ "\"".toList)
  else
    let t := Str.replace "}".toList "\\}".toList (Str.replace "{".toList "\\{".toList s)
    some ("{".toList ++ t ++ "}".toList)

end Verif.Model.Bib
