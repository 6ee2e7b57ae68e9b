import Verif.Py.StrOps
import Verif.Py.Dict

/-!
# What a merged grant holds
-/
set_option autoImplicit false
namespace Verif.Spec.Nserc
open Verif.Py

/-- The key of a row. -/
def cle (row : Dict Str Str) : Str := (Dict.get? row "Cle".toList).getD []

/-- The rows with a key, in order. -/
def rowsOf (k : Str) (rows : List (Str × Dict Str Str)) : List (Dict Str Str) := (rows.map Prod.snd).filter (fun r => cle r = k)

/-- The values of a column which are not empty, in order. -/
def valuesOf (f : Str) (rows : List (Dict Str Str)) : List Str := (rows.map (fun r => (Dict.get? r f).getD [])).filter (fun v => v ≠ [])

/-- The value of the column in the merged grant: the values which are not empty, separated by `; `; if there is none, what the first row has. -/
def merged (f : Str) (rows : List (Dict Str Str)) : Option Str :=
  if valuesOf f rows = [] then rows.head?.bind (fun r => Dict.get? r f) else some (Str.join "; ".toList (valuesOf f rows))

end Verif.Spec.Nserc
