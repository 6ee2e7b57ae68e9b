import Verif.Py.Str

/-!
# The Web of Science record format

A record is a list of fields. A field is a tag of two characters and a list of values. In a file the first value follows its tag and a space;
each further value has a line of its own indented by three spaces; `ER` ends the record.
-/
set_option autoImplicit false
namespace Verif.Spec.Wos
open Verif.Py

/-- A field which can be written: a tag of two characters which is neither the end mark nor blank, at least one value, no line ends. -/
structure FieldOk (f : Str × List Str) : Prop where
  tagLen : f.1.length = 2
  tagER : f.1 ≠ "ER".toList
  tagBlank : f.1 ≠ "  ".toList
  ne : f.2 ≠ []
  tagNL : '\n' ∉ f.1
  valNL : ∀ v ∈ f.2, '\n' ∉ v

/-- Tags are distinct and the fields can be written. -/
structure FieldsOk (fs : List (Str × List Str)) : Prop where
  ok : ∀ f ∈ fs, FieldOk f
  nodup : (fs.map Prod.fst).Nodup

/-- The lines of a field. -/
def fieldLines : Str × List Str → List Str
  | (_, []) => []
  | (tag, v :: vs) => (tag ++ " ".toList ++ v ++ "\n".toList) :: vs.map (fun w => "   ".toList ++ w ++ "\n".toList)

/-- The lines of the fields of a record, without its end. -/
def recordLines (fs : List (Str × List Str)) : List Str := fs.flatMap fieldLines

/-- A line which ends a record. -/
def EndLine (l : Str) : Prop := 3 ≤ l.length ∧ l.take 2 = "ER".toList

end Verif.Spec.Wos
