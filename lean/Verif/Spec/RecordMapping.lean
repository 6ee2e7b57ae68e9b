import Verif.Model.RecordMapping

/-!
# What going through a record should give (C105)

A record has `fields`: tags with raw values. `val k raw` is the value of a tag, or the exception reading it raises.
-/
set_option autoImplicit false
namespace Verif.Spec.RecordMapping
open Verif.Model.RecordAccess Verif.Model.RecordMapping
variable {κ Raw V : Type}

/-- All fields can be read, and `out` has their values. -/
def Reads (val : κ → Raw → Except AErr V) : List (κ × Raw) → List (κ × V) → Prop
  | [], out => out = []
  | f :: fs, out => ∃ v rest, val f.1 f.2 = .ok v ∧ out = (f.1, v) :: rest ∧ Reads val fs rest

/-- What an iterator may have given, and what it is going to do: it gave the first fields with their values, and either the others are still to come
or the next one could not be read and it is at its end. -/
def Right (val : κ → Raw → Except AErr V) (fields : List (κ × Raw)) (it : Iter κ V) : Prop :=
  ∃ done rest, fields = done ++ rest ∧ Reads val done it.out ∧
    ((it.failed = none ∧ it.todo = rest.map Prod.fst) ∨
     (∃ k raw rest' e, rest = (k, raw) :: rest' ∧ val k raw = .error e ∧ it.failed = some e ∧ it.todo = []))

end Verif.Spec.RecordMapping
