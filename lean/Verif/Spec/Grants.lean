import Verif.Py.StrOps
import Verif.Spec.Splitting
import Verif.Model.Grants

/-!
# Specification of grants

Only the types of the model are used here (`Val`, `Key`, `Op`, `Out`, the field structures), none of its functions.
-/
set_option autoImplicit false
namespace Verif.Spec.Grants
open Verif.Py Verif.Spec.Splitting Verif.Model.Grants

/-- The text the fields of a Medline grant stand for: number, code, agency and country with slashes between. A field that is absent is left out, and
so is an empty number if there is no code. -/
def medlineText (f : MedlineFields) : Str :=
  let number := if f.code = none ∧ f.number = some [] then none else f.number
  Str.join "/".toList (number.toList ++ f.code.toList ++ f.agency.toList ++ [f.country])

/-- The text the fields of a Scopus grant stand for. -/
def scopusText (f : ScopusFields) : Str := Str.join ", ".toList (f.code.toList ++ f.agencyCode.toList ++ [f.agency])

/-- The names a field gives: none if it is absent; the trimmed pieces of a string; of each member of a list the trimmed first piece. -/
inductive Names (ws : Char → Bool) (sep : Str) : Option Val → List Str → Prop where
  | absent : Names ws sep none []
  | str (s : Str) (ps qs : List Str) : Splits sep s ps → List.Forall₂ (Trimmed ws) ps qs → Names ws sep (some (.str s)) qs
  | list (l qs : List Str) : List.Forall₂ (fun a q => ∃ p ps, Splits sep a (p :: ps) ∧ Trimmed ws p q) l qs → Names ws sep (some (.list l)) qs

/-! ## A dictionary, as a partial function -/

abbrev Map (ν : Type) := Str → Option ν

variable {τ ν ε κ : Type} [DecidableEq τ]

/-- What an operation does to a dictionary, and what it returns. -/
inductive MapStep (type : τ) : Map ν → Op τ ν ε κ → Map ν → Out ν → Prop where
  | set (m : Map ν) (k : Str) (v : ν) : MapStep type m (.set (.str k) v) (fun j => if j = k then some v else m j) .none
  | setOther (m : Map ν) (o : κ) (v : ν) : MapStep type m (.set (.other o) v) m .keyError
  | del (m : Map ν) (k : Str) : m k ≠ none → MapStep type m (.del (.str k)) (fun j => if j = k then none else m j) .none
  | delAbsent (m : Map ν) (k : Str) : m k = none → MapStep type m (.del (.str k)) m .keyError
  | delOther (m : Map ν) (o : κ) : MapStep type m (.del (.other o)) m .keyError
  | update (m : Map ν) (g : Grant τ ν ε) : g.type = type →
      MapStep type m (.update g) (fun j => (Dict.get? g.fields j).or (m j)) .none
  | updateOther (m : Map ν) (g : Grant τ ν ε) : g.type ≠ type → MapStep type m (.update g) m .notImplemented
  | pop (m : Map ν) (k : Str) (v : ν) : m k = some v → MapStep type m (.pop (.str k)) (fun j => if j = k then none else m j) (.value v)
  | popAbsent (m : Map ν) (k : Str) : m k = none → MapStep type m (.pop (.str k)) m .keyError
  | popOther (m : Map ν) (o : κ) : MapStep type m (.pop (.other o)) m .keyError
  | setdefault (m : Map ν) (k : Str) (v w : ν) : m k = some w → MapStep type m (.setdefault (.str k) v) m (.value w)
  | setdefaultAbsent (m : Map ν) (k : Str) (v : ν) : m k = none →
      MapStep type m (.setdefault (.str k) v) (fun j => if j = k then some v else m j) (.value v)
  | setdefaultOther (m : Map ν) (o : κ) (v : ν) : MapStep type m (.setdefault (.other o) v) m .keyError
  | clear (m : Map ν) : MapStep type m .clear (fun _ => none) .none

/-- A history. -/
inductive MapRun (type : τ) : Map ν → List (Op τ ν ε κ) → Map ν → List (Out ν) → Prop where
  | nil (m : Map ν) : MapRun type m [] m []
  | cons (m m' m'' : Map ν) (o : Op τ ν ε κ) (os : List (Op τ ν ε κ)) (r : Out ν) (rs : List (Out ν)) :
      MapStep type m o m' r → MapRun type m' os m'' rs → MapRun type m (o :: os) m'' (r :: rs)

end Verif.Spec.Grants
