import Verif.Py.StrOps
import Verif.Py.Dict

/-!
# Grants

Models `metaknowledge/grants/baseGrant.py` (`Grant`), `medlineGrant.py`, `scopusGrant.py` and the methods `getInvestigators`/`getInstitutions` of
`nsercGrant.py` and `nsfGrant.py`.
-/
set_option autoImplicit false
namespace Verif.Model.Grants
open Verif.Py

/-- A field value: a string, a list of strings (NSF grants) or `None` (an empty XML element of an NSF grant). -/
inductive Val where
  | str (s : Str)
  | list (l : List Str)
  | none
  deriving DecidableEq, Repr

inductive GErr where
  | value
  | type
  deriving DecidableEq, Repr

abbrev Fields := Dict Str Val

/-- The names in one value (baseGrant.py:60-72): `None.split` raises `AttributeError`, and iterating over `None` then raises `TypeError`;
`split('')` raises `ValueError`. -/
def namesOf (ws : Char → Bool) (sep : Str) : Val → Except GErr (List Str)
  | .str s => if sep = [] then .error .value else .ok ((Str.split sep s).map (Str.strip ws))
  | .list l => if sep = [] ∧ l ≠ [] then .error .value else .ok (l.map (fun a => Str.strip ws ((Str.split sep a).headD [])))
  | .none => .error .type

/-- The loop of `getInvestigators` (baseGrant.py:58-72) with `_getTag = True`. -/
def investigatorsOf (ws : Char → Bool) (d : Fields) (sep : Str) : List Str → Except GErr (List (Str × Str))
  | [] => .ok []
  | tag :: tags =>
    match Dict.get? d tag with
    | none => investigatorsOf ws d sep tags
    | some v =>
      match namesOf ws sep v with
      | .error e => .error e
      | .ok names =>
        match investigatorsOf ws d sep tags with
        | .error e => .error e
        | .ok rest => .ok (names.map (fun n => (n, tag)) ++ rest)

/-- The argument `tags`. -/
inductive Tags where
  | none
  | one (t : Str)
  | many (l : List Str)

/-- `Grant.getInvestigators` (baseGrant.py:32-74), also `getInstitutions` (baseGrant.py:76-97); without `_getTag` only the names are returned. -/
def getInvestigators (ws : Char → Bool) (d : Fields) (tags : Tags) (sep : Str) : Except GErr (List Str) :=
  match tags with
  | .none => .ok []
  | .one t => (investigatorsOf ws d sep [t]).map (List.map Prod.fst)
  | .many l => (investigatorsOf ws d sep l).map (List.map Prod.fst)

/-- The list of tags `NSERCGrant.getInvestigators` uses (nsercGrant.py:36-43), `mark` is `'name-'`, and `getInstitutions` (nsercGrant.py:54-61), `mark`
is `'institution'`. A list given by the caller is changed in place, so this is also the caller's list afterwards. -/
def nsercTags (lower : Str → Str) (mark : Str) (d : Fields) (tags : Tags) : List Str :=
  (Dict.keys d).foldl (fun ts k => if Str.contains mark (lower k) = true ∧ k ∉ ts then ts ++ [k] else ts)
    (match tags with | .none => [] | .one t => [t] | .many l => l)

/-- `NSERCGrant.getInvestigators` / `getInstitutions`. -/
def nsercInvestigators (ws : Char → Bool) (lower : Str → Str) (mark : Str) (d : Fields) (tags : Tags) (sep : Str) : Except GErr (List Str) :=
  getInvestigators ws d (.many (nsercTags lower mark d tags)) sep

/-- The list of tags `NSFGrant.getInvestigators` uses (nsfGrant.py:31-36), `own` is `'Investigator'`, and `getInstitutions` (nsfGrant.py:47-52), `own` is
`'Institution'`. A list given by the caller is changed in place. -/
def nsfTags (own : Str) : Tags → List Str
  | .none => [own]
  | .one t => [own, t]
  | .many l => l ++ [own]

/-- `NSFGrant.getInvestigators` / `getInstitutions`. -/
def nsfInvestigators (ws : Char → Bool) (own : Str) (d : Fields) (tags : Tags) (sep : Str) : Except GErr (List Str) :=
  getInvestigators ws d (.many (nsfTags own tags)) sep

/-! ## The mapping -/

/-- A grant as a mapping; `τ` are the classes, `ε` the errors. -/
structure Grant (τ ν ε : Type) where
  type : τ
  fields : Dict Str ν
  bad : Bool
  error : ε

/-- A key given by the user: a string or something else (hashable). -/
inductive Key (κ : Type) where
  | str (s : Str)
  | other (o : κ)

/-- What a user can do with the mapping. -/
inductive Op (τ ν ε κ : Type) where
  | set (k : Key κ) (v : ν)
  | del (k : Key κ)
  | update (g : Grant τ ν ε)
  | pop (k : Key κ)
  | setdefault (k : Key κ) (v : ν)
  | clear

inductive Out (ν : Type) where
  | none
  | value (v : ν)
  | keyError
  | notImplemented
  deriving DecidableEq

variable {τ ν ε κ : Type} [DecidableEq τ]

/-- `__setitem__` (baseGrant.py:23-27), `__delitem__` (baseGrant.py:29-30), `update` (baseGrant.py:99-114), and `pop`, `setdefault` and `clear`, which
`collections.abc.MutableMapping` derives from these and from `__getitem__` (mkRecord.py:108-113). Only strings are keys of the dictionary. -/
def step (g : Grant τ ν ε) : Op τ ν ε κ → Grant τ ν ε × Out ν
  | .set (.str s) v => ({ g with fields := Dict.set g.fields s v }, .none)
  | .set (.other _) _ => (g, .keyError)
  | .del (.str s) => if s ∈ Dict.keys g.fields then ({ g with fields := Dict.erase g.fields s }, .none) else (g, .keyError)
  | .del (.other _) => (g, .keyError)
  | .update o =>
    if g.type ≠ o.type then (g, .notImplemented)
    else
      let g := if o.bad then { g with error := o.error, bad := true } else g
      ({ g with fields := Dict.update g.fields o.fields }, .none)
  | .pop (.str s) =>
    match Dict.get? g.fields s with
    | some v => ({ g with fields := Dict.erase g.fields s }, .value v)
    | none => (g, .keyError)
  | .pop (.other _) => (g, .keyError)
  | .setdefault (.str s) v =>
    match Dict.get? g.fields s with
    | some w => (g, .value w)
    | none => ({ g with fields := Dict.set g.fields s v }, .value v)
  | .setdefault (.other _) _ => (g, .keyError)
  | .clear => ({ g with fields := [] }, .none)

/-- A history of operations, with what each returned. -/
def runOps (g : Grant τ ν ε) : List (Op τ ν ε κ) → Grant τ ν ε × List (Out ν)
  | [] => (g, [])
  | o :: os => let p := step g o; let q := runOps p.1 os; (q.1, p.2 :: q.2)

/-! ## Grant strings -/

/-- The fields of a Medline grant. -/
structure MedlineFields where
  country : Str
  agency : Option Str := none
  code : Option Str := none
  number : Option Str := none
  bad : Bool := false
  deriving DecidableEq, Repr

/-- `MedlineGrant.__init__` (medlineGrant.py:6-42) up to the dictionary. -/
def medlineFields (s : Str) : MedlineFields :=
  match (Str.split ['/'] s).reverse with
  | [] => ⟨s, none, none, none, true⟩
  | [_] => ⟨s, none, none, none, true⟩
  | [country, agency] => ⟨country, some agency, none, some [], false⟩
  | [country, agency, code] => if code.length = 2 then ⟨country, some agency, some code, none, false⟩ else ⟨country, some agency, none, some code, false⟩
  | [country, agency, code, a] =>
    if code.length = 2 then ⟨country, some agency, some code, some a, false⟩ else ⟨country, some agency, none, some (a ++ ['/'] ++ code), false⟩
  | country :: agency :: rest => ⟨country, some agency, none, some (Str.join ['/'] rest.reverse), false⟩

/-- The id (medlineGrant.py:38-41). -/
def medlineId (f : MedlineFields) : Str :=
  match f.number with
  | some n => n ++ ['/'] ++ f.code.getD [] ++ ['-'] ++ f.country
  | none => f.code.getD [] ++ ['-'] ++ f.agency.getD [] ++ ['-'] ++ f.country

/-- The fields of a Scopus grant. -/
structure ScopusFields where
  agency : Str
  agencyCode : Option Str := none
  code : Option Str := none
  deriving DecidableEq, Repr

/-- `ScopusGrant.__init__` (scopusGrant.py:6-32) up to the dictionary; the first `pop` cannot fail as `split` never gives an empty list. -/
def scopusFields (s : Str) : ScopusFields :=
  match (Str.split ", ".toList s).reverse with
  | [] => ⟨s, none, none⟩
  | [agency] => ⟨agency, none, none⟩
  | [agency, agencyCode] => ⟨agency, some agencyCode, none⟩
  | agency :: agencyCode :: code :: _ => ⟨agency, some agencyCode, some code⟩

end Verif.Model.Grants
