import Verif.Py.Dict
import Verif.Py.Str
import Verif.Py.StrOps

/-!
# Model of `makeNodeTuple` (recordCollection.py:1709-1760) and of what it uses

What a node of a citation network says about its citation. Citations are compared by `κ` (their hash). `sorted` is a parameter.
-/
set_option autoImplicit false
namespace Verif.Model.NodeInfo
open Verif.Py

/-- An element of a list in a record: a string or something else (a number, a citation). -/
inductive Elem where
  | str (s : Str)
  | other
  deriving DecidableEq, Repr

/-- What `R.get(tag)` gives: a string, a list, something else, or `None`. -/
inductive RVal (ω : Type) where
  | str (s : Str)
  | list (l : List Elem)
  | other (o : ω)
  | none
  deriving DecidableEq, Repr

inductive Err where
  | indexError
  | attributeError
  | typeError
  deriving DecidableEq, Repr

/-- What is used of a record: its id, its fields (`RVal.none` when it has none) and the strings of its citations. -/
structure Rec (ω κ : Type) where
  id : Str
  get : Str → RVal ω
  cites : List Str
  own : κ

/-- What is used of a citation: what it is compared by, `ID()`, `str`, the attributes `extraAuthors`, `V`, `issue`, `P` and `misc` in this order (`none` when there is no such
attribute or it is `None`), and the full name of the journal (`none` when it is no journal). -/
structure CiteV (κ : Type) where
  key : κ
  id : Str
  text : Str
  extras : List (Option Str)
  journal : Option Str

/-- `Citation.allButDOI` (citation.py:222-241). -/
def allButDOI {κ : Type} (c : CiteV κ) : Str :=
  let extras := c.extras.filterMap (fun o => o.bind (fun s => if s.length ≠ 0 then some s else none))
  if extras.length > 0 then c.id ++ ", ".toList ++ Str.join ", ".toList extras else c.id

/-- The values of attributes. -/
inductive Attr (ω : Type) where
  | str (s : Str)
  | val (v : RVal ω)
  | bool (b : Bool)
  | num (n : Nat)
  deriving DecidableEq, Repr

inductive NodeType where
  | full | journal | original | author | year
  deriving DecidableEq, Repr

section
variable {ω κ : Type} [DecidableEq κ]

/-- `{R.createCitation() : R for R in self}` (recordCollection.py:1155, 1268). -/
def coreDict (recs : List (Rec ω κ)) : Dict κ (Rec ω κ) := recs.foldl (fun d r => d.set r.own r) []

/-- `infoVals` (recordCollection.py:1719-1727). -/
def infoVals (R : Rec ω κ) : List Str → Except Err (List Str)
  | [] => .ok []
  | tag :: rest =>
    match R.get tag with
    | .str s => match infoVals R rest with | .ok l => .ok (Str.replace ",".toList [] s :: l) | .error e => .error e
    | .list [] => .error .indexError
    | .list (.other :: _) => .error .attributeError
    | .list (.str s :: _) => match infoVals R rest with | .ok l => .ok (Str.replace ",".toList [] s :: l) | .error e => .error e
    | _ => infoVals R rest

/-- All elements as strings, if they are. -/
def strings : List Elem → Option (List Str)
  | [] => some []
  | .str s :: l => (strings l).map (s :: ·)
  | .other :: _ => none

/-- The attributes of the tags one by one (recordCollection.py:1730-1735). Sorting or joining a list with anything but strings raises `TypeError`. -/
def detailed (sorted : List Str → List Str) (R : Rec ω κ) : List Str → Dict Str (Attr ω) → Except Err (Dict Str (Attr ω))
  | [], d => .ok d
  | tag :: rest, d =>
    match R.get tag with
    | .list l =>
      match strings l with
      | none => .error .typeError
      | some ss => detailed sorted R rest (d.set tag (.str (Str.join "|".toList (sorted ss))))
    | v => detailed sorted R rest (d.set tag (.val v))

/-- `makeNodeTuple` (recordCollection.py:1709-1760): the attributes. `idVal` is given as an attribute; `core` is `coreCitesDict`. -/
def makeNode (sorted : List Str → List Str) (c : CiteV κ) (idVal : Attr ω) (nodeInfo fullInfo : Bool) (nodeType : NodeType) (count : Bool) (core : Dict κ (Rec ω κ))
    (coreValues : List Str) (detailedValues addCR : Bool) : Except Err (Dict Str (Attr ω)) :=
  let d : Except Err (Dict Str (Attr ω)) :=
    if nodeInfo then
      match nodeType with
      | .full =>
        if coreValues.length ≠ 0 then
          match core.get? c.key with
          | some R =>
            let d : Dict Str (Attr ω) := [("MK-ID".toList, .str R.id)]
            let d := if !detailedValues then
                match infoVals R coreValues with
                | .ok l => .ok (d.set "info".toList (.str (Str.join ", ".toList l)))
                | .error e => .error e
              else detailed sorted R coreValues d
            match d with
            | .error e => .error e
            | .ok d =>
              let d := d.set "inCore".toList (.bool true)
              .ok (if addCR then d.set "citations".toList (.str (Str.join "|".toList R.cites)) else d)
          | none =>
            let d : Dict Str (Attr ω) := [("MK-ID".toList, .str "None".toList), ("info".toList, .str (allButDOI c)), ("inCore".toList, .bool false)]
            .ok (if addCR then d.set "citations".toList (.str []) else d)
        else .ok [("info".toList, .str (allButDOI c))]
      | .journal => .ok [("info".toList, match c.journal with | some n => .str n | none => .str "None".toList)]
      | .original => .ok [("info".toList, .str c.text)]
      | _ => .ok [("info".toList, idVal)]
    else .ok []
  match d with
  | .error e => .error e
  | .ok d =>
    let d := if fullInfo then d.set "fullCite".toList (.str c.text) else d
    .ok (if count then d.set "count".toList (.num 1) else d)

end
end Verif.Model.NodeInfo
