import Verif.Py.Dict
import Verif.Py.Str

/-!
# Model of `metaknowledge/citation.py`: a parsed citation, and the journal test

Parsing of the citation string itself is in `Verif.Model.CiteParse`. Python strings are lists of characters.
-/
set_option autoImplicit false
namespace Verif.Model.Citation
open Verif.Py



/-- The attributes of a `Citation` (citation.py:68-154). The outer `Option` of an attribute is `none` when the object has no
such attribute (a Scopus citation that did not match, citation.py:75-78); the inner one is `none` when it is Python's
`None`. `id` is `_id`. `FAST_CITES` is taken to be off, so `original` is there. -/
structure Cite where
  id : Str
  original : Str
  author : Option (Option Str)
  year : Option (Option Int)
  journal : Option (Option Str)
  V : Option (Option Str)
  P : Option (Option Str)
  misc : Option (Option Str)
  bad : Bool
deriving DecidableEq, Repr

/-- `Citation.isAnonymous` (citation.py:193-206). -/
def isAnonymous (c : Cite) : Bool :=
  match c.author with
  | some a => a == some "[Anonymous]".toList
  | none => true

/-- `Citation.__eq__` (citation.py:184-190) and `__hash__` (174-182): citations are equal when the hashes of their ids are.
`hash` is Python's hash of a string. -/
def citeEq (hash : Str → Int) (c d : Cite) : Bool := hash c.id == hash d.id

/-- `IndexError`. -/
inductive JErr where
  | indexError
deriving DecidableEq, Repr

/-- `Citation.isJournal` with `checkIfExcluded = False` (citation.py:263-311), as a truth value. `db` is `abbrevDict`: full names by
abbreviation. An entry with an empty list of names raises `IndexError`. -/
def isJournal (db : Dict Str (List Str)) (c : Cite) : Except JErr Bool :=
  match c.journal with
  | none => .ok false
  | some none => .ok false
  | some (some []) => .ok false
  | some (some j) =>
    match db.get? j with
    | none => .ok false
    | some [] => .error .indexError
    | some (name :: _) => .ok (!name.isEmpty)

/-- `filterNonJournals` (citation.py:364-391). -/
def filterNonJournals (db : Dict Str (List Str)) (invert : Bool) (cites : List Cite) : Except JErr (List Cite) :=
  cites.foldlM (fun ret c => do
    let j ← isJournal db c
    if j then
      if !invert then .ok (ret ++ [c]) else .ok ret
    else if invert then .ok (ret ++ [c])
    else .ok ret) []

end Verif.Model.Citation
