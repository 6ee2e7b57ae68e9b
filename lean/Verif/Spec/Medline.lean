import Verif.Py.Dict
import Verif.Py.StrOps

/-!
# The Medline record format

A record gives a list of values to each of its tags. The values of the tags `AD` and `AUID` belong to an author: they are shown as the name of the
author, ` : `, and the content.
-/
set_option autoImplicit false
namespace Verif.Spec.Medline
open Verif.Py

/-- The classes of characters of Python's `rstrip` and `isalpha`, as far as they matter: space and line end are white space, and no letter is. -/
structure Classes (ws alpha : Char → Bool) : Prop where
  space : ws ' ' = true
  newline : ws '\n' = true
  letter : ∀ c, alpha c = true → ws c = false

/-- The tags whose values belong to an author. -/
def attachedTags : List Str := ["AD".toList, "AUID".toList]

/-- The authors of a record. -/
def authors (d : Dict Str (List Str)) : List Str := (Dict.get? d "AU".toList).getD []

/-- A tag of the format: one to four letters. -/
def TagOk (alpha : Char → Bool) (t : Str) : Prop := t ≠ [] ∧ t.length ≤ 4 ∧ ∀ c ∈ t, alpha c = true

/-- Names which can be told from what follows them: one line, without ` : ` (also not by running into the separator). -/
def NameOk (a : Str) : Prop := '\n' ∉ a ∧ ¬ " : ".toList <:+: a ++ " :".toList

/-- A record in which the attached values are listed author by author. -/
structure RecordOk (alpha : Char → Bool) (d : Dict Str (List Str)) : Prop where
  /-- a dictionary -/
  wf : Dict.WF d
  tags : ∀ t ∈ Dict.keys d, TagOk alpha t
  vals : ∀ t, Dict.get? d t ≠ some []
  /-- no author is listed twice -/
  nodup : (authors d).Nodup
  names : ∀ a ∈ authors d, NameOk a
  /-- `own t a`: the contents of tag `t` for author `a` -/
  attached : ∃ own : Str → Str → List Str, ∀ t ∈ attachedTags,
    (Dict.get? d t).getD [] = (authors d).flatMap (fun a => (own t a).map (fun c => a ++ " : ".toList ++ c))

/-- The same tags with the same values. -/
def Same (d e : Dict Str (List Str)) : Prop := ∀ t, Dict.get? d t = Dict.get? e t

end Verif.Spec.Medline
