import Verif.Model.Gender
import Mathlib.Data.Finset.Card
import Mathlib.Data.Finset.Dedup

/-! # What the gender counts should be (C53) -/
set_option autoImplicit false
namespace Verif.Spec.Gender
open Verif.Py Verif.Model.Gender

/-- `first` is the first name in an author's name `Last, First Middle`: what follows the first comma with a blank, up to the next such comma or the next blank. -/
def FirstName (s first : Str) : Prop :=
  ∃ last rest, s = last ++ ", ".toList ++ rest ∧ ¬ ", ".toList <:+: last ++ ",".toList ∧
    ((∃ part more, rest = part ++ ", ".toList ++ more ∧ ¬ ", ".toList <:+: part ++ ",".toList ∧ first = part.takeWhile (· ≠ ' ')) ∨
      (¬ ", ".toList <:+: rest ∧ first = rest.takeWhile (· ≠ ' ')))

/-- The gender of a name: that of its first name in the list of names, unknown when the list does not have it or there is no first name. `none`: the list has no value for it. -/
def IsGender (title : Str → Str) (mapping : Dict Str (Option Str)) (s : Str) (g : Option Str) : Prop :=
  (∃ first, FirstName s first ∧ g = (mapping.get? (title first)).getD (some "Unknown".toList)) ∨
  ((¬ ∃ first, FirstName s first) ∧ g = some "Unknown".toList)

open Classical in
/-- How many names have this gender: over the records, the number of different names in them that do. -/
noncomputable def numberOf (title : Str → Str) (mapping : Dict Str (Option Str)) (recs : List (List Str)) (g : Str) : Nat :=
  (recs.map (fun authors => (authors.toFinset.filter (fun s => IsGender title mapping s (some g))).card)).sum

/-- How many names there are: over the records, the number of different names. -/
def numberOfNames (recs : List (List Str)) : Nat := (recs.map (fun authors => authors.toFinset.card)).sum

end Verif.Spec.Gender
