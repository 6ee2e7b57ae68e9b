import Verif.Py.Dict
import Verif.Py.StrOps
import Mathlib.Algebra.Order.Field.Rat

/-!
# Model of the gender functions: `genders/nameGender.py`, `Record.authGenders`, `RecordCollection.genderStats`

`title` is Python's `str.title`. The file of names is a parameter: its rows in order (a name and the value of the column
`prob.gender`, `none` when a row is too short for it). Quotients of counts are exact.
-/
set_option autoImplicit false
namespace Verif.Model.Gender
open Verif.Py

/-- `getMapping` (nameGender.py:44-52), on the rows after the heading. -/
def getMapping (title : Str → Str) (rows : List (Str × Option Str)) : Dict Str (Option Str) :=
  rows.foldl (fun d row => d.set (title row.1) row.2) []

def male : Str := "Male".toList
def female : Str := "Female".toList
def unknown : Str := "Unknown".toList

/-- `nameStringGender` (nameGender.py:54-66). The outer `none` is the `GenderException` that is returned, not raised; the inner one is a missing value. -/
def nameGender (title : Str → Str) (mapping : Dict Str (Option Str)) (noExcept : Bool) (s : Str) : Option (Option Str) :=
  match (Str.split ", ".toList s)[1]? with
  | none => if noExcept then some (some unknown) else none
  | some p =>
    match (Str.split " ".toList p)[0]? with
    | none => if noExcept then some (some unknown) else none
    | some first =>
      match mapping.get? (title first) with
      | some g => some g
      | none => some (some unknown)

/-- `recordGenders` (nameGender.py:68-69) for a record with these authors: one entry for each different name. -/
def recordGenders (title : Str → Str) (mapping : Dict Str (Option Str)) (authors : List Str) : Dict Str (Option (Option Str)) :=
  authors.foldl (fun d a => d.set a (nameGender title mapping true a)) []

/-- The counts of `authGenders` (mkRecord.py:679-683). -/
def authCounts (title : Str → Str) (mapping : Dict Str (Option Str)) (authors : List Str) : List Nat :=
  let raw := (recordGenders title mapping authors).map Prod.snd
  [male, female, unknown].map (fun k => raw.count (some (some k)))

/-- `authGenders(fractionsMode = True, _countsTuple = True)` (mkRecord.py:684-687): `none` is `ZeroDivisionError`. The first element is divided and moved to the end, three times. -/
def authFractions (title : Str → Str) (mapping : Dict Str (Option Str)) (authors : List Str) : Option (List Rat) :=
  let counts := (authCounts title mapping authors).map (fun n : Nat => (n : Rat))
  let tot := counts.sum
  let rotate := fun (l : List Rat) => match l with
    | [] => []
    | x :: rest => rest ++ [x / tot]
  if tot = 0 then none else some (rotate (rotate (rotate counts)))

/-- The loop of `genderStats` (recordCollection.py:888-895). -/
def totals (title : Str → Str) (mapping : Dict Str (Option Str)) (recs : List (List Str)) : Nat × Nat × Nat :=
  recs.foldl (fun acc authors =>
    match authCounts title mapping authors with
    | [m, f, u] => (acc.1 + m, acc.2.1 + f, acc.2.2 + u)
    | _ => acc) (0, 0, 0)

/-- `genderStats()` (recordCollection.py:871-899) for records with these authors: the counts for male, female and unknown. -/
def genderStats (title : Str → Str) (mapping : Dict Str (Option Str)) (recs : List (List Str)) : Nat × Nat × Nat := totals title mapping recs

/-- `genderStats(asFractions = True)` (recordCollection.py:896-898); `none` is `ZeroDivisionError`. -/
def genderFractions (title : Str → Str) (mapping : Dict Str (Option Str)) (recs : List (List Str)) : Option (Rat × Rat × Rat) :=
  let (m, f, u) := totals title mapping recs
  let tot := m + f + u
  if tot = 0 then none else some ((m : Rat) / tot, (f : Rat) / tot, (u : Rat) / tot)

end Verif.Model.Gender
