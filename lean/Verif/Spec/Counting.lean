import Verif.Model.Series
import Mathlib.Data.Finset.Card
import Mathlib.Data.Finset.Image

/-! # What the series functions should give (used by C09-C11) -/
set_option autoImplicit false
namespace Verif.Spec
open Verif.Model.Series
variable {ρ α : Type} [DecidableEq α]

/-- The values a record holds under a tag: none when the tag is missing, one for a single value. -/
def vals (f : Option (FieldVal α)) : List α :=
  match f with
  | none => []
  | some (.single v) => [v]
  | some (.list vs) => vs

/-- How often `v` occurs under the tag over all records. -/
def occurrences (field : ρ → Option (FieldVal α)) (recs : List ρ) (v : α) : Nat :=
  (recs.map (fun r => (vals (field r)).count v)).sum

/-- `v` may be reported: there is no limit, or the limit lists it. -/
def Permitted (limitTo : Option (List α)) (v : α) : Prop :=
  ∀ l, limitTo = some l → l ≠ [] → v ∈ l

/-- How often `v` occurs in records of year `y`. -/
def occurrencesIn (year : ρ → Option Nat) (field : ρ → Option (FieldVal α)) (recs : List ρ) (v : α) (y : Nat) : Nat :=
  occurrences field (recs.filter (fun r => year r = some y)) v

/-- How often `k` and `v` occur together: over the records, the number of times the key tag holds `k`, times the number
of times the counted tags hold `v`. -/
def cooccurrences {τ : Type} (field : ρ → τ → Option (FieldVal α)) (recs : List ρ) (keyTag : τ) (tags : List τ) (k v : α) :
    Nat :=
  (recs.map (fun r => (vals (field r keyTag)).count k * (tags.map (fun t => (vals (field r t)).count v)).sum)).sum

/-- The rank of a value with count `n` among values with the counts in `counts`: one more than the number of different
larger counts. -/
def denseRank (counts : Finset Nat) (n : Nat) : Nat := 1 + (counts.filter (n < ·)).card

end Verif.Spec
