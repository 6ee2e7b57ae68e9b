import Mathlib.Data.List.Basic

/-! # Citation profiles of authors (used by C97) -/
set_option autoImplicit false
namespace Verif.Spec.CiteProfile

variable {ρ ν K T : Type} [DecidableEq ν] [DecidableEq K]

/-- How often the citation `k` is in a list. -/
def cited (k : K) (cites : List (K × T)) : Nat := cites.countP (fun c => c.1 = k)

/-- What a profile should say: how often the citation `k` is in the records of the author. -/
def fair (authors : ρ → List ν) (cites : ρ → List (K × T)) (recs : List ρ) (n : ν) (k : K) : Nat :=
  ((recs.filter (fun r => n ∈ authors r)).map (fun r => cited k (cites r))).sum

/-- The place of the first record of an author. -/
def firstRecord (authors : ρ → List ν) (recs : List ρ) (n : ν) : Option Nat := recs.findIdx? (fun r => decide (n ∈ authors r))

/-- The sum of the places (from one) of those authors in a list who are in a class. -/
def places (p : ν → Bool) (l : List ν) : Nat := (l.zipIdx.map (fun x => if p x.1 then x.2 + 1 else 0)).sum

/-- What the profile says instead: every citation of a record counts once for each place (the third author's three times) of every author whose first record is that of `n`. -/
def shared (authors : ρ → List ν) (cites : ρ → List (K × T)) (recs : List ρ) (n : ν) (k : K) : Nat :=
  (recs.map (fun r => places (fun a => firstRecord authors recs a = firstRecord authors recs n) (authors r) * cited k (cites r))).sum

/-- The first citation with the identity `k`, in the order of the records, in a record with an author whose first record is that of `n`. -/
def firstCitation (authors : ρ → List ν) (cites : ρ → List (K × T)) (recs : List ρ) (n : ν) (k : K) : Option (K × T) :=
  recs.findSome? (fun r => if (authors r).any (fun a => firstRecord authors recs a = firstRecord authors recs n) then (cites r).find? (fun c => c.1 = k) else none)

/-- The authors that are taken from a record: none, if it is to be dropped. -/
def taken (dropNonJournals : Bool) (isJournal : ρ → Bool) (authors : ρ → List ν) (r : ρ) : List ν :=
  if dropNonJournals = true ∧ isJournal r = false then [] else authors r

end Verif.Spec.CiteProfile
