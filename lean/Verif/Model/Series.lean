import Verif.Py.Counter

/-!
# Model of the series and counting functions of `metaknowledge/mkCollection.py`

A record is anything with a function giving the value of a tag: missing (`KeyError`, or `None` from `get`), a single value
or a list. The list of records is the collection in its iteration order. The optional csv file is in SeriesFiles; the progress
bar is left out. Years are natural numbers.
-/
set_option autoImplicit false
namespace Verif.Model.Series
open Verif.Py

/-- The value stored under a tag: one value or a list of values. -/
inductive FieldVal (α : Type) where
  | single (v : α)
  | list (vs : List α)
deriving DecidableEq

variable {ρ α : Type} [DecidableEq α]

/-- `if not isinstance(val, list): val = [val]` (mkCollection.py:616-617, 717-718, 789-790, 798-799). -/
def FieldVal.toList : FieldVal α → List α
  | .single v => [v]
  | .list vs => vs

/-- `if limitTo and entry not in limitTo: continue` (mkCollection.py:619-620): `true` when the entry is used. `None`,
`False` and the empty list all mean no limit. -/
def allowed (limitTo : Option (List α)) (entry : α) : Bool :=
  match limitTo with
  | none => true
  | some l => if l.isEmpty then true else decide (entry ∈ l)

/-- The counting loop (mkCollection.py:609-624). -/
def countSeries (field : ρ → Option (FieldVal α)) (limitTo : Option (List α)) (recs : List ρ) : Dict α Nat :=
  recs.foldl (fun d r =>
    match field r with
    | none => d
    | some val => val.toList.foldl (fun d e => if allowed limitTo e then d.incr e else d) d) []

/-- What `rankedSeries` returns: pairs of entry and count or rank, the bare entries, or the pandas dictionary with the
lists under `'entry'`, `'count'` and `'rank'`. -/
inductive Ranked (α : Type) where
  | pairs (l : List (α × Nat))
  | entries (l : List α)
  | pandas (entry : List α) (count rank : List Nat)
deriving DecidableEq

inductive SeriesErr | mkException deriving DecidableEq, Repr

/-- The ranking loop (mkCollection.py:642-651): the entries with their count and rank. -/
def rankLoop (currentRank currentCount : Nat) : List (α × Nat) → List (α × Nat × Nat)
  | [] => []
  | (v, c) :: rest =>
    if currentCount > c then (v, c, currentRank + 1) :: rankLoop (currentRank + 1) c rest
    else (v, c, currentRank) :: rankLoop currentRank currentCount rest

/-- The ranking of a whole list (mkCollection.py:635-651). -/
def rankAll (l : List (α × Nat)) : List (α × Nat × Nat) :=
  match l with
  | [] => []
  | (v, c) :: rest => rankLoop 1 c ((v, c) :: rest)

/-- `CollectionWithIDs.rankedSeries` (mkCollection.py:569-663). -/
def rankedSeries (field : ρ → Option (FieldVal α)) (recs : List ρ) (giveCounts giveRanks greatestFirst pandasMode : Bool)
    (limitTo : Option (List α)) : Except SeriesErr (Ranked α) :=
  if giveRanks && giveCounts then .error .mkException
  else
    let seriesList := sortedBy Prod.snd greatestFirst (countSeries field limitTo recs)
    if giveCounts && !pandasMode then .ok (.pairs seriesList)
    else if giveRanks || pandasMode then
      let seriesList := if greatestFirst then seriesList else seriesList.reverse
      let ranked := rankAll seriesList
      if pandasMode then .ok (.pandas (ranked.map (·.1)) (ranked.map (·.2.1)) (ranked.map (·.2.2)))
      else
        let retList := ranked.map (fun x => (x.1, x.2.2))
        .ok (.pairs (if greatestFirst then retList else retList.reverse))
    else .ok (.entries (seriesList.map Prod.fst))

/-- `d[k][y] += 1` with the nested dictionaries made when missing (mkCollection.py:722-728). -/
def incr2 {β γ : Type} [DecidableEq β] [DecidableEq γ] (d : Dict β (Dict γ Nat)) (k : β) (y : γ) : Dict β (Dict γ Nat) :=
  match d.get? k with
  | some inner => d.set k (inner.incr y)
  | none => d.set k [(y, 1)]

/-- The loop of `timeSeries` with a tag (mkCollection.py:702-728). -/
def countYears (year : ρ → Option Nat) (field : ρ → Option (FieldVal α)) (limitTo : Option (List α)) (recs : List ρ) :
    Dict α (Dict Nat Nat) :=
  recs.foldl (fun d r =>
    match year r with
    | none => d
    | some y =>
      match field r with
      | none => d
      | some val => val.toList.foldl (fun d e => if allowed limitTo e then incr2 d e y else d) d) []

/-- The loop of `timeSeries` without a tag (mkCollection.py:702-710): the records themselves are the entries. -/
def recordYears [DecidableEq ρ] (year : ρ → Option Nat) (recs : List ρ) : Dict ρ (Dict Nat Nat) :=
  recs.foldl (fun d r =>
    match year r with
    | none => d
    | some y => d.set r [(y, 1)]) []

/-- The pairs of entry and year, sorted by year (mkCollection.py:729-732). -/
def yearPairs {β : Type} (greatestFirst : Bool) (d : Dict β (Dict Nat Nat)) : List (β × Nat) :=
  sortedBy Prod.snd greatestFirst (d.flatMap (fun e => (Dict.keys e.2).map (fun y => (e.1, y))))

/-- What `timeSeries` returns. -/
inductive Timed (β : Type) where
  | pairs (l : List (β × Nat))
  | entries (l : List β)
  | pandas (entry : List β) (count year : List Nat)
deriving DecidableEq

/-- The end of `timeSeries` (mkCollection.py:729-747). The lookup `seriesDict[entry][year]` always succeeds there, since
the pair came from the dictionary; a failing one would give 0 here. -/
def timeOut {β : Type} [DecidableEq β] (giveYears greatestFirst pandasMode : Bool) (d : Dict β (Dict Nat Nat)) : Timed β :=
  let l := yearPairs greatestFirst d
  if pandasMode then
    .pandas (l.map Prod.fst) (l.map (fun p => ((d.get? p.1).getD []).cnt p.2)) (l.map Prod.snd)
  else if giveYears then .pairs l
  else .entries (l.map Prod.fst)

/-- `CollectionWithIDs.timeSeries` with a tag (mkCollection.py:665-747). -/
def timeSeriesTag (year : ρ → Option Nat) (field : ρ → Option (FieldVal α)) (recs : List ρ)
    (giveYears greatestFirst pandasMode : Bool) (limitTo : Option (List α)) : Timed α :=
  timeOut giveYears greatestFirst pandasMode (countYears year field limitTo recs)

/-- `CollectionWithIDs.timeSeries` without a tag (mkCollection.py:665-747). -/
def timeSeriesRecords [DecidableEq ρ] (year : ρ → Option Nat) (recs : List ρ)
    (giveYears greatestFirst pandasMode : Bool) : Timed ρ :=
  timeOut giveYears greatestFirst pandasMode (recordYears year recs)

/-- One record of `cooccurrenceCounts` (mkCollection.py:786-804). `field` is `R.get`, with `none` for `None`; the inner
dictionary is always there when it is used since every key was added first. -/
def coocRecord {τ : Type} (field : ρ → τ → Option (FieldVal α)) (keyTag : τ) (countedTags : List τ)
    (d : Dict α (Dict α Nat)) (r : ρ) : Dict α (Dict α Nat) :=
  match field r keyTag with
  | none => d
  | some kv =>
    let keyVal := kv.toList
    let d := keyVal.foldl (fun d k => if d.has k then d else d.set k []) d
    countedTags.foldl (fun d tag =>
      match field r tag with
      | none => d
      | some tv => tv.toList.foldl (fun d val => keyVal.foldl (fun d key => incr2 d key val) d) d) d

/-- `CollectionWithIDs.cooccurrenceCounts` (mkCollection.py:749-806). The tags are taken to be strings. Without counted
tags nothing is raised: the exception at line 772 is built but not raised. -/
def cooccurrenceCounts {τ : Type} (field : ρ → τ → Option (FieldVal α)) (recs : List ρ) (keyTag : τ)
    (countedTags : List τ) : Dict α (Dict α Nat) :=
  recs.foldl (coocRecord field keyTag countedTags) []

end Verif.Model.Series
