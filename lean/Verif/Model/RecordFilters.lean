import Verif.Model.CollectionIds
import Verif.Model.Citation
import Verif.Py.Counter
import Verif.Py.Str

/-!
# Model of the selecting methods of `metaknowledge/recordCollection.py`

`dropNonJournals`, `yearSplit`, `localCiteStats`, `localCitesOf`, `citeFilter`. A record is a value of an arbitrary type whose equality
is Python's `==`; `year r` is `R.get('year')`, `cites r` is `R.get('citations')`. The class of the result is always
`RecordCollection`. Progress bars are left out, except in `localCiteStats`, where what is shown can itself raise.
-/
set_option autoImplicit false
namespace Verif.Model.RecordFilters
open Verif.Py Verif.Model.Citation

variable {ρ κ ε : Type} [DecidableEq ρ] [DecidableEq κ]

/-- The exceptions of these methods. -/
inductive FErr where
  | typeError | valueError | attributeError
deriving DecidableEq, Repr

/-- `RecordCollection.dropNonJournals` (recordCollection.py:192-214). `pubType r` is `r['pubType']`, `none` when that raises
`KeyError`. The second component says whether the call raises; the collection is then as the first step left it. -/
def dropNonJournals (upper : Str → Str) (pubType : ρ → Option Str) (isBad : ρ → Bool) (ptVal : Str) (dropBad invert : Bool)
    (c : Coll ρ κ ε) : Coll ρ κ ε × Bool :=
  let c := if dropBad then Coll.dropBadEntries isBad c else c
  if c.items.any (fun r => (pubType r).isNone) then (c, true)
  else if invert then ({ c with items := c.items.filter (fun r => pubType r ≠ some (upper ptVal)) }, false)
  else ({ c with items := c.items.filter (fun r => pubType r = some (upper ptVal)) }, false)

/-- The loop of `yearSplit` (recordCollection.py:1386-1394). -/
def yearLoop (year : ρ → Option Int) (s e : Int) (dropMissing : Bool) : List ρ → List ρ → Except FErr (List ρ)
  | acc, [] => .ok acc
  | acc, r :: rest =>
    match year r with
    | none => if dropMissing then yearLoop year s e dropMissing acc rest else .error .typeError
    | some y => if y ≥ s && y ≤ e then yearLoop year s e dropMissing (PSet.add acc r) rest
      else yearLoop year s e dropMissing acc rest

/-- `RecordCollection.yearSplit` (recordCollection.py:1362-1397). -/
def yearSplit (year : ρ → Option Int) (s e : Int) (dropMissing : Bool) (c : Coll ρ κ ε) : Except FErr (Coll ρ κ ε) := do
  let l ← yearLoop year s e dropMissing [] c.items
  return { (Coll.fresh "RecordCollection" l (c.name ++ "(" ++ toString s ++ "-" ++ toString e ++ ")") : Coll ρ κ ε)
    with types := c.types }

/-- The allowed values of `keyType` (recordCollection.py:1426); anything else raises `TypeError`. -/
inductive KeyType where
  | citation | journal | year | author
deriving DecidableEq, Repr

/-- A key of the dictionary. A `Citation` is identified with the hash of its id, which is all its `==` and `hash` look at. -/
inductive CKey where
  | cite (hash : Int)
  | str (s : Str)
  | num (n : Int)
deriving DecidableEq, Repr

/-- The key for one citation (recordCollection.py:1437-1442); the inner `none` is "skip". -/
def ckey (hash : Str → Int) (kt : KeyType) (c : Cite) : Except FErr (Option CKey) :=
  match kt with
  | .citation => .ok (some (.cite (hash c.id)))
  | .journal => match c.journal with
    | none => .error .attributeError
    | some v => .ok (v.map CKey.str)
  | .year => match c.year with
    | none => .error .attributeError
    | some v => .ok (v.map CKey.num)
  | .author => match c.author with
    | none => .error .attributeError
    | some v => .ok (v.map CKey.str)

/-- The inner loop (recordCollection.py:1436-1446). -/
def statsCite (hash : Str → Int) (kt : KeyType) (d : Dict CKey Nat) (c : Cite) : Except FErr (Dict CKey Nat) := do
  match ← ckey hash kt c with
  | none => return d
  | some k => return d.incr k

/-- One record of `localCiteStats` (recordCollection.py:1430-1446): the text for the progress bar reads `R.UT` (line 1434) and the bar is true only when
`metaknowledge.VERBOSE_MODE` is set (progressBar.py:33-34), so with it a record without that attribute raises. Only a `WOSRecord` has it (recordWOS.py:120-126):
`hasUT r`. -/
def statsRec (verbose : Bool) (hasUT : ρ → Bool) (hash : Str → Int) (kt : KeyType) (cites : ρ → Option (List Cite)) (d : Dict CKey Nat) (r : ρ) :
    Except FErr (Dict CKey Nat) :=
  if verbose && !hasUT r then .error .attributeError
  else
    match cites r with
    | none => .ok d
    | some cs => cs.foldlM (statsCite hash kt) d

/-- `RecordCollection.localCiteStats` (recordCollection.py:1399-1457) without `pandasFriendly`, for an allowed `keyType`. -/
def localCiteStats (verbose : Bool) (hasUT : ρ → Bool) (hash : Str → Int) (kt : KeyType) (cites : ρ → Option (List Cite)) (recs : List ρ) :
    Except FErr (Dict CKey Nat) :=
  recs.foldlM (statsRec verbose hasUT hash kt cites) []

/-- The `pandasFriendly` form (recordCollection.py:1449-1455): the columns `Citations` and `Counts`. -/
def pandasStats (d : Dict CKey Nat) : List CKey × List Nat :=
  d.foldl (fun acc p => (acc.1 ++ [p.1], acc.2 ++ [p.2])) ([], [])

/-- The argument of `localCitesOf`. -/
inductive Target (ρ : Type) where
  | record (r : ρ)
  | string (s : Str)
  | citation (c : Cite)
  | other

/-- The loop of `localCitesOf` (recordCollection.py:1492-1500). -/
def citingLoop (hash : Str → Int) (cites : ρ → Option (List Cite)) (target : Cite) (recs : List ρ) : List ρ :=
  recs.foldl (fun localCites r =>
    match cites r with
    | none => localCites
    | some cs => if cs.any (fun c => citeEq hash target c) then localCites ++ [r] else localCites) []

/-- `RecordCollection.localCitesOf` (recordCollection.py:1459-1501). A record falls through to the last `else` and raises, because the
chain starting with the test for a string is separate from the test for a record. `getID` returns `None` rather than raising, so a
string is never read as a citation. The name of the result is left out. -/
def localCitesOf (hash : Str → Int) (idOf : ρ → Str) (own : ρ → Cite) (cites : ρ → Option (List Cite)) (c : Coll ρ κ ε) :
    Target ρ → Except FErr (List ρ)
  | .record _ => .error .valueError
  | .string s =>
    match Coll.getID idOf c s with
    | none => .ok []
    | some r => .ok (PSet.ofList (citingLoop hash cites (own r) c.items))
  | .citation t => .ok (PSet.ofList (citingLoop hash cites t c.items))
  | .other => .error .valueError

/-- The values of `field` of `citeFilter`; any other string matches no branch. -/
inductive Field where
  | all | author | journal | year | V | P | misc | anonymous | bad | unknown
deriving DecidableEq, Repr

/-- What testing one citation does. `AttributeError` is caught inside the loop and is the same as no match. -/
inductive Test where
  | yes | no | typeError | valueError
deriving DecidableEq, Repr

/-- The tests `keyString.upper() in cite.journal` and alike: `None` raises `TypeError`, a missing attribute `AttributeError`. -/
def testIn (key : Str) : Option (Option Str) → Test
  | none => .no
  | some none => .typeError
  | some (some s) => if Str.contains key s then .yes else .no

/-- The test of one citation (recordCollection.py:1546-1604). `parseInt` is Python's `int` of a string. -/
def test (upper : Str → Str) (parseInt : Str → Option Int) (key : Str) (field : Field) (caseSensitive : Bool) (c : Cite) : Test :=
  match field with
  | .all => if caseSensitive then (if Str.contains key c.original then .yes else .no)
    else (if Str.contains (upper key) (upper c.original) then .yes else .no)
  | .author => match c.author with
    | some (some a) => if Str.contains (upper key) (upper a) then .yes else .no
    | _ => .no
  | .journal => testIn (upper key) c.journal
  | .year => match parseInt key with
    | none => .valueError
    | some n => if c.year = some (some n) then .yes else .no
  | .V => testIn (upper key) c.V
  | .P => testIn (upper key) c.P
  | .misc => testIn (upper key) c.misc
  | .anonymous => if isAnonymous c then .yes else .no
  | .bad => if c.bad then .yes else .no
  | .unknown => .no

/-- The loop over the citations of a record: stops at the first match; `TypeError` is caught outside of the loop
(recordCollection.py:1605-1606), so it ends the loop without a match. -/
def matchLoop (t : Cite → Test) : List Cite → Except FErr Bool
  | [] => .ok false
  | c :: cs => match t c with
    | .yes => .ok true
    | .no => matchLoop t cs
    | .typeError => .ok false
    | .valueError => .error .valueError

/-- One record: no citations (`None`) raises `TypeError`, which is caught. With an unknown field nothing is looked at. -/
def matchRecord (t : Cite → Test) (cites : Option (List Cite)) : Except FErr Bool :=
  match cites with
  | none => .ok false
  | some cs => matchLoop t cs

/-- `RecordCollection.citeFilter` (recordCollection.py:1503-1615). -/
def citeFilter (upper : Str → Str) (parseInt : Str → Option Int) (cites : ρ → Option (List Cite)) (key : Str) (field : Field)
    (reverse caseSensitive : Bool) (c : Coll ρ κ ε) : Except FErr (Coll ρ κ ε) := do
  let retRecs ← c.items.foldlM (fun acc r => do
    if ← matchRecord (test upper parseInt key field caseSensitive) (cites r) then return acc ++ [r] else return acc) []
  if reverse then
    return Coll.fresh "RecordCollection" (c.items.foldl (fun ex r => if r ∉ retRecs then ex ++ [r] else ex) []) c.name
  else return Coll.fresh "RecordCollection" retRecs c.name

end Verif.Model.RecordFilters
