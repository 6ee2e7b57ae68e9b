import Verif.Py.Counter

/-!
# Model of `RecordCollection.rpys` (`metaknowledge/recordCollection.py:755-869`)

A record is what `rpys` reads of it: the years of its citations (`none` for a citation without a year, or without the attribute), `none`
when it has no citations field, and its own year, `none` when there is none (the code then uses infinity).
-/
set_option autoImplicit false
namespace Verif.Model.Rpys
open Verif.Py

/-- What `rpys` reads of a record (recordCollection.py:808-813). -/
structure Rec where
  citations : Option (List (Option Int))
  year : Option Int

/-- The exceptions of `rpys`. -/
inductive RErr where
  | valueError | typeError | keyError
deriving DecidableEq, Repr

/-- The argument `dropYears`; `None` becomes the empty set (recordCollection.py:803-804). -/
inductive DropYears where
  | none
  | one (y : Int)
  | many (l : List Int)

/-- Whether a cited year passes the tests of the loop (recordCollection.py:820-826). -/
def passes (minYear maxYear recYear : Option Int) (cYear : Int) : Bool :=
  if (match maxYear with | some M => decide (cYear > M + 2) | none => false) ||
      (match minYear with | some m => decide (cYear < m - 2) | none => false) then false
  else match recYear with
    | some r => if r < cYear + 2 then false else true
    | none => true

/-- The inner loop over the citations of a record (recordCollection.py:814-830). -/
def countCites (minYear maxYear recYear : Option Int) (d : Dict Int Nat) : List (Option Int) → Dict Int Nat
  | [] => d
  | none :: l => countCites minYear maxYear recYear d l
  | some c :: l =>
    if passes minYear maxYear recYear c then countCites minYear maxYear recYear (d.incr c) l
    else countCites minYear maxYear recYear d l

/-- The loop over the records (recordCollection.py:808-830). -/
def countYears (minYear maxYear : Option Int) (d : Dict Int Nat) : List Rec → Dict Int Nat
  | [] => d
  | r :: l =>
    match r.citations with
    | none => countYears minYear maxYear d l
    | some cs => countYears minYear maxYear (countCites minYear maxYear r.year d cs) l

/-- `min` of a collection that is not empty. -/
def minOf (x : Int) (l : List Int) : Int := l.foldl (fun a b => if b < a then b else a) x
/-- `max` of a collection that is not empty. -/
def maxOf (x : Int) (l : List Int) : Int := l.foldl (fun a b => if b > a then b else a) x

/-- The default for `minYear` (recordCollection.py:832-835); the result `none` means that `minYear` stays `None`. -/
def resolveMin (minYear : Option Int) (keys : List Int) : Except RErr (Option Int) :=
  match minYear with
  | some m => .ok (some m)
  | none => match keys with
    | [] => .error .valueError
    | k :: ks => if minOf k ks > 1000 then .ok (some (minOf k ks)) else .ok none

/-- The default for `maxYear` (recordCollection.py:836-839). -/
def resolveMax (maxYear : Option Int) (keys : List Int) : Except RErr (Option Int) :=
  match maxYear with
  | some m => .ok (some m)
  | none => match keys with
    | [] => .error .valueError
    | k :: ks => if maxOf k ks < 2100 then .ok (some (maxOf k ks)) else .ok none

/-- `range(lo, hi)`. -/
def rangeI (lo hi : Int) : List Int := (List.range (hi - lo).toNat).map (fun i : Nat => lo + (i : Int))

/-- The years of the table before they become a set (recordCollection.py:841). `None` in `range`, and `in` of an `int`, raise `TypeError`. -/
def targets (lo hi : Option Int) (drop : DropYears) : Except RErr (List Int) :=
  match lo, hi with
  | some lo, some hi =>
    match drop with
    | .none => .ok (rangeI lo (hi + 1))
    | .one _ => if (rangeI lo (hi + 1)).isEmpty then .ok [] else .error .typeError
    | .many l => .ok ((rangeI lo (hi + 1)).filter (fun y => y ∉ l))
  | _, _ => .error .typeError

/-- The five counts whose median is taken (recordCollection.py:793-798). -/
def window (d : Dict Int Nat) (y : Int) (v : Nat) : List Nat :=
  [v, d.cnt (y - 2), d.cnt (y - 1), d.cnt (y + 1), d.cnt (y + 2)]

/-- The nested function `deviation` (recordCollection.py:792-801). -/
def deviation (y : Int) (v : Nat) (d : Dict Int Nat) : Int :=
  (v : Int) - (((window d y v).insertionSort (· ≤ ·))[2]'(by rw [List.length_insertionSort]; simp [window]) : Nat)

/-- The returned dictionary. -/
structure Table where
  year : List Int
  count : List Nat
  dev : List Int
  rank : List Nat

/-- `yearDeviances` (recordCollection.py:846-851); the keys are distinct. -/
def deviances (d : Dict Int Nat) (years : List Int) : Dict Int Int := years.map (fun y => (y, deviation y (d.cnt y) d))

/-- `ranks` (recordCollection.py:853-854). -/
def ranks (devs : Dict Int Int) : Dict Int Nat :=
  ((devs.insertionSort (fun a b => a.2 ≤ b.2)).zipIdx 1).map (fun p => (p.1.1, p.2))

/-- The last loop (recordCollection.py:856-867). -/
def fill (d : Dict Int Nat) (devs : Dict Int Int) (rks : Dict Int Nat) (rankEmpty : Bool) : Table → List Int → Except RErr Table
  | t, [] => .ok t
  | t, y :: l =>
    let c := d.cnt y
    let rk : Except RErr Nat := if c = 0 ∧ rankEmpty = false then .ok 0
      else match rks.get? y with
        | none => .error .keyError
        | some r => .ok r
    match rk with
    | .error e => .error e
    | .ok r =>
      match devs.get? y with
      | none => .error .keyError
      | some dv => fill d devs rks rankEmpty ⟨t.year ++ [y], t.count ++ [c], t.dev ++ [dv], t.rank ++ [r]⟩ l

/-- `RecordCollection.rpys` (recordCollection.py:755-869). `order` is the order in which the set of years is iterated. -/
def rpys (order : List Int → List Int) (minYear maxYear : Option Int) (drop : DropYears) (rankEmpty : Bool) (recs : List Rec) :
    Except RErr Table := do
  let d := countYears minYear maxYear [] recs
  let lo ← resolveMin minYear d.keys
  let hi ← resolveMax maxYear d.keys
  let ts ← targets lo hi drop
  let years := order ts
  let devs := deviances d years
  fill d devs (ranks devs) rankEmpty ⟨[], [], [], []⟩ years

end Verif.Model.Rpys
