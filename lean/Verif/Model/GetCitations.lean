import Verif.Py.Dict
import Verif.Py.Str
import Mathlib.Data.Rat.Defs

/-!
# Model of `getCitations` of `metaknowledge/mkRecord.py` and `metaknowledge/recordCollection.py`, and of `_pandasPrep`

A citation is a value of any type `γ`; `key` is its ID, by which citations are hashed and compared; `attr` gives its attributes, `none` being
`AttributeError`; `text` is `str(cite)`. The iteration order of `set(cites)` is an argument. Quotients are exact fractions instead of floats.
The keys of `countsDict` are citations and years side by side; a citation is never taken for a year.
-/
set_option autoImplicit false
namespace Verif.Model.GetCitations
open Verif.Py

variable {γ K F V : Type} [DecidableEq K] [DecidableEq V]

/-- What is read of a citation. -/
structure View (γ K F V : Type) where
  key : γ → K
  attr : γ → F → Option V
  text : γ → Str
  year : F
  journal : F
  author : F

/-- One round of the loop of `getCitations` of a record (mkRecord.py:577-587). -/
def keepStep (v : View γ K F V) (f : F) (values : Option (List V)) (ret : List γ) (c : γ) : List γ :=
  match v.attr c f with
  | none => ret
  | some x => match values with
    | none => ret ++ [c]
    | some vs => if x ∈ vs then ret ++ [c] else ret

/-- The citations of one record that pass (mkRecord.py:573-589). `values` is the list made from the argument (572-575). -/
def ofRecord (v : View γ K F V) (field : Option F) (values : Option (List V)) (cites : List γ) : List γ :=
  match field with
  | none => cites
  | some f => cites.foldl (keepStep v f values) []

/-- The citations of all records that pass (recordCollection.py:936-937). -/
def ofRecords (v : View γ K F V) (field : Option F) (values : Option (List V)) (recs : List (List γ)) : List γ :=
  recs.foldl (fun ret R => ret ++ ofRecord v field values R) []

/-- `set(cites)`, in the order of insertion: of equal citations the first stays. -/
def distinct (v : View γ K F V) (cites : List γ) : List γ :=
  cites.foldl (fun s c => if v.key c ∈ s.map v.key then s else s ++ [c]) []

/-- `countsDict[k] += 1` with the fallback. -/
def bump {κ : Type} [DecidableEq κ] (d : Dict κ Nat) (k : κ) : Dict κ Nat :=
  match d.get? k with
  | some n => d.set k (n + 1)
  | none => d.set k 1

/-- One round of the counting loop (mkRecord.py:801-813). -/
def countStep (v : View γ K F V) (d : Dict (K ⊕ V) Nat) (c : γ) : Dict (K ⊕ V) Nat :=
  match v.attr c v.year with
  | none => bump d (.inl (v.key c))
  | some y => bump (bump d (.inl (v.key c))) (.inr y)

/-- `countsDict` (mkRecord.py:799-814). -/
def countsDict (v : View γ K F V) (cites : List γ) : Dict (K ⊕ V) Nat := cites.foldl (countStep v) []

/-- The columns (mkRecord.py:793-798). -/
structure Table (V : Type) where
  citeString : List Str
  year : List (Option V)
  journal : List (Option V)
  author : List (Option V)
  counts : Option (List Nat × List Rat × List (Option Rat))

/-- One row of counts (mkRecord.py:824-831); `none` is `KeyError`. -/
def countCells (v : View γ K F V) (d : Dict (K ⊕ V) Nat) (total : Nat) (c : γ) : Option (Nat × Rat × Option Rat) :=
  match d.get? (.inl (v.key c)) with
  | none => none
  | some n =>
    match v.attr c v.year with
    | none => some (n, (n : Rat) / total, none)
    | some y => match d.get? (.inr y) with
      | none => none
      | some m => some (n, (n : Rat) / total, some ((n : Rat) / m))

/-- One round of the loop (mkRecord.py:816-831). -/
def addRow (v : View γ K F V) (d : Dict (K ⊕ V) Nat) (total : Nat) (t : Table V) (c : γ) : Option (Table V) :=
  let t1 : Table V := { t with
    citeString := t.citeString ++ [v.text c]
    year := t.year ++ [v.attr c v.year]
    journal := t.journal ++ [v.attr c v.journal]
    author := t.author ++ [v.attr c v.author] }
  match t.counts with
  | none => some t1
  | some (ns, fs, ys) =>
    match countCells v d total c with
    | none => none
    | some (n, f, y) => some { t1 with counts := some (ns ++ [n], fs ++ [f], ys ++ [y]) }

/-- `_pandasPrep` (mkRecord.py:792-832); `order` is the iteration order of `set(cites)`. `none` would be `KeyError`. -/
def pandasPrep (v : View γ K F V) (addCounts : Bool) (cites order : List γ) : Option (Table V) :=
  let d := countsDict v cites
  order.foldlM (addRow v d cites.length) ⟨[], [], [], [], if addCounts then some ([], [], []) else none⟩

end Verif.Model.GetCitations
