import Verif.Model.Pipeline
import Verif.Model.RecordFilters

/-!
# Collections made from files with the operators, `yearSplit` and `dropNonJournals`

What a user builds from `RecordCollection(file)` of several files: unions, intersections, differences, the papers of some years, the papers of a type, nested as they like.
A network or table of the result is made of its records as in `Verif.Model.Pipeline`.

Simplifications: two records are the same when their ids and fields are, where the code compares the hashes of the ids (mkRecord.py:90-146). The names of
collections, which only show in messages, start out empty. The years, or types, of all records are read before the first one is looked at, so that of two errors that of reading is reported.
-/
set_option autoImplicit false
namespace Verif.Model.Derived
open Verif.Py Verif.Model.Wos Verif.Model.WosFields Verif.Model.RecordAccess Verif.Model.Pipeline

/-- An expression of Python that makes a collection. -/
inductive Expr where
  | file (text : Str)
  | or (a b : Expr)
  | and (a b : Expr)
  | sub (a b : Expr)
  | xor (a b : Expr)
  | years (s e : Int) (dropMissing : Bool) (a : Expr)
  | ofType (ptVal : Str) (dropBad invert : Bool) (a : Expr)

/-- What can go wrong: reading a field, a year that is missing, a type that is missing, collections that cannot be combined. -/
inductive Err where
  | read (e : AErr) | filter (e : RecordFilters.FErr) | keyError | notImplemented

abbrev C := Coll Wos.Rec Unit Unit

/-- `R.get('year')` as something to compare with a number (recordCollection.py:1388). -/
def yearOf (W : World) (before : Wos.Rec → List (Op String FVal)) (r : Wos.Rec) : Except AErr (Option Int) :=
  (value W before "year" r).map (fun v => match v with
    | some (.num y) => some y
    | _ => none)

/-- `r['pubType']` (recordCollection.py:212), `none` for a `KeyError`. -/
def typeOf (W : World) (before : Wos.Rec → List (Op String FVal)) (r : Wos.Rec) : Except AErr (Option Str) :=
  (value W before "pubType" r).map (fun v => match v with
    | some (.text t) => some t
    | _ => none)

/-- The value of something that was read without an error. -/
def got {α : Type} (x : Except AErr (Option α)) : Option α := match x with
  | .ok v => v
  | .error _ => none

/-- One of the operators (mkCollection.py:233-271). -/
def both (op : C → C → Option C) (a b : Except Err C) : Except Err C := do
  match op (← a) (← b) with
  | some c => .ok c
  | none => .error .notImplemented

/-- `yearSplit` (recordCollection.py:1362-1397) on records of a file. -/
def inYears (W : World) (before : Wos.Rec → List (Op String FVal)) (s e : Int) (dropMissing : Bool) (c : C) : Except Err C :=
  match c.items.mapM (yearOf W before) with
  | .error x => .error (.read x)
  | .ok _ => match RecordFilters.yearSplit (fun r => got (yearOf W before r)) s e dropMissing c with
    | .ok c' => .ok c'
    | .error x => .error (.filter x)

/-- `dropNonJournals` (recordCollection.py:192-214) on records of a file. -/
def onlyType (W : World) (before : Wos.Rec → List (Op String FVal)) (ptVal : Str) (dropBad invert : Bool) (c : C) : Except Err C :=
  match c.items.mapM (typeOf W before) with
  | .error x => .error (.read x)
  | .ok _ =>
    let res := RecordFilters.dropNonJournals W.prims.upper (fun r => got (typeOf W before r)) (fun r => r.bad) ptVal dropBad invert c
    if res.2 then .error .keyError else .ok res.1

/-- The collection of an expression; `none`: a file is given to another reader. -/
def collOf (W : World) (before : Wos.Rec → List (Op String FVal)) (order : List Wos.Rec → List Wos.Rec) : Expr → Option (Except Err C)
  | .file text => (records W order text).map (fun rs => .ok (Coll.fresh "RecordCollection" rs ""))
  | .or a b => do return both Coll.or (← collOf W before order a) (← collOf W before order b)
  | .and a b => do return both Coll.and (← collOf W before order a) (← collOf W before order b)
  | .sub a b => do return both Coll.sub (← collOf W before order a) (← collOf W before order b)
  | .xor a b => do return both Coll.xor (← collOf W before order a) (← collOf W before order b)
  | .years s e dropMissing a => do return (← collOf W before order a).bind (inYears W before s e dropMissing)
  | .ofType ptVal dropBad invert a => do return (← collOf W before order a).bind (onlyType W before ptVal dropBad invert)

/-- The records of the collection in the order in which its set is gone through. -/
def recordsOf (W : World) (before : Wos.Rec → List (Op String FVal)) (order : List Wos.Rec → List Wos.Rec) (x : Expr) : Option (Except Err (List Wos.Rec)) :=
  (collOf W before order x).map (fun r => r.map (fun c => order c.items))

/-- `networkCoAuthor` of a collection, as in `Pipeline.coAuthors` (recordCollection.py:942-1073). -/
def coAuthorsOf (W : World) (before : Wos.Rec → List (Op String FVal)) (useShort weighted count : Bool) (rs : List Wos.Rec) : Except AErr (CoNetworks.CoNet Str Unit) := do
  let auths ← rs.mapM (fun r => do names (← value W before (if useShort then "authorsShort" else "authorsFull") r))
  return CoNetworks.networkCoAuthor weighted false count (fun _ => true) id (fun _ => ()) auths

end Verif.Model.Derived
