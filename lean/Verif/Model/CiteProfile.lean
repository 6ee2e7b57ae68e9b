import Verif.Model.CoNetworks
import Verif.Py.StrOps
import Verif.Py.Decimal

/-!
# Model of `networkCoAuthor` with `citeProfile = True` (`metaknowledge/recordCollection.py`)

`attributeMaker` makes one dictionary of attributes per record, in it an empty dictionary for the profile (recordCollection.py:994-1007), and every author of the record that is new
is given a copy of it. The copy is shallow: the profile is the same object for all of them. So a node holds the number of the object, here the position of the record, and the objects are in a heap. A citation is its identity
(by which it is hashed and compared) with its text; a dictionary keeps the citation that came first as its key. The progress bar is left out.
-/
set_option autoImplicit false
namespace Verif.Model.CiteProfile
open Verif.Py Verif.Model.CoNetworks

variable {ρ ν ι K : Type} [DecidableEq ν] [DecidableEq K]

/-- A profile: for each citation the text of the key and the number. -/
abbrev Profile (K : Type) := Dict K (Str × Nat)

/-- The graph, where the information of a node has the number of its profile, and the profiles. -/
structure State (ν ι K : Type) where
  net : CoNet ν (ι × Nat)
  heap : Dict Nat (Profile K)

/-- `profile[c] += 1`, and on `KeyError` `profile[c] = 1` (recordCollection.py:1032-1036, 1043-1047). -/
def addCite (p : Profile K) (c : K × Str) : Profile K :=
  match p.get? c.1 with
  | some (t, n) => p.set c.1 (t, n + 1)
  | none => p.set c.1 (c.2, 1)

/-- What is done with one author (recordCollection.py:1027-1036, and 1038-1047). `obj` is the profile that `attributeMaker` made for the record. -/
def visit (count : Bool) (obj : Nat) (info : ι) (cites : List (K × Str)) (s : State ν ι K) (n : ν) : State ν ι K :=
  let net := coNode count s.net n (info, obj)
  match net.node? n with
  | none => { s with net := net }
  | some a => { net := net, heap := s.heap.set a.info.2 (cites.foldl addCite ((s.heap.get? a.info.2).getD [])) }

/-- What is done with a later author of the record, with the edge (recordCollection.py:1037-1053). -/
def inner [Inhabited ι] (count weighted : Bool) (obj : Nat) (info : ι) (cites : List (K × Str)) (a : ν) (s : State ν ι K) (b : ν) : State ν ι K :=
  let s := visit count obj info cites s b
  { s with net := Graph.bumpEdge weighted s.net a b }

/-- The nested loop over the authors of one record (recordCollection.py:1026-1053). -/
def record [Inhabited ι] (count weighted : Bool) (obj : Nat) (info : ι) (cites : List (K × Str)) : State ν ι K → List ν → State ν ι K
  | s, [] => s
  | s, a :: rest => record count weighted obj info cites (rest.foldl (inner count weighted obj info cites a) (visit count obj info cites s a)) rest

/-- The loop over the records (recordCollection.py:1009-1053). -/
def collect [Inhabited ι] (weighted dropNonJournals count : Bool) (isJournal : ρ → Bool) (authors : ρ → List ν) (info : ρ → ι) (cites : ρ → List (K × Str)) (recs : List ρ) :
    State ν ι K :=
  recs.zipIdx.foldl (fun s p =>
    if dropNonJournals && !isJournal p.1 then s
    else record count weighted p.2 (info p.1) (cites p.1) s (authors p.1)) ⟨Graph.empty false, []⟩

/-- The profile of a node in the end. -/
def profile (s : State ν ι K) (n : ν) : Profile K :=
  match s.net.node? n with
  | none => []
  | some a => (s.heap.get? a.info.2).getD []

/-- The attributes `citeProfileCites` and `citeProfileCounts` of a node (recordCollection.py:1054-1068). -/
def profileAttrs (s : State ν ι K) (n : ν) : Str × Str :=
  (Str.join ['|'] ((profile s n).map (fun e => e.2.1)), Str.join ['|'] ((profile s n).map (fun e => showNat e.2.2)))

end Verif.Model.CiteProfile
