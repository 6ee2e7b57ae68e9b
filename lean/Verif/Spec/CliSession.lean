import Verif.Model.CliSession
import Verif.Spec.CliRun
import Verif.Spec.Cli

/-!
# What a session of the command line tool should do (C93)

The lines typed in a session are those for the files, for the job, for the network, for the filters and for the output, in this order. The files change by
what is written only. Which lines are typed for what is said in `Verif.Spec.CliRun`, and what the filters do in `Verif.Spec.Cli`.
-/
set_option autoImplicit false
namespace Verif.Spec.CliSession
open Verif.Py Verif.Model.CliRun Verif.Model.CliSession Verif.Model.GraphHelpers Verif.Spec.CliRun Verif.Spec.Cli

/-- A number: lines that are none, and then the number. -/
def Number (num : Str → Option Int) (x : Int) (typed : List Str) : Prop :=
  ∃ junk l, typed = junk ++ [l] ∧ num l = some x ∧ ∀ l ∈ junk, num l = none

/-- The entries of the menu of filters. -/
def filterKeys : List Str := ["0", "1", "2", "3", "4", "5", "6"].map String.toList

/-- The lines typed for filters: entries of the menu, with a number where one is needed, up to the entry 0. -/
inductive FiltersTyped (num : Str → Option Int) : List Cmd → List Str → Prop where
  | stop (a : List Str) : Picked filterKeys "0".toList a → FiltersTyped num [] a
  | isolates (cs : List Cmd) (a b : List Str) : Picked filterKeys "1".toList a → FiltersTyped num cs b → FiltersTyped num (.isolates :: cs) (a ++ b)
  | selfLoops (cs : List Cmd) (a b : List Str) : Picked filterKeys "2".toList a → FiltersTyped num cs b → FiltersTyped num (.selfLoops :: cs) (a ++ b)
  | number (key : Str) (c : Int → Cmd) (x : Int) (cs : List Cmd) (a n b : List Str) :
      (key, c) ∈ [("3".toList, Cmd.edgesBelow), ("4".toList, .edgesAbove), ("5".toList, .nodesBelow), ("6".toList, .nodesAbove)] →
      Picked filterKeys key a → Number num x n → FiltersTyped num cs b → FiltersTyped num (c x :: cs) (a ++ n ++ b)

variable {ρ ν κ π : Type}

/-- The collection of some files: all of them exist and the records are those of all of them, each once. -/
def Collected (w : World ρ ν κ π) (paths : List Str) (rs : List ρ) : Prop :=
  (∀ p ∈ paths, w.there (w.full p) = true) ∧ rs.Nodup ∧ ∀ r, r ∈ rs ↔ ∃ p ∈ paths, ∃ l, w.read (w.full p) = some l ∧ r ∈ l

/-- The lines typed for the files: none when there are files on the command line; otherwise lines with paths that do not all exist, and then one whose
paths, separated by blanks, do. -/
def FilesTyped (w : World ρ ν κ π) (files : List Str) (rs : List ρ) (typed : List Str) : Prop :=
  (files ≠ [] ∧ typed = [] ∧ Collected w files rs) ∨
  (files = [] ∧ ∃ junk paths, typed = junk ++ [Str.join [' '] paths] ∧ paths ≠ [] ∧ (∀ p ∈ paths, ' ' ∉ p) ∧ Collected w paths rs ∧
    ∀ l ∈ junk, ∃ paths, l = Str.join [' '] paths ∧ (∀ p ∈ paths, ' ' ∉ p) ∧ ∃ p ∈ paths, w.there (w.full p) = false)

/-- There is a file, or something else, of that name. -/
def taken (w : World ρ ν κ π) (fs : Files κ π) (f : Str) : Bool := w.other (w.path f) || (fs (w.path f)).isSome

/-- One of the two files of a graph is there. -/
def eitherThere (w : World ρ ν κ π) (fs : Files κ π) (f : Str) : Bool :=
  (fs (w.path (w.edgeName f))).isSome || (fs (w.path (w.nodeName f))).isSome

/-- Only the file at the path `p` changes from `fs` to `fs'`, and it then has the contents written. -/
def Wrote (x : Write κ) (p : π) (fs fs' : Files κ π) : Prop :=
  x.raises = false ∧ (∀ c, x.left = some c → fs' p = some c) ∧ (x.left = none → fs' p = fs p) ∧ ∀ q, q ≠ p → fs' q = fs q

/-- The files after the job. -/
def JobDone (w : World ρ ν κ π) (rs : List ρ) (fs fs' : Files κ π) : Job → Prop
  | .nothing => fs' = fs
  | .writeFile f => Wrote (w.wos f rs) (w.path f) fs fs'
  | .writeCSV f => Wrote (w.csv f rs) (w.path f) fs fs'
  | .citations b f => Wrote (w.cites b f rs) (w.path f) fs fs'
  | .review _ => fs' = fs

/-- The files after the output. -/
def OutputDone (w : World ρ ν κ π) (g : G ν) (fs fs' : Files κ π) : Output → Prop
  | .both f _ => ∃ mid, Wrote (w.edges (w.edgeName f) g) (w.path (w.edgeName f)) fs mid ∧ Wrote (w.nodes (w.nodeName f) g) (w.path (w.nodeName f)) mid fs'
  | .edges f => Wrote (w.edges f g) (w.path f) fs fs'
  | .nodes f => Wrote (w.nodes f g) (w.path f) fs fs'
  | .graphml f => Wrote (w.graphml f g) (w.path f) fs fs'

/-- The last part of a session: a network of the collection is made, filtered and written. -/
def NetworkMade [DecidableEq ν] (w : World ρ ν κ π) (rs : List ρ) (fs fs' : Files κ π) (typed : List Str) : Prop :=
  ∃ net g cmds h o a b c, typed = a ++ b ++ c ∧
    NetTyped w.upper (w.tags rs) net a ∧ w.make net rs = some g ∧
    FiltersTyped w.num cmds b ∧ Chain Done cmds g h ∧
    OutTyped (NameTyped w.upper (taken w fs) w.name) (GraphTyped w.upper (taken w fs) (eitherThere w fs) w.name) w.contour o c ∧
    OutputDone w h fs fs' o

/-- A whole session: the files are read, the job is done, and the network is made if the job says so. `bases` are the databases of journals after going over
the citations (C88). -/
def Session [DecidableEq ν] (w : World ρ ν κ π) (files : List Str) (fs fs' : Files κ π) (bases : Option RState) (typed : List Str) : Prop :=
  ∃ rs job net mid a b c, typed = a ++ b ++ c ∧
    FilesTyped w files rs a ∧
    JobTyped w.upper (NameTyped w.upper (taken w fs) w.name) w.manual job net b ∧ JobDone w rs fs mid job ∧
    match job, net with
    | .review db, _ => fs' = mid ∧ ∃ asked r, bases = some r ∧ review w.web w.upper (decide (db = w.manual)) (w.journals rs) c (w.bases db) = (.done, asked, r)
    | _, false => bases = none ∧ fs' = mid ∧ c = []
    | _, true => bases = none ∧ NetworkMade w rs mid fs' c

/-- A file at the path `p` may be meant by the line `l`. -/
def Names (w : World ρ ν κ π) (l : Str) (p : π) : Prop :=
  p = w.path (l ++ ".txt".toList) ∨ p = w.path (l ++ ".csv".toList) ∨ p = w.path (l ++ ".graphml".toList) ∨
  p = w.path (w.edgeName l) ∨ p = w.path (w.nodeName l)

end Verif.Spec.CliSession
