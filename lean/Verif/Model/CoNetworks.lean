import Verif.Py.GraphEvents
import Verif.Model.Series

/-!
# Model of `RecordCollection.networkCoAuthor` and `GrantCollection.networkCoInvestigator`

The two functions run the same nested loop over the names a record gives. A collection is the list of its entries in
iteration order. `citeProfile` is in CiteProfile. Left out: the progress bar and the formatting of the
information strings, which enter as an abstract value computed from the record.
-/
set_option autoImplicit false
namespace Verif.Model.CoNetworks
open Verif.Py Verif.Model.Series

/-- Attributes of a node: the count, missing without counting, and the information set when the node is first added. -/
structure CoAttr (ι : Type) where
  count : Option Nat
  info : ι
deriving DecidableEq, Repr

instance {ι : Type} [Inhabited ι] : Inhabited (CoAttr ι) := ⟨⟨none, default⟩⟩

variable {ρ ν ι : Type} [DecidableEq ν] [Inhabited ι]
abbrev CoNet (ν ι : Type) := Graph ν (CoAttr ι) (Option Nat)

/-- `if auth not in grph: grph.add_node(auth, **detailedInfo.copy())`, `elif count: grph.nodes[auth]['count'] += 1`
(recordCollection.py:1027-1030 and 1038-1041; grantCollection.py:195-201 and 203-209). -/
def coNode (count : Bool) (g : CoNet ν ι) (n : ν) (info : ι) : CoNet ν ι :=
  match g.node? n with
  | none => g.setNode n { count := if count then some 1 else none, info := info }
  | some a => if count then g.setNode n { a with count := some (a.count.getD 0 + 1) } else g

/-- The nested loop over the names of one record (recordCollection.py:1026-1053; grantCollection.py:194-224, where the case
of one name, 216-224, is the same loop without inner iterations). `has_edge … and weighted: weight += 1`,
`elif weighted: add_edge(weight = 1)`, `else: add_edge` is `bumpEdge`: a repeated `add_edge` without attributes changes
nothing. -/
def coRecord (count weighted : Bool) : CoNet ν ι → List (ν × ι) → CoNet ν ι
  | g, [] => g
  | g, a :: rest =>
    let g := coNode count g a.1 a.2
    let g := rest.foldl (fun g b => Graph.bumpEdge weighted (coNode count g b.1 b.2) a.1 b.1) g
    coRecord count weighted g rest

/-- `RecordCollection.networkCoAuthor` (recordCollection.py:942-1073). `isJournal r` is `R.createCitation().isJournal()`,
`authors r` the chosen author list (empty when the record has none), `info r` what `attributeMaker` makes of the record. -/
def networkCoAuthor (weighted dropNonJournals count : Bool) (isJournal : ρ → Bool) (authors : ρ → List ν) (info : ρ → ι)
    (recs : List ρ) : CoNet ν ι :=
  recs.foldl (fun g r =>
    if dropNonJournals && !isJournal r then g
    else coRecord count weighted g ((authors r).map (fun a => (a, info r)))) (Graph.empty false)

/-- `GrantCollection.networkCoInvestigator` (grantCollection.py:145-229). `invest G` is what `getInvestigators` (or
`getInstitutions`) with `_getTag` returns: names and the field each was found in. -/
def networkCoInvestigator (count weighted : Bool) (invest : ρ → List (ν × ι)) (grants : List ρ) : CoNet ν ι :=
  grants.foldl (fun g G => coRecord count weighted g (invest G)) (Graph.empty false)

end Verif.Model.CoNetworks
