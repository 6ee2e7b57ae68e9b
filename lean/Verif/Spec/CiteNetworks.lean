import Verif.Model.CiteNetworks
import Verif.Spec.Networks

/-! # What the citation networks should give (used by C16-C20) -/
set_option autoImplicit false
namespace Verif.Spec
open Verif.Py Verif.Model.Citation Verif.Model.CiteNetworks

/-- The citation object has the attribute a node type uses. -/
def HasAttr : NodeType → Cite → Prop
  | .full, _ => True
  | .original, _ => True
  | .author, c => c.author ≠ none
  | .journal, c => c.journal ≠ none
  | .year, c => c.year ≠ none

/-- The citation has a value for that attribute: neither `None` nor empty nor zero. For `full` nothing is asked. -/
def HasValue : NodeType → Cite → Prop
  | .full, _ => True
  | .original, c => c.original ≠ []
  | .author, c => ∃ s, c.author = some (some s) ∧ s ≠ []
  | .journal, c => ∃ s, c.journal = some (some s) ∧ s ≠ []
  | .year, c => ∃ y, c.year = some (some y) ∧ y ≠ 0

/-- The name of the node of a citation. -/
def nodeName : NodeType → Cite → NodeId
  | .full, c => .str c.id
  | .original, c => .str c.original
  | .author, c => .str ((c.author.getD none).getD [])
  | .journal, c => .str ((c.journal.getD none).getD [])
  | .year, c => .num ((c.year.getD none).getD 0)

/-- The key words asked for, none when the argument is missing or empty. -/
def KeyWords.toList : KeyWords → List Str
  | .none => []
  | .one s => if s = [] then [] else [s]
  | .many l => l

/-- The work has no author, or the one databases give when there is none. -/
def Anonymous (c : Cite) : Prop := c.author = none ∨ c.author = some (some "[Anonymous]".toList)

/-- The citations the options ask to keep, when every citation object has its attributes. -/
def Wanted (env : Env) (nt : NodeType) (dropAnon dropNonJournals : Bool) (kw : KeyWords) (core : Option (List Cite))
    (c : Cite) : Prop :=
  HasValue nt c ∧
  (dropNonJournals = true → env.isJournal c = true) ∧
  (dropAnon = true → ¬ Anonymous c) ∧
  (∀ cs, core = some cs → ∃ d ∈ cs, env.hash d.id = env.hash c.id) ∧
  (∀ k ∈ KeyWords.toList kw, ¬ env.upper k <:+: env.upper c.original)

/-- A citation gets into a network: as `Wanted`, except that a citation object without the attribute is not sorted out. With `coreOnly` only
the citations of the records themselves are wanted. -/
def Enters {ρ : Type} (env : Env) (o : Opts) (own : ρ → Cite) (recs : List ρ) (c : Cite) : Prop :=
  (HasAttr o.nodeType c → HasValue o.nodeType c) ∧
  (o.dropNonJournals = true → env.isJournal c = true) ∧
  (o.dropAnon = true → ¬ Anonymous c) ∧
  (o.coreOnly = true → ∃ r ∈ recs, env.hash (own r).id = env.hash c.id) ∧
  (∀ k ∈ KeyWords.toList o.keyWords, ¬ env.upper k <:+: env.upper c.original)

open Classical in
/-- The citations of a record that enter the network. -/
noncomputable def keptCites {ρ : Type} (env : Env) (o : Opts) (own : ρ → Cite) (cites : ρ → Option (List Cite)) (recs : List ρ) (r : ρ) : List Cite :=
  ((cites r).getD []).filter (fun c => decide (Enters env o own recs c))

open Classical in
/-- The records that take part in a citation network: their own citation is one to keep and they have citations. -/
noncomputable def citing {ρ : Type} (env : Env) (o : Opts) (own : ρ → Cite) (cites : ρ → Option (List Cite)) (recs : List ρ) : List ρ :=
  recs.filter (fun r => decide (Enters env o own recs (own r) ∧ (cites r).getD [] ≠ []))

/-- How often a head citing `l` links `u` to `v`: once for every time it is one end and the cited work the other. -/
def headLinks {ν : Type} [DecidableEq ν] (directed recordToCite : Bool) (head : ν) (l : List ν) (u v : ν) : Nat :=
  if directed then
    if recordToCite then (if head = u then l.count v else 0) else (if head = v then l.count u else 0)
  else if u = v then (if head = u then l.count u else 0)
  else (if head = u then l.count v else 0) + (if head = v then l.count u else 0)

end Verif.Spec
