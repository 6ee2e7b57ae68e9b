import Verif.Model.Diffusion

/-!
# What the diffusion functions should count and join (C45, C46)
-/
set_option autoImplicit false
namespace Verif.Spec.Diffusion
open Verif.Py Verif.Model.Diffusion

section
variable {γ : Type} [DecidableEq γ]

/-- A field that says something: a string or list that is not empty, a number that is not 0. -/
def Meaningful : FVal γ → Bool
  | .atom (.str s) => s ≠ []
  | .atom (.num n) => n ≠ 0
  | .atom (.cite _) => true
  | .list l => !l.isEmpty

/-- What a record is counted under: itself when it has any field, or its field with the given tag. -/
def valueOf (ty : NodeType) (r : Rec γ) : Option (Key γ) :=
  match ty with
  | .raw => if r.fields = [] then none else some (.record r.id)
  | .tag t =>
    match r.fields.get? t with
    | some v => if Meaningful v then some (.val v) else none
    | none => none

/-- The keys a value is counted under: each element of a list, otherwise the value. -/
def elements : Key γ → List (Key γ)
  | .val (.list l) => l.map (fun a => .val (.atom a))
  | k => [k]

/-- The citations of a record: those for all its authors or the one for the first. -/
def citations (allAuthors : Bool) (r : Rec γ) : List γ := if allAuthors then r.cites else [r.cite]

/-- A tag holds lists in all records or in none. -/
def Uniform (ty : NodeType) (source : List (Rec γ)) : Prop :=
  match ty with
  | .raw => True
  | .tag t => (∀ r ∈ source, ∀ v, r.fields.get? t = some v → ∃ l, v = .list l) ∨
      (∀ r ∈ source, ∀ v, r.fields.get? t = some v → ∃ a, v = .atom a)

/-- The value of the last source with this citation. -/
def sourceFor (allAuthors : Bool) (ty : NodeType) (source : List (Rec γ)) (c : γ) : Option (Key γ) :=
  source.reverse.findSome? (fun r => if c ∈ citations allAuthors r then valueOf ty r else none)

/-- How often `k` is counted: over the citations of all targets, the number of times the source with that citation has `k`. -/
def hits (allAuthors : Bool) (ty : NodeType) (source target : List (Rec γ)) (k : Key γ) : Nat :=
  (target.map (fun t => (t.cr.map (fun c => match sourceFor allAuthors ty source c with
    | none => 0
    | some v => (elements v).count k)).sum)).sum

/-- `k` is among the values of a source that its citation leads to. -/
def Listed (allAuthors : Bool) (ty : NodeType) (source : List (Rec γ)) (k : Key γ) : Prop :=
  ∃ c v, sourceFor allAuthors ty source c = some v ∧ k ∈ elements v

/-- The number of pairs of a target citation and a source record with that citation, each as often as the source has `k`. -/
def pairsFor (allAuthors : Bool) (ty : NodeType) (source target : List (Rec γ)) (k : Key γ) : Nat :=
  (target.map (fun t => (t.cr.map (fun c => (source.map (fun s =>
    if c ∈ citations allAuthors s then
      match valueOf ty s with
      | none => 0
      | some v => (elements v).count k
    else 0)).sum)).sum)).sum

/-- No two sources that are counted share a citation. -/
def NoShared (allAuthors : Bool) (ty : NodeType) (source : List (Rec γ)) : Prop :=
  source.Pairwise (fun a b => valueOf ty a ≠ none → valueOf ty b ≠ none → ∀ c ∈ citations allAuthors a, c ∉ citations allAuthors b)

/-- How often `k` and the value `x` of the target's field come together. -/
def jointHits (mapping : Atom γ → Atom γ) (extra : Str) (allAuthors : Bool) (ty : NodeType) (source target : List (Rec γ)) (k : Key γ) (x : Atom γ) : Nat :=
  (target.map (fun t => (t.cr.map (fun c => match sourceFor allAuthors ty source c with
    | none => 0
    | some v => (elements v).count k)).sum *
      (match t.fields.get? extra with
        | none => 0
        | some (.atom a) => [mapping a].count x
        | some (.list l) => (l.map mapping).count x))).sum

/-! ## The graph -/

/-- The nodes a record stands for in the graph: for `'raw'` its tags, otherwise the elements of the field, which for a string are its characters. -/
def nodesOf (ty : NodeType) (r : Rec γ) : List (Atom γ) :=
  match ty with
  | .raw => r.fields.keys.map .str
  | .tag t =>
    match r.fields.get? t with
    | some (.list l) => l
    | some (.atom (.str s)) => s.map (fun ch => .str [ch])
    | _ => []

/-- The nodes of the last source with this citation. -/
def nodesFor (ty : NodeType) (source : List (Rec γ)) (c : γ) : List (Atom γ) :=
  (source.reverse.findSome? (fun r => if r.cite = c ∧ nodesOf ty r ≠ [] then some (nodesOf ty r) else none)).getD []

/-- The field of a record cannot be iterated over: it is a number other than 0, or a citation. -/
def NotIterable (ty : NodeType) (r : Rec γ) : Prop :=
  ∃ t, ty = .tag t ∧ ((∃ n, n ≠ 0 ∧ r.fields.get? t = some (.atom (.num n))) ∨ ∃ c, r.fields.get? t = some (.atom (.cite c)))

/-- How often a target with `t` cites a source with `s`. -/
def joins (sourceType targetType : NodeType) (source target : List (Rec γ)) (s t : Atom γ) : Nat :=
  (target.map (fun r => (nodesOf targetType r).count t * (r.cr.map (fun c => (nodesFor sourceType source c).count s)).sum)).sum

/-! ## Labelled edges -/

/-- The labels of a target: the values of its field as strings, `sh` gives those of citations and numbers. -/
def labels (sh : Atom γ → Str) (labelTag : Str) (r : Rec γ) : List Str :=
  let text : Atom γ → Str := fun a => match a with
    | .str s => s
    | a => sh a
  match r.fields.get? labelTag with
  | none => []
  | some (.atom a) => [text a]
  | some (.list l) => l.map text

/-- The targets that have the field for labels. -/
def labelled (labelTag : Str) (target : List (Rec γ)) : List (Rec γ) := target.filter (fun r => (r.fields.get? labelTag).isSome)

/-- How often a target with `t` and label `l` cites a source with `s`. -/
def labelJoins (sh : Atom γ → Str) (sourceType targetType : NodeType) (labelTag : Str) (source target : List (Rec γ)) (s t : Atom γ) (l : Str) : Nat :=
  (target.map (fun r => (labels sh labelTag r).count l * ((nodesOf targetType r).count t *
    (r.cr.map (fun c => (nodesFor sourceType source c).count s)).sum))).sum

end
/-- The name under which the total is counted. -/
def targetCount {γ : Type} : Atom γ := .str "TargetCount".toList

end Verif.Spec.Diffusion
