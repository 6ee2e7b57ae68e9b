import Verif.Model.Diffusion

/-!
# Model of the tables of `diffusionCount` and of `diffusionAddCountsFromSource`

`metaknowledge/diffusion.py`. The counts themselves are those of `Model/Diffusion`. A table is a dictionary from the names of the columns to lists.
-/
set_option autoImplicit false
namespace Verif.Model.DiffusionTables
open Verif.Py Verif.Model.Diffusion

section
variable {γ : Type} [DecidableEq γ]

/-- What stands in a table: a number, the value of a field (`none` = `None`), a key of the counts or a value of the extra field. -/
inductive Cell (γ : Type) where
  | num (n : Nat)
  | val (v : Option (FVal γ))
  | key (k : Key γ)
  | atom (a : Atom γ)
  deriving DecidableEq, Repr

abbrev Table (γ : Type) := Dict Str (List (Cell γ))

def targetCol : Str := "TargetCount".toList
def sourceCol : Str := "SourceCount".toList
def authorsCol : Str := "numAuthors".toList

/-- `retDict[col].append(c)`; the column is always there. -/
def push (t : Table γ) (col : Str) (c : Cell γ) : Table γ := t.set col ((t.get? col).getD [] ++ [c])

/-- `retrievedFields` (diffusion.py:285-289). -/
def tagsOf (recs : List (Rec γ)) : List Str := recs.foldl (fun fs r => fs ++ r.fields.keys.filter (fun t => t ∉ fs)) []

/-- The empty columns of the table of records (diffusion.py:277-283, 290-291). -/
def rawInit (numAuthors compare : Bool) (extra : Option Str) (tags : List Str) : Table γ :=
  let t : Table γ := [(targetCol, [])]
  let t := if numAuthors then t.set authorsCol [] else t
  let t := if compare then t.set sourceCol [] else t
  let t := match extra with | some e => t.set e [] | none => t
  tags.foldl (fun t tag => t.set tag []) t

/-- A row of the table of records: the record, its count, the value of the extra field, and the local count to be shown (`none` = `KeyError`). -/
structure Row (γ : Type) where
  record : Rec γ
  count : Nat
  label : Option (Atom γ)
  loc : Option Nat

/-- Adding a row (diffusion.py:294-306 and 308-315). `authors` is `len(R.get('authorsShort'))` (`none` = `TypeError` from `None`). `numAuthors` comes
after the label and the local count last. -/
def rawRow (authors : Rec γ → Option Nat) (numAuthors compare : Bool) (extra : Option Str) (tags : List Str) (t : Table γ) (r : Row γ) : Except Err (Table γ) :=
  let t := match extra, r.label with | some e, some a => push t e (.atom a) | _, _ => t
  match (if numAuthors then (authors r.record).map (fun n => push t authorsCol (.num n)) else some t) with
  | none => .error .typeError
  | some t =>
    let t := tags.foldl (fun t tag => push t tag (.val (r.record.fields.get? tag))) t
    let t := push t targetCol (.num r.count)
    if compare then
      match r.loc with
      | none => .error .keyError
      | some m => .ok (push t sourceCol (.num m))
    else .ok t

def rawRows (authors : Rec γ → Option Nat) (numAuthors compare : Bool) (extra : Option Str) (tags : List Str) : List (Row γ) → Table γ → Except Err (Table γ)
  | [], t => .ok t
  | r :: rs, t =>
    match rawRow authors numAuthors compare extra tags t r with
    | .error e => .error e
    | .ok t => rawRows authors numAuthors compare extra tags rs t

/-- The record with an id, as the keys of the counts are records. -/
def recOf (source : List (Rec γ)) : Key γ → Option (Rec γ)
  | .record id => source.find? (fun r => r.id = id)
  | _ => none

/-- `diffusionCount(sourceType = 'raw', pandasFriendly = True)` without extra values (diffusion.py:272-315, 344). -/
def rawTable (authors : Rec γ → Option Nat) (numAuthors compare useAllAuthors : Bool) (source target : List (Rec γ)) : Except Err (Table γ) :=
  match diffusionCount useAllAuthors .raw source target with
  | .error e => .error e
  | .ok main =>
    match (if compare then diffusionCount true .raw source source else .ok []) with
    | .error e => .error e
    | .ok loc =>
      let rows := main.filterMap (fun kn => (recOf source kn.1).map (fun r => (⟨r, kn.2, none, loc.get? kn.1⟩ : Row γ)))
      let tags := tagsOf (rows.map Row.record)
      rawRows authors numAuthors compare none tags rows (rawInit numAuthors compare none tags)

/-- The rows of one record when an extra field is counted (diffusion.py:293-306). -/
def extraRows (source : List (Rec γ)) (loc : Dict (Key γ) (Dict (Atom γ) Nat)) (kn : Key γ × Dict (Atom γ) Nat) : List (Row γ) :=
  match recOf source kn.1 with
  | none => []
  | some r => kn.2.map (fun an => (⟨r, an.2, some an.1, some (((loc.get? kn.1).bind (fun m => m.get? an.1)).getD 0)⟩ : Row γ))

/-- The same with `extraValue` (diffusion.py:293-306): one row for every value of every record. The local counts are made without `extraMapping`; a
missing one is shown as 0. -/
def rawTableExtra (authors : Rec γ → Option Nat) (mapping : Atom γ → Atom γ) (extra : Str) (numAuthors compare useAllAuthors : Bool)
    (source target : List (Rec γ)) : Except Err (Table γ) :=
  match diffusionCountExtra mapping extra useAllAuthors .raw source target with
  | .error e => .error e
  | .ok main =>
    match (if compare then diffusionCountExtra id extra true .raw source source else .ok []) with
    | .error e => .error e
    | .ok loc =>
      let rows := main.flatMap (extraRows source loc)
      let tags := tagsOf (rows.map Row.record)
      rawRows authors numAuthors compare (some extra) tags rows (rawInit numAuthors compare (some extra) tags)

/-- `diffusionCount(sourceType = tag, pandasFriendly = True)` without extra values (diffusion.py:317-344). -/
def tagTable (compare useAllAuthors : Bool) (tag : Str) (source target : List (Rec γ)) : Except Err (Table γ) :=
  match diffusionCount useAllAuthors (.tag tag) source target with
  | .error e => .error e
  | .ok main =>
    let t : Table γ := Dict.set [(tag, main.map (fun kn => .key kn.1))] targetCol (main.map (fun kn => .num kn.2))
    if compare then
      match diffusionCount true (.tag tag) source source with
      | .error e => .error e
      | .ok loc =>
        match main.mapM (fun kn => loc.get? kn.1) with
        | none => .error .keyError
        | some ns => .ok (t.set sourceCol (ns.map .num))
    else .ok t

/-- The same with `extraValue` (diffusion.py:320-332, 338-344): the local count is looked up under the name of the extra field, line 330. -/
def tagTableExtra (mapping : Atom γ → Atom γ) (extra : Str) (compare useAllAuthors : Bool) (tag : Str) (source target : List (Rec γ)) : Except Err (Table γ) :=
  match diffusionCountExtra mapping extra useAllAuthors (.tag tag) source target with
  | .error e => .error e
  | .ok main =>
    let rows := main.flatMap (fun kn => kn.2.map (fun an => (kn.1, an.1, an.2)))
    let t : Table γ := Dict.set [(tag, rows.map (fun r => .key r.1))] targetCol (rows.map (fun r => .num r.2.2))
    if compare then
      match diffusionCountExtra id extra true (.tag tag) source source with
      | .error e => .error e
      | .ok loc =>
        .ok ((t.set sourceCol (rows.map (fun r => .num (((loc.get? r.1).bind (fun m => m.get? (.str extra))).getD 0)))).set extra (rows.map (fun r => .atom r.2.1)))
    else .ok (t.set extra (rows.map (fun r => .atom r.2.1)))

/-! ## diffusionAddCountsFromSource -/

/-- An attribute of a node: a count or anything else. -/
inductive Attr (α : Type) where
  | count (n : Nat)
  | other (a : α)
  deriving DecidableEq, Repr

/-- Whether a key is a string. -/
def isStr : Key γ → Bool
  | .val (.atom (.str _)) => true
  | _ => false

variable {S α : Type}

/-- The counts by strings and what is left of the dictionary itself (diffusion.py:408-420): if the first key is no string, all items are taken out of the
dictionary, the last first, and put into another one under `str` of the key (`sh`). -/
def prepare (sh : Key γ → Str) (counts : Dict (Key γ) S) : Dict (Key γ) S × Dict (Key γ) S :=
  match counts with
  | [] => ([], [])
  | kv :: rest =>
    if isStr kv.1 then (kv :: rest, kv :: rest)
    else (((kv :: rest).reverse).foldl (fun d p => d.set (.val (.atom (.str (sh p.1)))) p.2) [], [])

/-- The nodes of the graph by name with their attributes. Names of attributes can be numbers, when they are values of a field. -/
abbrev Nodes (γ α : Type) := List (Str × Dict (Atom γ) (Attr α))

/-- `diffusionAddCountsFromSource` without `extraType` (diffusion.py:405-423, 438-442): the nodes with their counts, and what is left in `countsDict` when the caller
gave it. Edges are not touched. -/
def addCounts (sh : Key γ → Str) (label : Str) (nodes : Nodes γ α) (counts : Dict (Key γ) Nat) : Nodes γ α × Dict (Key γ) Nat :=
  let p := prepare sh counts
  (nodes.map (fun n => (n.1, n.2.set (.str label) (.count ((p.1.get? (.val (.atom (.str n.1)))).getD 0)))), p.2)

/-- `if k` for a value of the extra field. -/
def truthyAtom : Atom γ → Bool
  | .str s => s.length ≠ 0
  | .num n => n ≠ 0
  | .cite _ => true

/-- One node with `extraType` (diffusion.py:424-437). -/
def addExtra (label : Str) (extraKeys : List (Atom γ)) (attrs : Dict (Atom γ) (Attr α)) (entry : Option (Dict (Atom γ) Nat)) : Dict (Atom γ) (Attr α) :=
  let attrs := extraKeys.foldl (fun d k => d.set k (.count 0)) attrs
  let attrs := attrs.set (.str label) (.count 0)
  match entry with
  | none => attrs.set (.str label) (.count 0)
  | some m => m.foldl (fun d kv => if kv.1 = targetCount then d.set (.str label) (.count kv.2) else if truthyAtom kv.1 then d.set kv.1 (.count kv.2) else d) attrs

/-- `diffusionAddCountsFromSource` with `extraType` (diffusion.py:405-442). -/
def addCountsExtra (sh : Key γ → Str) (label : Str) (extraKeys : List (Atom γ)) (nodes : Nodes γ α) (counts : Dict (Key γ) (Dict (Atom γ) Nat)) :
    Nodes γ α × Dict (Key γ) (Dict (Atom γ) Nat) :=
  let p := prepare sh counts
  (nodes.map (fun n => (n.1, addExtra label extraKeys n.2 (p.1.get? (.val (.atom (.str n.1)))))), p.2)

end
end Verif.Model.DiffusionTables
