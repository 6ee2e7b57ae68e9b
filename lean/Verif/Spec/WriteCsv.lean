import Verif.Model.WriteCsv

/-! # What a csv file of a collection has to hold -/
set_option autoImplicit false
namespace Verif.Spec.WriteCsv
open Verif.Py Verif.Model.WriteCsv

variable {ρ : Type}

/-- The text of a value: a string as it is, the items of anything else that can be iterated with the list delimiter between them, nothing
for a missing value. -/
def valueText (sep : Str) (x : Option Val) : Str :=
  match x with
  | none | some .nil => []
  | some (.str s) => s
  | some (.iter _ _ items) => List.intercalate sep (items.map Prod.snd)
  | some (.other t) => t

/-- The columns that a call with these options has to write, long names apart: with a selection the first tags that are selected and the
other selected tags; otherwise the first tags and the other tags of the records in the order in which they come up, each once. -/
def wanted (toTag : Str → Option Str) (o : Opts) (keys : ρ → List Str) (recs : List ρ) : List Str :=
  let name := fun t => (toTag t).getD t
  let first := (o.firstTags.getD ["id".toList, "title".toList, "authorsFull".toList, "citations".toList, "keywords".toList, "DOI".toList]).map name
  match o.onlyTheseTags with
  | none | some [] => first ++ ((recs.flatMap keys).filter (fun t => t ∉ first)).eraseDups
  | some only => first.filter (fun t => t ∈ only.map name) ++ (only.map name).filter (fun t => t ∉ first)

/-- The columns that are added at the end. -/
def added (o : Opts) : List Str :=
  (if o.numAuthors then ["num-Authors".toList] else []) ++
  (if o.genderCounts then ["num-Male".toList, "num-Female".toList, "num-Unknown".toList] else [])

/-- What the row of a record has in a column. -/
def cellText (v : View ρ) (o : Opts) (R : ρ) (column : Str) : Str :=
  if column ∈ added o then
    if column = "num-Authors".toList then Nat.toDigits 10 (v.authors R)
    else if column = "num-Male".toList then Nat.toDigits 10 (v.genders R).1
    else if column = "num-Female".toList then Nat.toDigits 10 (v.genders R).2.1
    else Nat.toDigits 10 (v.genders R).2.2
  else valueText o.listDelimiter (v.get R column)

/-- The values by which a record is sorted into files: the items of a list, or the one value as text. -/
def valuesOf (v : View ρ) (tag : Str) (R : ρ) : List Str :=
  match v.get R tag with
  | none => []
  | some (.iter true _ items) => items.map Prod.snd
  | some (.iter false t _) => [t]
  | some (.str s) => [s]
  | some .nil => ["None".toList]
  | some (.other t) => [t]

/-- The tag of the record is a list with an item that is not a string. -/
def Mixed (v : View ρ) (tag : Str) (R : ρ) : Prop :=
  ∃ t items, v.get R tag = some (.iter true t items) ∧ ∃ i ∈ items, i.1 = false

/-- The rows of the file of the value `s`: for each record, in order, one for each time it holds the value. -/
def rowsFor (v : View ρ) (o : Opts) (columns : List Str) (tag s : Str) (recs : List ρ) : List (List Str) :=
  recs.flatMap (fun R => List.replicate ((valuesOf v tag R).count s) (columns.map (cellText v o R)))

end Verif.Spec.WriteCsv
