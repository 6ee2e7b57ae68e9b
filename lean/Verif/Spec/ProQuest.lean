import Verif.Py.StrOps
import Verif.Py.Dict

/-!
# The ProQuest record format

After blank lines are left out a record is a line with its name and then entries. An entry starts with a line `Key: value`; further lines
continue it. The entry `Author` is followed by one line with the url.
-/
set_option autoImplicit false
namespace Verif.Spec.ProQuest
open Verif.Py

/-- The line that ends a record. -/
def separator : Str := List.replicate 60 '_' ++ ['\n']

/-- A line which starts an entry: it has a colon and is no web address. -/
def Starts (l : Str) : Prop := ':' ∈ l ∧ ¬ "http://".toList <+: l

/-- The key and the value of a line: they are separated by the first `: `; without one the line is the key and the value is empty. -/
def Labelled (l k v : Str) : Prop :=
  (l = k ++ ": ".toList ++ v ∧ ¬ ": ".toList <:+: k ++ ":".toList) ∨ (¬ ": ".toList <:+: l ∧ l = k ∧ v = [])

inductive Entry where
  /-- the first line and the further ones -/
  | plain (first : Str) (more : List Str)
  /-- the author line and the url, which is absent only at the end of a record -/
  | author (line url : Str)

def Entry.lines : Entry → List Str
  | .plain first more => first :: more
  | .author line url => [line, url]

def Entry.Ok : Entry → Prop
  | .plain first more => Starts first ∧ (∀ k v, Labelled first k v → k ≠ "Author".toList) ∧ ∀ l ∈ more, ¬ Starts l
  | .author line _ => Starts line ∧ ∃ v, Labelled line "Author".toList v

/-- A record: its name, its entries, and an author line at the end when there is no url line. -/
structure Record where
  name : Str
  entries : List Entry
  last : Option Str

def Record.lines (r : Record) : List Str := r.name :: r.entries.flatMap Entry.lines ++ r.last.toList

def Record.Ok (r : Record) : Prop :=
  (∀ e ∈ r.entries, e.Ok) ∧ ∀ l, r.last = some l → Starts l ∧ ∃ v, Labelled l "Author".toList v

/-- What an entry says. -/
inductive Entry.Says (ws : Char → Bool) : Entry → List (Str × List Str) → Prop where
  | plain (first : Str) (more : List Str) (k v : Str) : Labelled first k v →
      Entry.Says ws (.plain first more) [(k, Str.rstrip ws v :: more.map (Str.rstrip ws))]
  | author (line url v : Str) : Labelled line "Author".toList v →
      Entry.Says ws (.author line url) [("Author".toList, [Str.rstrip ws v]), ("url".toList, [Str.rstrip ws url])]

/-- What a record says; what comes later replaces what came earlier under the same key. -/
inductive Record.Says (ws : Char → Bool) : Record → List (Str × List Str) → Prop where
  | full (name : Str) (entries : List Entry) (facts : List (List (Str × List Str))) :
      List.Forall₂ (Entry.Says ws) entries facts →
      Record.Says ws ⟨name, entries, none⟩ (("Name".toList, [Str.rstrip ws name]) :: facts.flatten)
  | cut (name : Str) (entries : List Entry) (facts : List (List (Str × List Str))) (l v : Str) :
      List.Forall₂ (Entry.Says ws) entries facts → Labelled l "Author".toList v →
      Record.Says ws ⟨name, entries, some l⟩ (("Name".toList, [Str.rstrip ws name]) :: facts.flatten ++ [("Author".toList, [Str.rstrip ws v])])

/-- The fields of a record which says this. -/
def fields (facts : List (Str × List Str)) : Dict Str (List Str) := Dict.update [] facts

end Verif.Spec.ProQuest
