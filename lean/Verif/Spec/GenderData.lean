import Verif.Model.GenderData
import Verif.Spec.Gender

/-!
# What the table of names says, over many sessions (C107)
-/
set_option autoImplicit false
namespace Verif.Spec.GenderData
open Verif.Py Verif.Model.GenderData Verif.Spec.Gender

/-- What a user does: asking for a name, loading a table, downloading one on purpose, starting anew. Downloads made on the way have the fate given. -/
inductive Act where
  | ask (s : Str) (noExcept : Bool) (fate : Fate)
  | load (useUK : Bool) (fate : Fate)
  | download (useUK : Bool) (fate : Fate)
  | newSession

/-- The download of the action, if it makes one, is not broken off in the middle of the file. -/
def Act.Whole : Act → Prop
  | .ask _ _ f => ∀ n, f ≠ .cut n
  | .load _ f => ∀ n, f ≠ .cut n
  | .download _ f => ∀ n, f ≠ .cut n
  | .newSession => True

/-- The action does not ask for the table of the United Kingdom. -/
def Act.American : Act → Prop
  | .load useUK _ => useUK = false
  | .download useUK _ => useUK = false
  | _ => True

/-- The action is not a download on purpose. -/
def Act.Passive : Act → Prop
  | .download _ _ => False
  | _ => True

/-- The state after an action, whatever it answered or raised. -/
def step (title : Str → Str) (a : Archive) (st : St) : Act → St
  | .ask s noExcept fate => (nameStringGender title a fate noExcept s st).1
  | .load useUK fate => (getMapping title a useUK fate st).1
  | .download useUK fate => { st with file := (downloadData a useUK fate st.file).1 }
  | .newSession => { st with mapping := none }

def run (title : Str → Str) (a : Archive) (h : List Act) (st : St) : St := h.foldl (step title a) st

/-- Nothing has been downloaded yet. -/
def fresh : St := ⟨none, none⟩

/-- A table of names: a heading and rows of nine columns, of which the first is a name and the fifth what is known of it. -/
structure Table where
  heading : List Cell
  rows : List (List Cell)

/-- Rows are not empty and no text in them has a carriage return. -/
structure Table.Ok (t : Table) : Prop where
  heading : t.heading ≠ [] ∧ ∀ c ∈ t.heading, Csv.CellOk c
  rows : ∀ r ∈ t.rows, r ≠ [] ∧ ∀ c ∈ r, Csv.CellOk c

/-- The file of a table. -/
def Table.text (t : Table) : Str := Csv.rows (t.heading :: t.rows)

/-- What a table says of a first name: the fifth column of the last row with that name, however it is capitalized. -/
def Table.says (title : Str → Str) (t : Table) (first : Str) : Option (Option Str) :=
  (t.rows.reverse.find? (fun r => decide (title (Csv.text (r.headD (.str []))) = title first))).map (fun r => (r.map Csv.text)[4]?)

/-- What should be answered for an author's name: what the table says of the first name, `Unknown` when it does not have it or there is none. -/
def Right (title : Str → Str) (t : Table) (s : Str) (g : Option Str) : Prop :=
  (∃ first, FirstName s first ∧ g = (t.says title first).getD (some "Unknown".toList)) ∨
  ((¬ ∃ first, FirstName s first) ∧ g = some "Unknown".toList)

end Verif.Spec.GenderData
