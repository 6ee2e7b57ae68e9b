import Verif.Spec.CliRun

/-!
# What going over the citations should do (C88)

A citation is its attribute `journal`: `none` when it has none, `some none` when it is `None`. A question is the journal asked for and the answer.
-/
set_option autoImplicit false
namespace Verif.Spec.CliReview
open Verif.Py Verif.Model.CliRun Verif.Spec.CliRun
open Verif.Model.JournalDB (Err)

/-- What a database file has for a journal; a missing file has nothing. -/
def held (db : Option (Dict Str Str)) (j : Str) : Option Str := (db.getD []).get? j

/-- What a file should have for a journal after the questions `asked`, when it takes the answers yes (`yes`) and the answers no (`no`): the journal itself
when it was added, the empty string when it is to be skipped, else what was there. -/
def updated (yes no : Bool) (asked : List (Option Str × Bool)) (old : Option Str) (j : Str) : Option Str :=
  if yes = true ∧ (some j, true) ∈ asked then some j else if no = true ∧ (some j, false) ∈ asked then some [] else old

/-- What holds of the questions of a review however it ends, when the journals with `known` are not asked for. `same` says that the database named is the
default. The lines typed are those of the answers, `typed`, and then `rest`. -/
structure Trace (upper : Str → Str) (same : Bool) (known : Str → Prop) (cites : List (Option (Option Str))) (lines : List Str)
    (asked : List (Option Str × Bool)) (typed : List (List Str)) (rest : List Str) (before after : RState) : Prop where
  once : (asked.map Prod.fst).Nodup
  order : (asked.map (fun q => some q.1)).Sublist cites
  new : ∀ j b, (some j, b) ∈ asked → ¬ known j
  answers : List.Forall₂ (fun q t => Answered upper q.2 t) asked typed
  lines : lines = typed.flatten ++ rest
  wos : after.sess.dbs.wos = before.sess.dbs.wos
  named : ∀ j, held after.sess.dbs.manual j = updated true same asked (held before.sess.dbs.manual j) j
  dflt : ∀ j, held after.dflt j = updated false (!same) asked (held before.dflt j) j

/-- What holds at the end. When it is over every journal was known or asked for, those to be skipped are cited once and every citation has a journal. When
it ran out of lines a question was open. When it raised an exception it met a citation whose journal is `None`, a journal again that was to be skipped, or
one whose entry is `broken`. -/
def Ended (upper : Str → Str) (known broken : Str → Prop) (cites : List (Option (Option Str))) (asked : List (Option Str × Bool)) (rest : List Str) : REnd → Prop
  | .done => (∀ j, some (some j) ∈ cites → ¬ broken j ∧ (known j ∨ ∃ b, (some j, b) ∈ asked)) ∧
      (∀ j, (some j, false) ∈ asked → cites.count (some (some j)) = 1) ∧ some none ∉ cites
  | .eof => (∀ l ∈ rest, ¬ Means upper true l ∧ ¬ Means upper false l) ∧ ∃ j, some j ∈ cites ∧ (∀ k, j = some k → ¬ known k) ∧ ∀ b, (j, b) ∉ asked
  | .raised e => e = .typeError ∧ some none ∈ cites ∧ (∃ b, asked.getLast? = some (none, b)) ∨
      e = .indexError ∧ ∃ j, some (some j) ∈ cites ∧ (broken j ∨ (some j, false) ∈ asked ∧ 2 ≤ cites.count (some (some j)))

end Verif.Spec.CliReview
