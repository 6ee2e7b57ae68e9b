import Verif.Model.ProQuest
import Verif.Model.OtherFields

/-!
# Model of reading a whole ProQuest file

`metaknowledge/proquest/proQuestHandlers.py`. The file is given by its lines (with their line ends); files with other encodings are not modelled.
Line numbers, which are used in messages only, are not modelled. `toInt` is `int` on a string (`none` = `ValueError`). The loops give the
records in the order of reading; `recordSet` is the set they are put into, which the loops do not read.
-/
set_option autoImplicit false
namespace Verif.Model.ProQuestFile
open Verif.Py Verif.Model.ProQuest

/-- The reasons for which an error is returned. -/
inductive Bad where
  /-- the numbering of the titles does not match -/
  | titles
  /-- there is something else where a record should start -/
  | separators
  /-- a `StopIteration` or a `ValueError` was caught -/
  | caught
  deriving DecidableEq, Repr

/-- What `proQuestParser` does: return records and possibly an error, or raise `KeyError`. -/
inductive Outcome where
  | done (recs : List Rec) (error : Option Bad)
  | raised
  deriving DecidableEq, Repr

def bibliography : Str := "Bibliography\n".toList

/-- The first loop (proQuestHandlers.py:70-79): the numbers and titles, and the lines that are left (`none` = `StopIteration` or `ValueError`). -/
def indexFrom (toInt : Str → Option Int) (d : Dict Int Str) : List Str → Option (Dict Int Str × List Str)
  | _ :: l :: ls =>
    if l = bibliography then (if ls.length < 3 then none else some (d, ls.drop 3))
    else
      let s := Str.split ". ".toList l
      match toInt (s.headD []) with
      | none => none
      | some n => indexFrom toInt (Dict.set d n (Str.join ". ".toList s.tail).dropLast) ls
  | _ => none

theorem parseFrom_rest (ws : Char → Bool) (cur : Cur) (d : Fields) (ls : List Str) : (parseFrom ws cur d ls).2.length ≤ ls.length := by
  induction ls generalizing cur d with
  | nil => simp [parseFrom]
  | cons l ls ih =>
    have ih' := fun cur d => Nat.le_succ_of_le (ih cur d)
    rw [parseFrom.eq_def]
    dsimp only
    split
    · simp
    · split
      · exact ih' _ _
      · split
        · exact ih' _ _
        · split
          · exact ih' _ _
          · split
            · exact ih' _ _
            · split
              · split
                · exact ih' _ _
                · simp
              · simp

/-- `R.get('Title')` of a record just read (mkRecord.py:366-396, `Title` has one line): `none` is `None`. -/
def titleOf (fs : Fields) : Option Str :=
  match Dict.get? fs "Title".toList with
  | some (v :: _) => some v
  | _ => none

/-- The second loop (proQuestHandlers.py:80-96). -/
def bodyFrom (ws : Char → Bool) (toInt : Str → Option Int) (names : Dict Int Str) (recs : List Rec) (lines : List Str) : Outcome :=
  match lines with
  | [] => .done recs (some .caught)
  | l :: ls =>
    if l = bibliography then .done recs none
    else if "Document ".toList.isPrefixOf l then
      match toInt ((Str.split " of ".toList (l.drop 9)).headD []) with
      | none => .done recs (some .caught)
      | some n =>
        match (recordParser ws ls).1 with
        | .error .stop => .done recs (some .caught)
        | .error .key => .raised
        | .ok fs =>
          match Dict.get? names n with
          | none => .raised
          | some t =>
            if titleOf fs = some t then
              if (recordParser ws ls).2 = [] then .done (recs ++ [mkRec fs]) (some .caught)
              else bodyFrom ws toInt names (recs ++ [mkRec fs]) (recordParser ws ls).2.tail
            else .done recs (some .titles)
    else .done recs (some .separators)
  termination_by lines.length
  decreasing_by
    have := parseFrom_rest ws .name [] ls
    show (parseFrom ws .name [] ls).2.tail.length < ls.length + 1
    rw [List.length_tail]
    omega

/-- `proQuestParser` (proQuestHandlers.py:42-100): twelve lines are skipped, then come the two loops. -/
def proQuestParser (ws : Char → Bool) (toInt : Str → Option Int) (lines : List Str) : Outcome :=
  if lines.length < 12 then .done [] (some .caught)
  else match indexFrom toInt [] (lines.drop 12) with
    | none => .done [] (some .caught)
    | some (names, ls) => bodyFrom ws toInt names [] ls

/-- What equality of records compares (mkRecord.py:90-106, 128-146), hashes taken to be without collisions: the id or, for a bad record, the
values of its fields (the message is the same for all, recordProQuest.py:46). -/
def key (r : Rec) : Sum Str (List (List Str)) := if r.bad then .inr (r.fields.map Prod.snd) else .inl r.id

/-- `recSet.add(R)` (proQuestHandlers.py:90). -/
def addRec (rs : List Rec) (r : Rec) : List Rec := if rs.any (fun s => key s = key r) then rs else rs ++ [r]

/-- The set which the records read are put into. -/
def recordSet (recs : List Rec) : List Rec := recs.foldl addRec []

/-- What the caller of `proQuestParser` gets: the set of the records and the error (proQuestHandlers.py:100). -/
def proQuestSet (ws : Char → Bool) (toInt : Str → Option Int) (lines : List Str) : Option (List Rec × Option Bad) :=
  match proQuestParser ws toInt lines with
  | .done recs e => some (recordSet recs, e)
  | .raised => none

end Verif.Model.ProQuestFile
