import Verif.Py.Dict

/-!
# Model of field access in `metaknowledge/mkRecord.py` (`ExtendedRecord`)

A record is its fields and its memo (`_computedFields`). The class is given by `alt` (`getAltName`), `proc` (`tagProcessingFunc(tag)` applied to
the raw value) and `special` (`specialFuncs`). A special function is a program that reads other tags of the same record, which fills the
memo, and then returns or raises. Values are immutable here: the code returns the memoised object itself, so a caller that changes a
returned list changes later reads.
-/
set_option autoImplicit false
namespace Verif.Model.RecordAccess
open Verif.Py

/-- Exceptions of an access; `recursion` is Python's `RecursionError`. -/
inductive AErr where
  | keyError | recursion | other
deriving DecidableEq, Repr

/-- A special function: it reads tags, goes on with what the read gave, and ends with a value or an exception. -/
inductive Prog (κ V : Type) where
  | done (r : Except AErr V)
  | read (k : κ) (cont : Except AErr V → Prog κ V)

/-- A subclass of `ExtendedRecord` (mkRecord.py:469-532), for one record. -/
structure Cls (κ Raw V : Type) where
  alt : κ → Option κ
  proc : κ → Raw → Except AErr V
  special : κ → Prog κ V

/-- The two dictionaries of a record (mkRecord.py:86, 317). -/
structure Rec (κ Raw V : Type) where
  fields : Dict κ Raw
  memo : Dict κ V

variable {κ Raw V : Type} [DecidableEq κ]

/-- The last lines of `__getitem__` (mkRecord.py:355-361). -/
def store (C : Cls κ Raw V) (R : Rec κ Raw V) (key : κ) (r : Except AErr V) : Except AErr V × Rec κ Raw V :=
  match r with
  | .error e => (.error e, R)
  | .ok v =>
    let memo := R.memo.set key v
    match C.alt key with
    | some a => (.ok v, ⟨R.fields, memo.set a v⟩)
    | none => (.ok v, ⟨R.fields, memo⟩)

/-- Running a special function; `g` is `__getitem__`. -/
def runProg (g : Rec κ Raw V → κ → Except AErr V × Rec κ Raw V) : Prog κ V → Rec κ Raw V → Except AErr V × Rec κ Raw V
  | .done r, R => (r, R)
  | .read k c, R => runProg g (c (g R k).1) (g R k).2

/-- `self.getAltName(key) in self._fieldDict`, with the name and the raw value. -/
def altField (C : Cls κ Raw V) (R : Rec κ Raw V) (key : κ) : Option (κ × Raw) :=
  match C.alt key with
  | none => none
  | some a => match R.fields.get? a with
    | none => none
    | some raw => some (a, raw)

/-- `ExtendedRecord.__getitem__` (mkRecord.py:337-363) for a string key. The number is how deep special functions may nest. -/
def getitem (C : Cls κ Raw V) : Nat → Rec κ Raw V → κ → Except AErr V × Rec κ Raw V
  | n, R, key =>
    match R.memo.get? key with
    | some v => (.ok v, R)
    | none =>
      match R.fields.get? key with
      | some raw => store C R key (C.proc key raw)
      | none =>
        match altField C R key with
        | some p => store C R p.1 (C.proc p.1 p.2)
        | none =>
          match n with
          | 0 => (.error .recursion, R)
          | n + 1 =>
            let p := runProg (getitem C n) (C.special key) R
            store C p.2 key p.1

/-- `ExtendedRecord.get` (mkRecord.py:366-396) with `raw = False`. -/
def get (C : Cls κ Raw V) (n : Nat) (R : Rec κ Raw V) (key : κ) (default : V) : Except AErr V × Rec κ Raw V :=
  match getitem C n R key with
  | (.ok v, R') => (.ok v, R')
  | (.error .keyError, R') => (.ok default, R')
  | (.error e, R') => (.error e, R')

/-- `ExtendedRecord.get` (mkRecord.py:386-392) with `raw = True`. -/
def getRaw (C : Cls κ Raw V) (R : Rec κ Raw V) (key : κ) (default : Raw) : Raw :=
  match R.fields.get? key with
  | some raw => raw
  | none => match altField C R key with
    | some p => p.2
    | none => default

/-- `ExtendedRecord.__contains__` (mkRecord.py:319-334). -/
def contains (C : Cls κ Raw V) (n : Nat) (R : Rec κ Raw V) (key : κ) : Except AErr Bool × Rec κ Raw V :=
  if (R.fields.get? key).isSome || (altField C R key).isSome || (R.memo.get? key).isSome then (.ok true, R)
  else
    let p := runProg (getitem C n) (C.special key) R
    match p.1 with
    | .error .keyError => (.ok false, p.2)
    | .error e => (.error e, p.2)
    | .ok v => (.ok true, (store C p.2 key (.ok v)).2)

/-- The property `authors` of a record (mkRecord.py:538-544). `none` is the value `None`, which a missing field and also some fields give. -/
def authors (C : Cls String Raw V) (n : Nat) (R : Rec String Raw V) (isNone : V → Bool) (none : V) : Except AErr V × Rec String Raw V :=
  match get C n R "authorsFull" none with
  | (.ok v, R') => if isNone v then get C n R' "authorsShort" none else (.ok v, R')
  | (.error e, R') => (.error e, R')

/-- The property `title` of a record (mkRecord.py:534-536). -/
def title (C : Cls String Raw V) (n : Nat) (R : Rec String Raw V) (untitled : V) : Except AErr V × Rec String Raw V := get C n R "title" untitled

/-- Something that reads a record. -/
inductive Op (κ V : Type) where
  | item (k : κ)
  | get (k : κ) (default : V)
  | mem (k : κ)

/-- The record after a read. -/
def after (C : Cls κ Raw V) (n : Nat) (R : Rec κ Raw V) : Op κ V → Rec κ Raw V
  | .item k => (getitem C n R k).2
  | .get k d => (get C n R k d).2
  | .mem k => (contains C n R k).2

/-! ## The special functions of the four record classes -/

/-- `R[k]` followed by a computation. -/
def read1 (k : κ) (f : V → Except AErr V) : Prog κ V :=
  .read k (fun r => match r with | .ok v => .done (f v) | .error e => .done (.error e))

/-- `R.get(k, False)` inside a special function. -/
def getOr (k : κ) (cont : Option V → Prog κ V) : Prog κ V :=
  .read k (fun r => match r with
    | .ok v => cont (some v)
    | .error .keyError => cont none
    | .error e => .done (.error e))

/-- `createCitation()` (mkRecord.py:632-658): `get` of each tag, a second access when the first gave something true. `fin` makes the
citation from what was read. -/
def citeProg (truthy : V → Bool) (fin : List (Option V) → Except AErr V) : List String → List (Option V) → Prog String V
  | [], acc => .done (fin acc)
  | k :: ks, acc => getOr k (fun o => match o with
    | none => citeProg truthy fin ks (acc ++ [none])
    | some v => if truthy v then getOr k (fun o' => citeProg truthy fin ks (acc ++ [o'])) else citeProg truthy fin ks (acc ++ [none]))

/-- The tags `createCitation` reads (mkRecord.py:634-652). The title is read only without a `j9`; here it is always read. -/
def citeTags : List String := ["authorsShort", "year", "j9", "title", "volume", "beginningPage", "DOI"]

/-- The special functions of `WOSRecord` (WOS/recordWOS.py:104-113). -/
def wosSpecial (truthy : V → Bool) (fin : List (Option V) → Except AErr V) (ident noGrants : V) (k : String) : Prog String V :=
  if k = "selfCitation" then citeProg truthy fin citeTags []
  else if k = "id" then .done (.ok ident)
  else if k = "grants" then .done (.ok noGrants)
  else .done (.error .keyError)

/-- The tag each simple entry of `medlineSpecialTagToFunc` reads (medline/tagProcessing/specialFunctions.py:46-70). `address` reads a second
tag, `AU`. -/
def medlineReads : List (String × String) :=
  [("year", "DP"), ("month", "DP"), ("volume", "VI"), ("beginningPage", "PG"), ("DOI", "AID"), ("j9", "TA"), ("grants", "GR"),
   ("authorsShort", "AU"), ("authorsFull", "FAU"), ("title", "TI"), ("journal", "JT"), ("keywords", "OT"), ("abstract", "AB")]

/-- The special functions of `MedlineRecord` (medline/tagProcessing/specialFunctions.py). `post` is what each does with the value it reads. -/
def medlineSpecial (truthy : V → Bool) (fin : List (Option V) → Except AErr V) (ident : V) (post : String → V → Except AErr V)
    (addr : V → V → Except AErr V) (k : String) : Prog String V :=
  if k = "selfCitation" then citeProg truthy fin citeTags []
  else if k = "id" then .done (.ok ident)
  else if k = "address" then .read "AD" (fun r => match r with
    | .error e => .done (.error e)
    | .ok ad => read1 "AU" (addr ad))
  else match Dict.get? medlineReads k with
    | some t => read1 t (post k)
    | none => .done (.error .keyError)

/-- The tag each entry of `scopusSpecialTagToFunc` reads (scopus/tagProcessing/specialFunctions.py:1-20). -/
def scopusReads : List (String × String) :=
  [("year", "Year"), ("volume", "Volume"), ("beginningPage", "Page start"), ("j9", "Abbreviated Source Title"), ("citations", "References"),
   ("authorsShort", "Authors"), ("authorsFull", "Authors"), ("title", "Title"), ("journal", "Source title"),
   ("keywords", "Index Keywords"), ("abstract", "Abstract"), ("id", "EID")]

/-- The special functions of `ScopusRecord` (scopus/recordScopus.py:98-99). `createCitation` is overridden there and reads the same kind
of tags (scopus/recordScopus.py:107-164). -/
def scopusSpecial (truthy : V → Bool) (fin : List (Option V) → Except AErr V) (k : String) : Prog String V :=
  if k = "selfCitation" then citeProg truthy fin ["authorsShort", "title", "year", "journal", "volume", "beginningPage"] []
  else match Dict.get? scopusReads k with
    | some t => read1 t .ok
    | none => .done (.error .keyError)

/-- The tag each entry of `proQuestSpecialTagToFunc` reads (proquest/tagProcessing/specialFunctions.py:1-19). -/
def proQuestReads : List (String × String) :=
  [("authorsShort", "Author"), ("keywords", "Identifier / keyword"), ("abstract", "Abstract"), ("year", "Degree date"), ("title", "Title")]

/-- The special functions of `ProQuestRecord` (proquest/recordProQuest.py:63-65). `authorsFull` returns the string `'Author'`. -/
def proQuestSpecial (truthy : V → Bool) (fin : List (Option V) → Except AErr V) (ident zero author : V) (k : String) : Prog String V :=
  if k = "selfCitation" then citeProg truthy fin citeTags []
  else if k = "id" then .done (.ok ident)
  else if k = "beginningPage" then .done (.ok zero)
  else if k = "authorsFull" then .done (.ok author)
  else match Dict.get? proQuestReads k with
    | some t => read1 t .ok
    | none => .done (.error .keyError)

end Verif.Model.RecordAccess
