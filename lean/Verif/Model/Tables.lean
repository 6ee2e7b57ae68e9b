import Verif.Py.StrOps
import Verif.Py.Dict

/-!
# Model of the table builders of `metaknowledge/recordCollection.py`: `makeDict`, `forNLP`, `forBurst`, `findCopyright`

A table is the returned dictionary from column names to lists. Writing the table to a file is not modelled.
-/
set_option autoImplicit false
namespace Verif.Model.Tables
open Verif.Py

section Columns
variable {κ V ρ : Type} [DecidableEq κ]

/-- `retDict[k].append(v)`; `none` is `KeyError`. -/
def appendCell (d : Dict κ (List V)) (kv : κ × V) : Option (Dict κ (List V)) :=
  match d.get? kv.1 with
  | none => none
  | some l => some (d.set kv.1 (l ++ [kv.2]))

/-- The appends for one record. -/
def appendRow (d : Dict κ (List V)) (row : List (κ × V)) : Option (Dict κ (List V)) := row.foldlM appendCell d

/-! ## makeDict -/

/-- The names of the added columns. -/
structure Extras (κ : Type) where
  authors : κ
  male : κ
  female : κ
  unknown : κ

/-- What `makeDict` reads of a record: its tags, `R.get(tag)` (`None` when it is missing), the number of its authors and the counts of
their genders. -/
structure View (κ V ρ : Type) where
  keys : ρ → List κ
  get : ρ → κ → V
  numAuthors : ρ → V
  genders : ρ → V × V × V

/-- The tags of the records (recordCollection.py:729-732). -/
def allTags (keys : ρ → List κ) (recs : List ρ) : List κ :=
  recs.foldl (fun acc R => acc ++ (keys R).filter (fun t => t ∉ acc)) []

/-- The tags of the table (recordCollection.py:723-737). An empty selection counts as none given. `KeyError` is `none`. -/
def retrievedFields (toTag toFull : κ → Option κ) (only : Option (List κ)) (longNames : Bool) (keys : ρ → List κ) (recs : List ρ) :
    Option (List κ) :=
  let fields := match only with
    | some (t :: ts) => (t :: ts).map (fun t => (toTag t).getD t)
    | _ => allTags keys recs
  if longNames then fields.mapM toFull else some fields

/-- `subDict` (mkRecord.py:592-612). -/
def subDict (get : κ → V) (tags : List κ) : Dict κ V := tags.foldl (fun (d : Dict κ V) t => d.set t (get t)) []

/-- `retDict = {k : [] for k in retrievedFields}` and the added columns (recordCollection.py:738-742). -/
def initDict (ex : Extras κ) (numAuthors genderCounts : Bool) (fields : List κ) : Dict κ (List V) :=
  let d : Dict κ (List V) := fields.foldl (fun (d : Dict κ (List V)) t => d.set t []) []
  let d : Dict κ (List V) := if numAuthors then d.set ex.authors [] else d
  if genderCounts then ((d.set ex.male []).set ex.female []).set ex.unknown [] else d

/-- The appends of one record (recordCollection.py:744-752). -/
def rowOf (ex : Extras κ) (v : View κ V ρ) (numAuthors genderCounts : Bool) (fields : List κ) (R : ρ) : List (κ × V) :=
  (if numAuthors then [(ex.authors, v.numAuthors R)] else []) ++
  (if genderCounts then [(ex.male, (v.genders R).1), (ex.female, (v.genders R).2.1), (ex.unknown, (v.genders R).2.2)] else []) ++
  subDict (v.get R) fields

/-- `RecordCollection.makeDict` (recordCollection.py:698-753). `none` is `KeyError`. -/
def makeDict (ex : Extras κ) (toTag toFull : κ → Option κ) (v : View κ V ρ) (only : Option (List κ)) (longNames numAuthors genderCounts : Bool)
    (recs : List ρ) : Option (Dict κ (List V)) := do
  let fields ← retrievedFields toTag toFull only longNames v.keys recs
  recs.foldlM (fun d R => appendRow d (rowOf ex v numAuthors genderCounts fields R)) (initDict ex numAuthors genderCounts fields)

end Columns

/-! ## findCopyright -/

/-- The strings `findCopyright` looks for first (recordCollection.py:1816). -/
def possibleHits : List Str :=
  [". &COPY; ".toList, ". Crown Copyright".toList, " Elsevier Ltd. ".toList, ". Copyright".toList, ". Published by Els".toList,
   ". (c) ".toList, ". (C) ".toList]

/-- Four digits followed by a given string, taken off the front of `s`. -/
def fourDigits (digit : Char → Bool) (rest : Str) (s : Str) : Option Str :=
  match s with
  | a :: b :: c :: d :: t => if digit a && digit b && digit c && digit d && rest.isPrefixOf t then some ([a, b, c, d] ++ rest) else none
  | _ => none

/-- An optional character. -/
def optChar (x : Char) (s : Str) : Str × Str :=
  match s with
  | c :: t => if c = x then ([x], t) else ([], s)
  | [] => ([], [])

/-- The first alternative of the regular expression, `[.] [(]?(c|C)[)]? \d\d\d\d `, at the start of the string; the text matched. -/
def matchC (digit : Char → Bool) (s : Str) : Option Str :=
  match s with
  | '.' :: ' ' :: t =>
    let o := optChar '(' t
    match o.2 with
    | c :: u =>
      if c = 'c' ∨ c = 'C' then
        let p := optChar ')' u
        match p.2 with
        | ' ' :: w => (fourDigits digit [' '] w).map (fun m => ['.', ' '] ++ o.1 ++ [c] ++ p.1 ++ [' '] ++ m)
        | _ => none
      else none
    | [] => none
  | _ => none

/-- The second alternative, `[.] \d\d\d\d Elsevier`. -/
def matchElsevier (digit : Char → Bool) (s : Str) : Option Str :=
  match s with
  | '.' :: ' ' :: t => (fourDigits digit " Elsevier".toList t).map (fun m => ['.', ' '] ++ m)
  | _ => none

/-- `re.search` (recordCollection.py:1823): the text of the first match. -/
def searchCopyright (digit : Char → Bool) : Str → Option Str
  | [] => none
  | c :: s =>
    match matchC digit (c :: s) with
    | some m => some m
    | none => match matchElsevier digit (c :: s) with
      | some m => some m
      | none => searchCopyright digit s

/-- The string at which to split, if any (recordCollection.py:1816-1825). -/
def splitString (digit : Char → Bool) (s : Str) : Option Str :=
  match possibleHits.find? (fun t => Str.contains t s) with
  | some t => some t
  | none => searchCopyright digit s

/-- `findCopyright` (recordCollection.py:1815-1833). -/
def findCopyright (ws digit : Char → Bool) (s : Str) : Str × Str :=
  match splitString digit s with
  | none => (s, [])
  | some sep =>
    let cop := Str.split sep s
    let last := Str.rstrip ws (cop.getLast?.getD [])
    match sep with
    | '.' :: rest => (Str.join sep cop.dropLast ++ ['.'], rest ++ last)
    | _ => (Str.join sep cop.dropLast, sep ++ last)

/-! ## forNLP and forBurst -/

/-- Character classes and letter case, which are not defined here. -/
structure Chars where
  space : Char → Bool
  word : Char → Bool
  digit : Char → Bool
  lower : Str → Str

/-- `re.sub(r'\s+', ' ', s)` (recordCollection.py:624); the flag says that the last character was white space. -/
def collapse (ws : Char → Bool) : Bool → Str → Str
  | _, [] => []
  | inRun, c :: s =>
    if ws c then (if inRun then collapse ws true s else ' ' :: collapse ws true s) else c :: collapse ws false s

/-- Removing the characters of `otherString` other than spaces (recordCollection.py:598-613, 631). -/
def dropOther (ch : Chars) (numbers nonWords : Bool) (s : Str) : Str :=
  s.filter (fun c => c == ' ' || !((numbers && ch.digit c) || (nonWords && !ch.word c)))

/-- The loop over the drop list (recordCollection.py:619-621). -/
def dropAll (dropList : List Str) (s : Str) : Str :=
  dropList.foldl (fun s d =>
    let d := [' '] ++ d ++ [' ']
    if Str.contains d s then Str.replace d [' '] s else s) s

/-- The options of `forNLP`. -/
structure NlpOpts where
  dropList : Option (List Str)
  lower : Bool
  numbers : Bool
  nonWords : Bool
  whitespace : Bool
  copyright : Bool
  stemmer : Option (Str → Str)

/-- `abPrep` (recordCollection.py:615-640): the processed abstract and the copyright statement. -/
def abPrep (ch : Chars) (o : NlpOpts) (ab : Str) : Str × Str :=
  let ab := match o.dropList with
    | none => ab
    | some l => ((dropAll l ([' '] ++ Str.replace ['\n'] [' '] ab ++ [' '])).drop 1).dropLast
  let ab := if o.whitespace then collapse ch.space false ab else ab
  let p := if o.copyright then findCopyright ch.space ch.digit ab else (ab, [])
  let ab := if o.lower then ch.lower p.1 else p.1
  let ab := dropOther ch o.numbers o.nonWords ab
  let ab := match o.stemmer with
    | none => ab
    | some f => Str.join [' '] ((Str.split [' '] ab).map f)
  (ab, p.2)

/-- A value of an extra column before it is written (recordCollection.py:675-680). -/
inductive Extra (V : Type) where
  | list (l : List Str)
  | missing
  | val (v : V)

/-- What `forNLP` reads of a record. `str` makes a cell of a string. -/
structure NlpView (V ρ : Type) where
  str : Str → V
  id : ρ → V
  year : ρ → V
  title : ρ → V
  keywords : ρ → List Str
  abstract : ρ → Str
  extra : ρ → Str → Extra V

variable {V ρ : Type}

/-- The built-in columns. -/
def builtins : List Str := ["id".toList, "year".toList, "title".toList, "keywords".toList, "abstract".toList]

/-- Taking the built-in columns off the extra ones (recordCollection.py:653-658); `list.remove` takes the first occurrence. -/
def extraList (extra : Option (List Str)) : List Str :=
  match extra with
  | none => []
  | some l => builtins.foldl (fun l b => if b ∈ l then l.erase b else l) l

/-- `retDict` before the loop (recordCollection.py:650-660). -/
def nlpInit (copyright : Bool) (extra : List Str) : Dict Str (List V) :=
  let d : Dict Str (List V) := builtins.map (fun b => (b, []))
  let d := if copyright then d.set "copyright".toList [] else d
  extra.foldl (fun d c => d.set c []) d

/-- The cell of an extra column. -/
def extraCell (v : NlpView V ρ) (R : ρ) (t : Str) : V :=
  match v.extra R t with
  | .list l => v.str (Str.join ['|'] l)
  | .missing => v.str []
  | .val x => x

/-- The appends of one record (recordCollection.py:665-680). -/
def nlpRow (ch : Chars) (o : NlpOpts) (v : NlpView V ρ) (extra : List Str) (R : ρ) : List (Str × V) :=
  let p := abPrep ch o (v.abstract R)
  [("id".toList, v.id R), ("year".toList, v.year R), ("title".toList, v.title R), ("keywords".toList, v.str (Str.join ['|'] (v.keywords R))),
   ("abstract".toList, v.str p.1)] ++
  (if o.copyright then [("copyright".toList, v.str p.2)] else []) ++ extra.map (fun t => (t, extraCell v R t))

/-- `RecordCollection.forNLP` (recordCollection.py:554-696). -/
def forNLP (ch : Chars) (o : NlpOpts) (v : NlpView V ρ) (extra : Option (List Str)) (recs : List ρ) : Option (Dict Str (List V)) :=
  let ex := extraList extra
  recs.foldlM (fun d R => appendRow d (nlpRow ch o v ex R)) (nlpInit o.copyright ex)

/-- `burstPreper` (recordCollection.py:493-514). -/
def burstPrep (ch : Chars) (o : NlpOpts) (s : Str) : List Str :=
  let s := match o.dropList with
    | none => s
    | some l => ((dropAll l ([' '] ++ s ++ [' '])).drop 1).dropLast
  let s := if o.whitespace then collapse ch.space false s else s
  let s := if o.lower then ch.lower s else s
  let toks := Str.split [' '] (dropOther ch o.numbers o.nonWords s)
  match o.stemmer with
  | none => toks
  | some f => toks.map f

/-- What `forBurst` reads of a record: the year if there is one, and the text of the tag, the items of a list joined by spaces
(recordCollection.py:529-541). -/
structure BurstView (Y ρ : Type) where
  year : ρ → Option Y
  text : ρ → Option Str

/-- One round of the loop (recordCollection.py:526-544). -/
def burstStep {Y : Type} (ch : Chars) (o : NlpOpts) (v : BurstView Y ρ) (acc : List Y × List Str) (R : ρ) : List Y × List Str :=
  match v.year R with
  | none => acc
  | some y => match v.text R with
    | none => acc
    | some t => (burstPrep ch o t).foldl (fun a tok => (a.1 ++ [y], a.2 ++ [tok])) acc

/-- `RecordCollection.forBurst` (recordCollection.py:436-553): the columns `year` and `word`. The option `copyright` plays no part. -/
def forBurst {Y : Type} (ch : Chars) (o : NlpOpts) (v : BurstView Y ρ) (recs : List ρ) : List Y × List Str :=
  recs.foldl (burstStep ch o v) ([], [])

end Verif.Model.Tables
