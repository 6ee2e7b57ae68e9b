import Verif.Model.Cli
import Verif.Model.JournalDB

/-!
# Model of the menus of `metaknowledge/bin/metaknowledgeCLI.py`

As in `Verif.Model.Cli` the lines the user types are a list, a dialogue reads them one by one, and what is printed is left out. A dialogue gives its
answer and the lines not read, or says how it stops. The tags of the collection, the existing files and the reader of files are parameters. Networks and
files are named, not made: `Net` and `Job` say which function of the library is called with which arguments.
-/
set_option autoImplicit false
namespace Verif.Model.CliRun
open Verif.Py Verif.Model.Cli

/-- How a dialogue stops: no lines are left (`EOFError`), `sys.exit()`, or the `TypeError` of `int(None)`. -/
inductive Stop where
  | eof | quit | typeError
deriving DecidableEq, Repr

/-- `int(inputMenu(…))` (metaknowledgeCLI.py:39-67) for the keys of a menu: after `i` the console is opened, taken to change nothing, `inputMenu` returns
`None` and `int` raises. -/
def menu (keys : List Str) : List Str → Except Stop (Str × List Str)
  | [] => .error .eof
  | l :: rest =>
    if l ∈ keys then .ok (l, rest)
    else if l = ['q'] then .error .quit
    else if l = ['i'] then .error .typeError
    else menu keys rest

/-- `Tag` (metaknowledgeCLI.py:86-95) without `nMode`: `upper` is `str.upper`, `tags` are those of the collection. -/
def readTag (upper : Str → Str) (tags : List Str) : List Str → Except Stop (Str × List Str)
  | [] => .error .eof
  | l :: rest => if upper l ∈ tags then .ok (upper l, rest) else readTag upper tags rest

/-- The tags after the first one of an n-mode network (metaknowledgeCLI.py:236-239), read with `nMode`: an empty line ends them. The loop also ends at
the empty tag. -/
def moreTags (upper : Str → Str) (tags : List Str) : List Str → Except Stop (List Str × List Str)
  | [] => .error .eof
  | l :: rest =>
    if upper l = [] then .ok ([], rest)
    else if upper l ∈ tags then
      match moreTags upper tags rest with
      | .ok (ts, rest) => .ok (upper l :: ts, rest)
      | .error e => .error e
    else moreTags upper tags rest

/-- The calls that make a network. -/
inductive Net where
  | oneMode (t : Str) | twoMode (t u : Str) | multiMode (ts : List Str) | citation | coCitation | coAuthor
deriving DecidableEq, Repr

/-- `getNetwork` (metaknowledgeCLI.py:214-250). -/
def getNetwork (upper : Str → Str) (tags : List Str) (lines : List Str) : Except Stop (Net × List Str) := do
  let (n, lines) ← menu [['1'], ['2'], ['3'], ['4'], ['5'], ['6']] lines
  if n = ['1'] then
    let (t, lines) ← readTag upper tags lines
    .ok (.oneMode t, lines)
  else if n = ['2'] then
    let (t, lines) ← readTag upper tags lines
    let (u, lines) ← readTag upper tags lines
    .ok (.twoMode t u, lines)
  else if n = ['3'] then
    let (t, lines) ← readTag upper tags lines
    let (ts, lines) ← moreTags upper tags lines
    .ok (.multiMode (t :: ts), lines)
  else if n = ['4'] then .ok (.citation, lines)
  else if n = ['5'] then .ok (.coCitation, lines)
  else .ok (.coAuthor, lines)

/-- What is done with the collection before a network is made. -/
inductive Job where
  | nothing | writeFile (name : Str) | writeCSV (name : Str) | citations (journals : Bool) (name : Str) | review (db : Str)
deriving DecidableEq, Repr

/-- `yesorNo` (metaknowledgeCLI.py:29-37). -/
def askYes (upper : Str → Str) : List Str → Except Stop (Bool × List Str)
  | [] => .error .eof
  | l :: rest => match yes? upper l with | some b => .ok (b, rest) | none => askYes upper rest

/-- `getOutputName` with the end of the input as a `Stop`. -/
def outName (upper : Str → Str) (there : Str → Bool) (name suffix : Str) (lines : List Str) : Except Stop (Str × List Str) :=
  match getOutputName upper there name suffix true lines with
  | some r => .ok r
  | none => .error .eof

/-- `getWhatToDo` (metaknowledgeCLI.py:139-210) up to the job: which one, and whether a network is made afterwards. `name` is the value of `--name`,
`manual` the name of the default database. -/
def getWhatToDo (upper : Str → Str) (there : Str → Bool) (name manual : Str) (lines : List Str) : Except Stop ((Job × Bool) × List Str) := do
  let (n, lines) ← menu [['1'], ['2'], ['3'], ['4'], ['5'], ['6'], ['7']] lines
  if n = ['1'] then .ok ((.nothing, true), lines)
  else if n = ['2'] ∨ n = ['3'] then
    let (f, lines) ← outName upper there name ".txt".toList lines
    .ok ((.writeFile f, decide (n = ['3'])), lines)
  else if n = ['4'] ∨ n = ['5'] then
    let (f, lines) ← outName upper there name ".csv".toList lines
    .ok ((.writeCSV f, decide (n = ['5'])), lines)
  else if n = ['6'] then
    let (b, lines) ← askYes upper lines
    let (f, lines) ← outName upper there name ".csv".toList lines
    .ok ((.citations b f, false), lines)
  else
    match lines with
    | [] => .error .eof
    | l :: lines => .ok ((.review (if l = [] then manual else l), false), lines)

/-- The lines written for option 6 (metaknowledgeCLI.py:170-182): the texts of the citations of each record, as a set. -/
def citationLines {γ : Type} (text : γ → Str) (isJournal : γ → Bool) (journals : Bool) (records : List (List γ)) : List Str :=
  (records.flatMap (fun cs => (if journals then cs.filter isJournal else cs).map (fun c => text c ++ ['\n']))).dedup

/-- What the dialogue on the output writes. -/
inductive Output where
  | both (name : Str) (overwrite : Bool) | edges (name : Str) | nodes (name : Str) | graphml (name : Str)
deriving DecidableEq, Repr

/-- `outputNetwork` (metaknowledgeCLI.py:285-331). `contour` says that the plotting module can be imported: option 0 shows the graph and asks again (`quickVisual` is in `Verif.Model.Plotting`; that
it may raise is left out).
`--name` is `name`; the recursion is bounded by the number of lines (`fuel`). -/
def outputNetwork (upper : Str → Str) (there clash : Str → Bool) (contour : Bool) (name : Str) : Nat → List Str → Except Stop (Output × List Str)
  | 0, _ => .error .eof
  | fuel + 1, lines => do
    let (n, lines) ← menu ((if contour then [['0']] else []) ++ [['1'], ['2'], ['3'], ['4']]) lines
    if n = ['0'] then outputNetwork upper there clash contour name fuel lines
    else if n = ['1'] then
      match writeGraphAs upper there clash name lines with
      | some (f, o, lines) => .ok (.both f o, lines)
      | none => .error .eof
    else if n = ['2'] then
      let (f, lines) ← outName upper there name ".csv".toList lines
      .ok (.edges f, lines)
    else if n = ['3'] then
      let (f, lines) ← outName upper there name ".csv".toList lines
      .ok (.nodes f, lines)
    else
      let (f, lines) ← outName upper there name ".graphml".toList lines
      .ok (.graphml f, lines)

/-! ## The files -/

/-- How reading the files ends without a collection: a path that does not exist (`TypeError`), the exception of a reader, or the end of the input. -/
inductive FStop where
  | missing (path : Str) | reader (path : Str) | eof
deriving DecidableEq, Repr

/-- The loop of `getFiles` over the files (metaknowledgeCLI.py:108-113): `full` is `abspath(expanduser(f))`, `read` the records of a file or directory,
`none` when `RecordCollection` raises. The union of sets of records is written as a list without repetitions. -/
def readAll {ρ : Type} [DecidableEq ρ] (full : Str → Str) (there : Str → Bool) (read : Str → Option (List ρ)) : List Str → List ρ → Except FStop (List ρ)
  | [], acc => .ok acc
  | f :: fs, acc =>
    if there (full f) then
      match read (full f) with
      | some rs => readAll full there read fs (acc ++ rs.dedup.filter (fun r => decide (r ∉ acc)))
      | none => .error (.reader (full f))
    else .error (.missing (full f))

/-- `getFiles` without files (metaknowledgeCLI.py:122-137): the user is asked for them until all of them exist, and `getFiles` is called with their
full paths. -/
def askFiles {ρ : Type} [DecidableEq ρ] (full : Str → Str) (there : Str → Bool) (read : Str → Option (List ρ)) :
    List Str → Except FStop (List ρ × List Str)
  | [] => .error .eof
  | l :: rest =>
    if ((Str.split [' '] l).map full).all there then (readAll full there read ((Str.split [' '] l).map full) []).map (fun rs => (rs, rest))
    else askFiles full there read rest

/-- `getFiles` (metaknowledgeCLI.py:105-137). -/
def getFiles {ρ : Type} [DecidableEq ρ] (full : Str → Str) (there : Str → Bool) (read : Str → Option (List ρ)) (files lines : List Str) :
    Except FStop (List ρ × List Str) :=
  if files = [] then askFiles full there read lines
  else (readAll full there read files []).map (fun rs => (rs, lines))

/-! ## Going over the citations -/

open Verif.Model.JournalDB (Sess DBs Err)

/-- The databases during option 7: those that `isJournal` reads, with the database the user named as the manual one, the abbreviations loaded, and the
default manual database where the user named another. -/
structure RState where
  sess : Sess
  dflt : Option (Dict Str Str)

/-- `c.addToDB(invert = True)` (metaknowledgeCLI.py:203), which is not told the name of the database: `same` says that the database named is the default. -/
def skipJournal (same : Bool) (journal : Option Str) (r : RState) : Option Err × RState :=
  if same then
    let p := JournalDB.citeAdd (some journal) none true r.sess
    (p.1, { r with sess := p.2 })
  else
    let p := JournalDB.citeAdd (some journal) none true { r.sess with dbs := { r.sess.dbs with manual := r.dflt } }
    (p.1, ⟨{ p.2 with dbs := { p.2.dbs with manual := r.sess.dbs.manual } }, p.2.dbs.manual⟩)

/-- `c.addToDB(manualDB = dbName)` (metaknowledgeCLI.py:200). -/
def addJournal (journal : Option Str) (r : RState) : Option Err × RState :=
  let p := JournalDB.citeAdd (some journal) none false r.sess
  (p.1, { r with sess := p.2 })

/-- How going over the citations ends. -/
inductive REnd where
  | done | eof | raised (e : Err)
deriving DecidableEq, Repr

/-- The loop over the citations of all records (metaknowledgeCLI.py:189-204): a citation is its attribute `journal`, `none` when it has none. Gives the
end, the questions asked with their answers, and the databases. -/
def review (web : Option (List (List Str))) (upper : Str → Str) (same : Bool) :
    List (Option (Option Str)) → List Str → RState → REnd × List (Option Str × Bool) × RState
  | [], _, r => (.done, [], r)
  | none :: cs, lines, r => review web upper same cs lines r
  | some j :: cs, lines, r =>
    match JournalDB.isJournal web (some j) r.sess with
    | (.error e, s) => (.raised e, [], { r with sess := s })
    | (.ok (some _), s) => review web upper same cs lines { r with sess := s }
    | (.ok none, s) =>
      match JournalDB.isJournalExcluded web (some j) s with
      | (.error e, s) => (.raised e, [], { r with sess := s })
      | (.ok true, s) => review web upper same cs lines { r with sess := s }
      | (.ok false, s) =>
        match askYes upper lines with
        | .error _ => (.eof, [], { r with sess := s })
        | .ok (b, lines) =>
          match if b then addJournal j { r with sess := s } else skipJournal same j { r with sess := s } with
          | (some e, r) => (.raised e, [(j, b)], r)
          | (none, r) =>
            match review web upper same cs lines r with
            | (o, asked, r) => (o, (j, b) :: asked, r)

end Verif.Model.CliRun
