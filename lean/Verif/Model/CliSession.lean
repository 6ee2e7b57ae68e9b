import Verif.Model.CliRun

/-!
# Model of a session of the command line tool

Models `mkCLI` of `metaknowledge/bin/metaknowledgeCLI.py`, which runs the dialogues of `Verif.Model.CliRun` and `Verif.Model.Cli` one after the other on
the same lines and the same files. The functions of the library that read a collection, make a network and write a file are parameters, with what they
raise; the other modules say what they do. A file is found by the path its name leads to, so that two names may lead to the same file.

Simplified: a key to interrupt is only pressed at a prompt, in place of a line; asking whether a citation is of a journal does not raise for entry 6; the
files change by what the tool writes only; showing the graph (entry 0 of the last menu) does not raise; when writing the two files of a graph fails although neither
was there, the session fails at once (the tool takes an `OSError` as a question whether to overwrite, and fails when it tries again, or asks for another name). What is printed is left out.
-/
set_option autoImplicit false
namespace Verif.Model.CliSession
open Verif.Py Verif.Model.Cli Verif.Model.CliRun Verif.Model.GraphHelpers

/-- What the lines end with: the end of the input (`EOFError`), or a key to interrupt (`KeyboardInterrupt`). -/
inductive Last where
  | eof | interrupt
deriving DecidableEq, Repr

/-- What a call that writes a file does: the contents it leaves, `none` when it does not come to opening the file, and whether it raises. -/
structure Write (κ : Type) where
  left : Option κ
  raises : Bool

/-- The collection, the library and the system, as the tool sees them. `ρ` are records, `ν` nodes, `κ` contents of files, `π` paths. -/
structure World (ρ ν κ π : Type) where
  /-- `str.upper` -/
  upper : Str → Str
  /-- The lines end with this. -/
  last : Last
  /-- `abspath(expanduser(f))` -/
  full : Str → Str
  /-- `os.path.exists` for the files to be read -/
  there : Str → Bool
  /-- `RecordCollection(path, extension)`, `none` when it raises -/
  read : Str → Option (List ρ)
  /-- `collection.tags()` -/
  tags : List ρ → List Str
  /-- The functions that make a network, `none` when they raise -/
  make : Net → List ρ → Option (G ν)
  /-- `float` -/
  num : Str → Option Int
  /-- Whether the plotting module can be imported -/
  contour : Bool
  /-- The value of `--name`, empty when it is not given -/
  name : Str
  /-- The name of the default database of journals -/
  manual : Str
  /-- The path that a name leads to -/
  path : Str → π
  /-- Whether there is something that is no file at a path: a directory, a dangling link -/
  other : π → Bool
  /-- `writeFile`, `writeCSV`, and the lines of citations -/
  wos : Str → List ρ → Write κ
  csv : Str → List ρ → Write κ
  cites : Bool → Str → List ρ → Write κ
  /-- `writeEdgeList`, `writeNodeAttributeFile` and `write_graphml` -/
  edges : Str → G ν → Write κ
  nodes : Str → G ν → Write κ
  graphml : Str → G ν → Write κ
  /-- The names of the two files of `writeGraph` -/
  edgeName : Str → Str
  nodeName : Str → Str
  /-- The attributes `journal` of the citations of all records, the databases when the one named is used, and the one from the web -/
  journals : List ρ → List (Option (Option Str))
  bases : Str → RState
  web : Option (List (List Str))

/-- The files: the contents at each path. -/
abbrev Files (κ π : Type) := π → Option κ

variable {ρ ν κ π : Type} [DecidableEq ρ] [DecidableEq ν] [DecidableEq π]

/-- `os.path.lexists` (metaknowledgeCLI.py:77). -/
def exist (w : World ρ ν κ π) (fs : Files κ π) (f : Str) : Bool := w.other (w.path f) || (fs (w.path f)).isSome

/-- The test of `writeGraph` without `overwrite` (graphHelpers.py:163-167). -/
def clash (w : World ρ ν κ π) (fs : Files κ π) (f : Str) : Bool :=
  (fs (w.path (w.edgeName f))).isSome || (fs (w.path (w.nodeName f))).isSome

/-- Opening a file for writing and writing to it: the files, and whether it raised. -/
def write (w : World ρ ν κ π) (f : Str) (x : Write κ) (fs : Files κ π) : Bool × Files κ π :=
  (x.raises, match x.left with
    | some c => fun p => if p = w.path f then some c else fs p
    | none => fs)

/-- How a session ends: `mkCLI` returns 1, it returns 0 after an interrupt, it prints the exception and returns it, or `sys.exit()` was called. -/
inductive End where
  | done | interrupted | failed | exited
deriving DecidableEq, Repr

/-- How a session ends when a dialogue stops (metaknowledgeCLI.py:346-354; `sys.exit()` in line 54 is no `Exception`). -/
def ended (w : World ρ ν κ π) : Stop → End
  | .eof => match w.last with | .eof => .failed | .interrupt => .interrupted
  | .quit => .exited
  | .typeError => .failed

/-- What a session leaves: how it ended, the files, and the databases of journals if citations were gone over. -/
structure Result (κ π : Type) where
  fin : End
  files : Files κ π
  bases : Option RState

/-- How a session ends after a call that wrote. -/
def after (x : Bool × Files κ π) : Result κ π := ⟨if x.1 then .failed else .done, x.2, none⟩

/-- The calls in `getWhatToDo` that do the job (metaknowledgeCLI.py:156, 164, 182-183, 186-210). -/
def doJob (w : World ρ ν κ π) (rs : List ρ) (fs : Files κ π) (lines : List Str) : Job → Result κ π
  | .nothing => ⟨.done, fs, none⟩
  | .writeFile f => after (write w f (w.wos f rs) fs)
  | .writeCSV f => after (write w f (w.csv f rs) fs)
  | .citations b f => after (write w f (w.cites b f rs) fs)
  | .review db =>
    match review w.web w.upper (decide (db = w.manual)) (w.journals rs) lines (w.bases db) with
    | (.done, _, r) => ⟨.done, fs, some r⟩
    | (.eof, _, r) => ⟨ended w .eof, fs, some r⟩
    | (.raised _, _, r) => ⟨.failed, fs, some r⟩

/-- The calls in `outputNetwork` that write (metaknowledgeCLI.py:303-331): of the two files of `writeGraph` the edge list comes first. -/
def doOutput (w : World ρ ν κ π) (g : G ν) (fs : Files κ π) : Output → Result κ π
  | .both f _ =>
    match write w (w.edgeName f) (w.edges (w.edgeName f) g) fs with
    | (true, fs) => ⟨.failed, fs, none⟩
    | (false, fs) => after (write w (w.nodeName f) (w.nodes (w.nodeName f) g) fs)
  | .edges f => after (write w f (w.edges f g) fs)
  | .nodes f => after (write w f (w.nodes f g) fs)
  | .graphml f => after (write w f (w.graphml f g) fs)

/-- The part of `mkCLI` that makes a network (metaknowledgeCLI.py:342-345). -/
def network (w : World ρ ν κ π) (rs : List ρ) (fs : Files κ π) (lines : List Str) : Result κ π :=
  match getNetwork w.upper (w.tags rs) lines with
  | .error s => ⟨ended w s, fs, none⟩
  | .ok (net, lines) =>
    match w.make net rs with
    | none => ⟨.failed, fs, none⟩
    | some g =>
      match getThresholds w.num .menu g lines with
      | (.graph, g, lines) =>
        match outputNetwork w.upper (exist w fs) (clash w fs) w.contour w.name (lines.length + 1) lines with
        | .error s => ⟨ended w s, fs, none⟩
        | .ok (o, _) => doOutput w g fs o
      | (.quit, _, _) => ⟨ended w .quit, fs, none⟩
      | (.typeError, _, _) => ⟨ended w .typeError, fs, none⟩
      | (.eof, _, _) => ⟨ended w .eof, fs, none⟩
      | (.raised _, _, _) => ⟨.failed, fs, none⟩

/-- `mkCLI` (metaknowledgeCLI.py:333-356), given the files on the command line, the files that are there and the lines typed. -/
def mkCLI (w : World ρ ν κ π) (files : List Str) (fs : Files κ π) (lines : List Str) : Result κ π :=
  match getFiles w.full w.there w.read files lines with
  | .error .eof => ⟨ended w .eof, fs, none⟩
  | .error (.missing _) => ⟨.failed, fs, none⟩
  | .error (.reader _) => ⟨.failed, fs, none⟩
  | .ok (rs, lines) =>
    match getWhatToDo w.upper (exist w fs) w.name w.manual lines with
    | .error s => ⟨ended w s, fs, none⟩
    | .ok ((job, net), lines) =>
      match doJob w rs fs lines job with
      | ⟨.done, fs, b⟩ => if net then network w rs fs lines else ⟨.done, fs, b⟩
      | r => r

/-- The status a shell sees: the entry point (setup.py:46-48) is called as `sys.exit(mkCLI())`, where an integer is the status, an exception is printed and
gives 1, and `sys.exit()` gives 0. -/
def status : End → Nat
  | .done => 1
  | .interrupted => 0
  | .failed => 1
  | .exited => 0

end Verif.Model.CliSession
