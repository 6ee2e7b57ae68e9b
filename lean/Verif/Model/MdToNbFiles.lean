import Verif.Model.MdToNb
import Verif.Model.GraphPaths

/-!
# Model of the notebooks and files of `metaknowledge/bin/metaknowledgeMdToNb.py`

The whole text `convertString` returns, and `convert` and `mkMdToNb` over a file system. `home` gives the home directories
`os.path.expanduser` looks up, `cwd` is the current directory. Simplified: as in `Verif.Model.GraphPaths` there are no symbolic links and a file
can be written if its directory exists and it is no directory itself; files hold texts, whatever the encoding; no argument is `-`, which stands
for the standard input, or another option.
-/
set_option autoImplicit false
namespace Verif.Model.MdToNbFiles
open Verif.Py Verif.Spec.Paths Verif.Model.MdToNb

/-- `startString` (metaknowledgeMdToNb.py:10-12). -/
def startString : Str := "{\n \"cells\": [\n  ".toList

/-- `endString` (metaknowledgeMdToNb.py:14-36). -/
def endString : Str :=
  ("  ],\n \"metadata\": {\n   \"kernelspec\": {\n   \"display_name\": \"Python 3\",\n   \"language\": \"python\",\n   \"name\": \"python3\"\n  },\n" ++
  "  \"language_info\": {\n   \"codemirror_mode\": {\n    \"name\": \"ipython\",\n    \"version\": 3\n },\n   \"file_extension\": \".py\",\n" ++
  "   \"mimetype\": \"text/x-python\",\n   \"name\": \"python\",\n   \"nbconvert_exporter\": \"python\",\n   \"pygments_lexer\": \"ipython3\",\n" ++
  "   \"version\": \"3.4.3\"\n  }\n },\n \"nbformat\": 4,\n \"nbformat_minor\": 0\n}").toList

/-- What stands before the source of a markdown cell (metaknowledgeMdToNb.py:112-116). -/
def mdOpen : Str := "{\n   \"cell_type\": \"markdown\",\n   \"metadata\": {},\n   \"source\": [\n    ".toList

/-- What stands before the source of a code cell (metaknowledgeMdToNb.py:121-129). -/
def pyOpen : Str :=
  ("{\n   \"cell_type\": \"code\",\n   \"execution_count\": null,\n   \"metadata\": {\n     \"collapsed\": false\n   },\n   \"outputs\": [],\n" ++
    "   \"source\": [\n    ").toList

/-- What stands behind it (metaknowledgeMdToNb.py:117-118, 130-131). -/
def cellClose : Str := "\n   ]\n  }".toList

/-- `writeMDcell` (metaknowledgeMdToNb.py:111-118) and `writePYcell` (metaknowledgeMdToNb.py:120-131). -/
def writeCell : MdToNb.Cell → Str
  | .md s => mdOpen ++ source s ++ cellClose
  | .py s => pyOpen ++ source s ++ cellClose

/-- `convertString` (metaknowledgeMdToNb.py:46-94). -/
def convertString (text : Str) : Str := startString ++ Str.join ",\n  ".toList ((cells text).map writeCell) ++ endString

/-- `fileName` in `convert` (metaknowledgeMdToNb.py:97-98). -/
def outName (home : Str → Option Str) (path : Str) : Str := (Path.splitext (Path.expanduser home (Path.normpath path))).1 ++ ".ipynb".toList

/-- The exceptions: `SystemExit` of the argument parser for a file that can not be opened, and `OSError`. -/
inductive Err where
  | usage
  | osError
deriving DecidableEq, Repr

/-- `convert` (metaknowledgeMdToNb.py:96-101): the notebook is opened, which empties it, before the file is read. The file has been opened
before, so that it exists. -/
def convert (home : Str → Option Str) (cwd : Loc) (path : Str) (fs : FS) : FS × Option Err :=
  match GraphPaths.openWrite fs (walk cwd (outName home path)) [] with
  | none => (fs, some .osError)
  | some fs1 =>
    match GraphPaths.openWrite fs1 (walk cwd (outName home path)) (convertString ((fs1.file (walk cwd path)).getD [])) with
    | none => (fs1, some .osError)
    | some fs2 => (fs2, none)

/-- The loop of `mkMdToNb` (metaknowledgeMdToNb.py:135-136). -/
def convertAll (home : Str → Option Str) (cwd : Loc) : List Str → FS → FS × Option Err
  | [], fs => (fs, none)
  | p :: ps, fs =>
    match convert home cwd p fs with
    | (fs', some e) => (fs', some e)
    | (fs', none) => convertAll home cwd ps fs'

/-- `mkMdToNb` (metaknowledgeMdToNb.py:133-136) with these arguments: `argparse.FileType('r')` (metaknowledgeMdToNb.py:42) opens all files before
the first is converted. -/
def run (home : Str → Option Str) (cwd : Loc) (paths : List Str) (fs : FS) : FS × Option Err :=
  if paths.all (fun p => (fs.file (walk cwd p)).isSome) then convertAll home cwd paths fs else (fs, some .usage)

end Verif.Model.MdToNbFiles
