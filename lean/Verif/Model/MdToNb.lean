import Verif.Py.Regex
import Verif.Py.Decimal
import Verif.Py.StrOps
import Verif.Py.Lines

/-!
# Model of `metaknowledge/bin/metaknowledgeMdToNb.py`: markdown files to notebooks

The name of the written file (`convert`, 96-101) and the fixed text around the cells are in `Verif.Model.MdToNbFiles`; of the argument parser only
that it opens the files is modelled.
-/
set_option autoImplicit false
namespace Verif.Model.MdToNb
open Verif.Py Verif.Py.Regex

/-- `codeRegex` (metaknowledgeMdToNb.py:8): `\[([0-9]*)\](.*)` -/
def codeRe : Re := .lit ['['] ⬝ .grp 1 (.rep isDig 0 none false) ⬝ .lit [']'] ⬝ .grp 2 (.rep (fun c => c ≠ '\n') 0 none false)

/-- `re.match(codeRegex, line)` with its groups 1 and 2. -/
def codeOf (line : Str) : Option (Str × Str) :=
  (matchStart codeRe line).map (fun caps => ((group caps 1).getD [], (group caps 2).getD []))

/-- A cell before it is written: its text, given to `writeMDcell` or to `writePYcell`. -/
inductive Cell
  | md (s : Str)
  | py (s : Str)
  deriving DecidableEq, Repr

/-- The variables of `convertString` (metaknowledgeMdToNb.py:47-50). `num` is `none` for `float('inf')`; `py` says that `currentBufferType` is `'py'` and
not `'md'` or `''`, which are told apart nowhere but by `stringBuffer`. -/
structure St' where
  num : Option Str
  py : Bool
  buf : Str
  out : List Cell

/-- The buffer becomes the text of a new code cell (metaknowledgeMdToNb.py:55-57, 68-70, 73-75). -/
def startPy (out : List Cell) (g : Str × Str) : St' := ⟨some g.1, true, g.2 ++ ['\n'], out⟩

/-- The buffer becomes a line of markdown (metaknowledgeMdToNb.py:59-61, 86-88). -/
def startMd (out : List Cell) (line : Str) : St' := ⟨none, false, line, out⟩

/-- One line (metaknowledgeMdToNb.py:51-88). -/
def step (c : St') (line : Str) : St' :=
  if c.buf = [] then
    match codeOf line with
    | some g => startPy c.out g
    | none => startMd c.out line
  else
    match codeOf line with
    | some g =>
      if c.py ∧ c.num = some g.1 then { c with buf := c.buf ++ (g.2 ++ ['\n']) }
      else if c.py then startPy (c.out ++ [.py c.buf]) g
      else startPy (c.out ++ [.md c.buf]) g
    | none =>
      if c.py = false then
        if line = ['\n'] ∧ c.buf.drop (c.buf.length - 2) = ['\n', '\n'] then ⟨c.num, false, [], c.out ++ [.md c.buf.dropLast]⟩
        else { c with buf := c.buf ++ line }
      else startMd (c.out ++ [.py c.buf]) line

/-- The cells, with the one that is still in the buffer (metaknowledgeMdToNb.py:89-93). -/
def done (c : St') : List Cell :=
  if c.buf = [] then c.out else c.out ++ [if c.py then .py c.buf else .md c.buf]

/-- The cells `convertString` (metaknowledgeMdToNb.py:46-94) makes of a file with this text. -/
def cells (text : Str) : List Cell := done ((Lines.fileLines text).foldl step ⟨none, false, [], []⟩)

/-- The replacement for a line end (metaknowledgeMdToNb.py:107), 11 characters. -/
def sep : Str := ['\\', 'n', '"', ',', '\n', ' ', ' ', ' ', ' ', ' ', '"']

/-- `stringPreprossesing` (metaknowledgeMdToNb.py:104-108). -/
def preprocess (s : Str) : Str :=
  let t := Str.replace ['\n'] sep (Str.replace ['"'] ['\\', '"'] (s.dropWhile (fun c => c = '\n')))
  t.take (t.length - 11)

/-- The items of `"source": [` … `]` in a written cell (metaknowledgeMdToNb.py:115-117, 128-130). -/
def source (s : Str) : Str := ['"'] ++ preprocess s ++ ['"']

end Verif.Model.MdToNb
