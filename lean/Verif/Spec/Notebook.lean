import Verif.Spec.Json
import Verif.Spec.Paths

/-! # What a notebook looks like, and where it should be -/
set_option autoImplicit false
namespace Verif.Spec.Notebook
open Verif.Py Verif.Spec.Json Verif.Spec.Paths

/-- A cell: whether it holds code, and the strings of its source. -/
abbrev NbCell := Bool × List Str

def cellValue (c : NbCell) : Value :=
  if c.1 then
    .obj [("cell_type".toList, .str "code".toList), ("execution_count".toList, .null), ("metadata".toList, .obj [("collapsed".toList, .bool false)]),
      ("outputs".toList, .arr []), ("source".toList, .arr (c.2.map .str))]
  else
    .obj [("cell_type".toList, .str "markdown".toList), ("metadata".toList, .obj []), ("source".toList, .arr (c.2.map .str))]

/-- The language a notebook is for. -/
def metadata : Value :=
  .obj [("kernelspec".toList, .obj [("display_name".toList, .str "Python 3".toList), ("language".toList, .str "python".toList),
      ("name".toList, .str "python3".toList)]),
    ("language_info".toList, .obj [
      ("codemirror_mode".toList, .obj [("name".toList, .str "ipython".toList), ("version".toList, .num 3)]),
      ("file_extension".toList, .str ".py".toList), ("mimetype".toList, .str "text/x-python".toList), ("name".toList, .str "python".toList),
      ("nbconvert_exporter".toList, .str "python".toList), ("pygments_lexer".toList, .str "ipython3".toList), ("version".toList, .str "3.4.3".toList)])]

/-- A notebook of version 4.0 with these cells. -/
def notebook (cells : List NbCell) : Value :=
  .obj [("cells".toList, .arr (cells.map cellValue)), ("metadata".toList, metadata), ("nbformat".toList, .num 4), ("nbformat_minor".toList, .num 0)]

/-- The path of a file in the directory `dir` whose name is `stem` with an extension, which may be missing. -/
structure Doc (path dir stem ext : Str) : Prop where
  name : InDir path dir (stem ++ ext)
  tilde : NoTilde path
  ext : (ext = [] ∧ '.' ∉ stem) ∨ (∃ e, ext = '.' :: e ∧ '.' ∉ e) ∧ ∃ c ∈ stem, c ≠ '.'

/-- The notebook belonging to it: beside it. -/
def beside (cwd : Loc) (dir stem : Str) : Loc := walk cwd dir ++ [stem ++ ".ipynb".toList]

end Verif.Spec.Notebook
