import Verif.Py.Lines
import Verif.Spec.Paths

/-! # What the files of a collection should be like -/
set_option autoImplicit false
namespace Verif.Spec.WriteFile
open Verif.Py Verif.Spec.Paths

variable {τ : Type}

/-- The file at `l` now holds `b`, and nothing else is different. -/
structure Changed (fs fs' : FS τ) (l : Loc) (b : τ) : Prop where
  here : fs'.file l = some b
  elsewhere : ∀ m, m ≠ l → fs'.file m = fs.file m
  dirs : fs'.dir = fs.dir

/-- Where the file goes: the name given or, without one, the first 200 characters of the name of the collection and `.txt`. -/
def place (cwd : Loc) (fname name : Str) : Loc := walk cwd (if fname = [] then name.take 200 ++ ".txt".toList else fname)

/-- None of the first three lines holds `VR 1.0`, by which a Web of Science file is recognised. -/
def NoVR (text : Str) : Prop := ∀ l ∈ (Lines.fileLines text).take 3, ¬ "VR 1.0".toList <:+: l

/-- What stands in front of the records: only for a collection that has noted exactly one type, and that not ProQuest. -/
def front (columns : List Str) (types : List String) : Str :=
  if types = ["WOSRecord"] then "\uFEFFFN Thomson Reuters Web of Science™\nVR 1.0\n".toList
  else if types = ["MedlineRecord"] then "\n".toList
  else if types = ["ScopusRecord"] then '\uFEFF' :: [','].intercalate columns ++ ['\n']
  else []

/-- What stands behind them. -/
def back (types : List String) : Str := if types = ["WOSRecord"] then "EF".toList else []

/-- A character of Latin-1. -/
def Latin (c : Char) : Prop := c.toNat < 256

/-- What is above a directory is a directory. -/
def Closed (fs : FS τ) : Prop := ∀ l x, fs.dir (l ++ [x]) = true → fs.dir l = true

end Verif.Spec.WriteFile
