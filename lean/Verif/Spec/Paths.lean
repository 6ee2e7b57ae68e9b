import Verif.Py.StrOps

/-!
# What a path means, and a file system

A location is the list of names on the way from the root to it. Symbolic links are left out. `walk` is how the operating system follows a
path: an absolute path starts at the root, another one at the current directory; empty parts and `.` stay, `..` goes up (and stays at the
root), any other part goes down.
-/
set_option autoImplicit false
namespace Verif.Spec.Paths
open Verif.Py

abbrev Loc := List Str

/-- One part of a path. -/
def walkStep (at_ : Loc) (part : Str) : Loc :=
  if part = [] ∨ part = ['.'] then at_
  else if part = ['.', '.'] then at_.dropLast
  else at_ ++ [part]

/-- The location of a path. -/
def walk (cwd : Loc) (path : Str) : Loc :=
  (Str.split ['/'] path).foldl walkStep (if path.head? = some '/' then [] else cwd)

/-- The path of a file `x` in the directory `dir`: `dir` is empty or ends with a slash, `x` has no slash and is a name. -/
structure InDir (path dir x : Str) : Prop where
  eq : path = dir ++ x
  dir : dir = [] ∨ ∃ a, dir = a ++ ['/']
  noSlash : '/' ∉ x
  name : x ≠ [] ∧ x ≠ ['.'] ∧ x ≠ ['.', '.']

/-- No part of the path begins with a tilde. -/
def NoTilde (path : Str) : Prop := ∀ part ∈ Str.split ['/'] path, part.head? ≠ some '~'

/-- Files with their contents, texts if nothing else is said, and directories. -/
structure FS (τ : Type := Str) where
  file : Loc → Option τ
  dir : Loc → Bool

/-- A file can be written at the location: its directory exists and it is not a directory itself. -/
def FS.CanWrite {τ : Type} (fs : FS τ) (l : Loc) : Prop := l ≠ [] ∧ fs.dir l = false ∧ fs.dir l.dropLast = true

/-- A location whose parts are names, as that of the current directory is. -/
def Names (l : Loc) : Prop := ∀ part ∈ l, part ≠ [] ∧ part ≠ ['.'] ∧ part ≠ ['.', '.'] ∧ '/' ∉ part

/-- The documented name of a file of a graph: the name, the kind of file, the type of the graph if that is asked for, and the suffix. -/
def graphFile (name : Str) (kind : String) (typing directed : Bool) (suffix : Str) : Str :=
  name ++ ['_'] ++ kind.toList ++ (if typing then (if directed then "_directed".toList else "_undirected".toList) else []) ++ ['.'] ++ suffix

end Verif.Spec.Paths
