import Verif.Py.StrOps

/-!
# Python's `os.path` on POSIX systems

`normpath`, `split`, `join`, `expanduser`, `abspath`, `splitext` and `basename` on strings, as in `posixpath.py` and `genericpath.py` of the standard
library. Nothing here models a particular file of /repo.
-/
set_option autoImplicit false
namespace Verif.Py.Path

/-- The loop of `normpath`. -/
def normStep (abs : Bool) (nc : List Str) (c : Str) : List Str :=
  if c = [] ∨ c = ['.'] then nc
  else if c ≠ ['.', '.'] ∨ (abs = false ∧ nc = []) ∨ nc.getLast? = some ['.', '.'] then nc ++ [c]
  else nc.dropLast

/-- The number of initial slashes kept: two stay two, more become one. -/
def slashes (p : Str) : Nat :=
  if p.take 1 = ['/'] then (if p.take 2 = ['/', '/'] ∧ p.take 3 ≠ ['/', '/', '/'] then 2 else 1) else 0

/-- The parts `normpath` keeps. -/
def normParts (p : Str) : List Str := (Str.split ['/'] p).foldl (normStep (p.head? == some '/')) []

/-- `os.path.normpath(p)` -/
def normpath (p : Str) : Str :=
  let q := List.replicate (slashes p) '/' ++ Str.join ['/'] (normParts p)
  if q = [] then ['.'] else q

/-- The part behind the last slash. -/
def tail (p : Str) : Str := (p.reverse.takeWhile (fun c => c ≠ '/')).reverse

/-- `os.path.split(p)` -/
def split (p : Str) : Str × Str :=
  let head := p.take (p.length - (tail p).length)
  (if head.all (fun c => c = '/') then head else Str.rstrip (fun c => c = '/') head, tail p)

/-- `os.path.basename(p)` -/
def basename (p : Str) : Str := tail p

/-- `os.path.join(a, b)` -/
def join (a b : Str) : Str :=
  if b.head? = some '/' then b
  else if a = [] ∨ a.getLast? = some '/' then a ++ b
  else a ++ ('/' :: b)

/-- `os.path.expanduser(p)`; `home` gives the home directory of a user, the empty name standing for the present one. -/
def expanduser (home : Str → Option Str) : Str → Str
  | '~' :: r =>
    let user := r.takeWhile (fun c => c ≠ '/')
    match home user with
    | none => '~' :: r
    | some h =>
      let q := Str.rstrip (fun c => c = '/') h ++ r.drop user.length
      if q = [] then ['/'] else q
  | p => p

/-- `os.getcwd()` at a location. -/
def cwdText (cwd : List Str) : Str := '/' :: Str.join ['/'] cwd

/-- `os.path.abspath(p)` -/
def abspath (cwd : List Str) (p : Str) : Str := normpath (join (cwdText cwd) p)

/-- `os.path.splitext(p)`: the last dot of the last part, if something but dots comes before it in that part. -/
def splitext (p : Str) : Str × Str :=
  let ext := (tail p).reverse.takeWhile (fun c => c ≠ '.')
  let stem := ((tail p).reverse.drop (ext.length + 1)).reverse
  if '.' ∈ tail p ∧ stem.any (fun c => c ≠ '.') then (p.take (p.length - (ext.length + 1)), p.drop (p.length - (ext.length + 1)))
  else (p, [])

end Verif.Py.Path
