import Verif.Py.Decimal
import Mathlib.Data.Rat.Floor
import Mathlib.Data.Nat.Log

/-!
# The progress bar

Models the text layout of `metaknowledge/progressBar.py`. The thread is in `ProgressThread`; the width of the terminal,
the time that has passed and the part that is done are arguments. Floating point numbers are rational numbers here, and what is computed from
them is exact.
-/
set_option autoImplicit false
namespace Verif.Model.ProgressBar
open Verif.Py

/-- `s[:i]` for an integer `i`: a negative `i` counts from the end. -/
def sliceTo (s : Str) (i : Int) : Str := if 0 ≤ i then s.take i.toNat else s.take (s.length + i).toNat

/-- `s[i:]` for an integer `i`. -/
def sliceFrom (s : Str) (i : Int) : Str := if 0 ≤ i then s.drop i.toNat else s.drop (s.length + i).toNat

/-- `s.ljust(n, ' ')`. -/
def ljust (s : Str) (n : Int) : Str := s ++ List.replicate (n - s.length).toNat ' '

/-- `_ProgressBar.prepString` (progressBar.py:84-94). `int(x/2 - k)` rounds towards zero; the floating point numbers `maxLength/2` are taken
to be exact (they are below 2^53). -/
def prepString (s : Str) (maxLength : Int) : Str :=
  let m := maxLength - 1
  if (s.length : Int) ≤ m then ljust s m ++ [' ']
  else if m % 2 = 0 then sliceTo s (Int.tdiv (m - 6) 2) ++ "...".toList ++ sliceFrom s (Int.tdiv (-m) 2) ++ [' ']
  else sliceTo s (Int.tdiv (m - 4) 2) ++ "...".toList ++ sliceFrom s (Int.tdiv (-m) 2) ++ [' ']

/-- `barMaxLength` for a terminal of the given width (progressBar.py:21-25, 60-64, 110-114). -/
def barMax (columns : Int) : Int := if columns - 8 < 0 then 0 else columns - 8

/-- The line with the bar (progressBar.py:123-127, 133-136, without the control characters): `barLength` is `int(per * barMaxLength)`. -/
def barLine (columns : Int) (barLength : Nat) (percent : Str) : Str :=
  if (barLength : Int) ≥ barMax columns then "[".toList ++ List.replicate barLength '=' ++ "]".toList ++ percent
  else "[".toList ++ List.replicate barLength '=' ++ ">".toList ++ List.replicate (barMax columns - barLength - 1).toNat ' ' ++ "]".toList ++ percent

/-- The second row (progressBar.py:122). -/
def secondRow (columns : Int) (text time : Str) : Str := prepString text (barMax columns + 8 - 6) ++ time

/-- The single row with a text (progressBar.py:130). -/
def textLine (columns : Int) (text time percent : Str) : Str :=
  prepString text (barMax columns + 8 - 6 - 6 - 2) ++ "[".toList ++ time ++ "]".toList ++ percent

/-! ## Time and percentage -/

/-- The integer nearest to a number, an even one when there are two, as in Python's formats. -/
def nearest (q : Rat) : Int :=
  if q - ⌊q⌋ < 1 / 2 then ⌊q⌋
  else if q - ⌊q⌋ > 1 / 2 then ⌊q⌋ + 1
  else if ⌊q⌋ % 2 = 0 then ⌊q⌋ else ⌊q⌋ + 1

/-- The format `.1f` of a number that is not negative. -/
def fixed1 (t : Rat) : Str :=
  let n := (nearest (10 * t)).toNat
  showNat (n / 10) ++ ['.'] ++ showNat (n % 10)

/-- The format `.0E` of a number from 1 on: a digit and an exponent of two digits or more. -/
def sci0 (t : Rat) : Str :=
  let e := Nat.log 10 ⌊t⌋₊
  let d := (nearest (t / 10 ^ e)).toNat
  let p := if d = 10 then (1, e + 1) else (d, e)
  showNat p.1 ++ ['E', '+'] ++ (if p.2 < 10 then ['0'] else []) ++ showNat p.2

/-- Numbers are put to the right of their field; also `s.rjust(n, ' ')`. -/
def rjust (s : Str) (n : Int) : Str := List.replicate (n - s.length).toNat ' ' ++ s

/-- `_ProgressBar.prepTime` (progressBar.py:96-104). `large` is the outcome of the test `math.log10(t) + 3.01 > maxLength` (`False` for 0, of which there is no
logarithm). -/
def prepTime (large : Bool) (t : Rat) (maxLength : Int) : Str := rjust (if large then sci0 t else fixed1 t) (maxLength - 1) ++ ['s']

/-- `'{:.1%}'.format(per).rjust(6, ' ')` (progressBar.py:119). -/
def percentText (per : Rat) : Str := rjust (fixed1 (100 * per) ++ ['%']) 6

/-- `int(per * barMaxLength)` (progressBar.py:120). -/
def barLen (columns : Int) (per : Rat) : Nat := ⌊per * barMax columns⌋₊

/-- The last line (progressBar.py:72-76, without the control characters). -/
def finishLine (large : Rat → Int → Bool) (columns : Int) (text : Str) (t : Rat) : Str :=
  if (text.length : Int) < barMax columns + 8 - 6 then
    text ++ [' '] ++ prepTime (large t (barMax columns + 8 - text.length - 1)) t (barMax columns + 8 - text.length - 1)
  else prepString text (barMax columns + 8 - 6) ++ prepTime (large t 6) t 6

end Verif.Model.ProgressBar
