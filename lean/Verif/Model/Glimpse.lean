import Verif.Py.StrOps
import Verif.Py.Decimal

/-!
# `glimpse`

`metaknowledge/RCglimpse.py`: the table of the most frequent values of some tags, laid out for the terminal. A column is its title with the ranked values
that `rankedSeries` gives (modelled in `Verif.Model.Series`), as strings with their ranks.
-/
set_option autoImplicit false
namespace Verif.Model.Glimpse
open Verif.Py

/-- A column: the title and the values with their ranks. -/
abbrev Column := Str × List (Str × Int)

/-- `"{:f<w}".format(s)`: fill on the right. -/
def padRight (f : Char) (w : Nat) (s : Str) : Str := s ++ List.replicate (w - s.length) f
/-- `s.rjust(w, f)` -/
def padLeft (f : Char) (w : Nat) (s : Str) : Str := List.replicate (w - s.length) f ++ s
/-- `"{:f^w}".format(s)`: the smaller half of the fill on the left. -/
def center (f : Char) (w : Nat) (s : Str) : Str :=
  List.replicate ((w - s.length) / 2) f ++ s ++ List.replicate (w - s.length - (w - s.length) / 2) f

/-- `s[:n]` for an integer `n` -/
def sliceTo {α : Type} (n : Int) (s : List α) : List α := if 0 ≤ n then s.take n.toNat else s.take (s.length - (-n).toNat)

/-- `descriptionString1`, `descriptionString2` and `descriptionStringFull` (RCglimpse.py:13-16). -/
def description1 : Str := "Columns are ranked by num. of occurrences".toList
def description2 : Str := "and are independent of one another".toList
def description : Str := description1 ++ " ".toList ++ description2

/-- What `glimpse` reads of the collection and the clock: the name of the class, the number of records, the name of the collection and the time. -/
structure Info where
  cls : Str
  size : Nat
  name : Str
  now : Str

/-- `makeHeader` (RCglimpse.py:38-49). -/
def makeHeader (I : Info) (width : Nat) (compact : Bool) : Str :=
  let first := I.cls ++ " glimpse made at: ".toList ++ I.now
  let second := showNat I.size ++ " Records from ".toList ++ I.name.take 30
  if compact then
    let third :=
      if description.length > width - 2 then
        ['|'] ++ padRight '+' (width - 2) description1 ++ ['|', '\n', '|'] ++ padRight '+' (width - 2) description2 ++ ['|', '\n']
      else ['|'] ++ padRight '+' (width - 2) description ++ ['|', '\n']
    ['+'] ++ padRight '+' (width - 1) first ++ ['\n', '|'] ++ padRight '+' (width - 2) second ++ ['|', '\n'] ++ third
  else first ++ ['\n'] ++ second ++ ['\n']

/-- `prepEntry` (RCglimpse.py:85-91). -/
def prepEntry (maxLength : Nat) (val : Str) (rank : Int) : Str :=
  let v := if val.length + 2 ≤ maxLength then padLeft ' ' (maxLength - 2) val else sliceTo ((maxLength : Int) - 3) val ++ ['.']
  padRight ' ' 2 (showInt rank) ++ v

/-- The width of a heading and what is left of the remainder (RCglimpse.py:60-67). -/
def headingWidth (cWidth : Nat) (rem : Int) : Nat × Int :=
  if rem > 0 then (cWidth + 1, rem - 1)
  else if rem < 0 then (cWidth - 1, rem + 1)
  else (cWidth, rem)

/-- The cells of a column (RCglimpse.py:68-74): the heading, then `height` rows; missing rows are `('NA', -1)`. -/
def cells (height : Nat) (w : Nat) (c : Column) : List Str :=
  let heading := center '-' w c.1
  let rows := if c.2.length < height then c.2 ++ List.replicate (height - c.2.length) ("NA".toList, (-1 : Int)) else c.2
  heading :: (rows.take height).map (fun p => prepEntry heading.length p.1 p.2)

/-- The loop over the columns (RCglimpse.py:59-74). Every column has one cell for each line, so appending to `lines[index]` is adding the column to all. -/
def addColumns (height cWidth : Nat) : Int → List (List Str) → List Column → List (List Str)
  | _, ls, [] => ls
  | rem, ls, c :: cs =>
    addColumns height cWidth (headingWidth cWidth rem).2 (List.zipWith (fun l x => l ++ [x]) ls (cells height (headingWidth cWidth rem).1 c)) cs

/-- `firstRowString.format(*line)` and `rowString.format(*line)` (RCglimpse.py:55-56). -/
def firstRow (line : List Str) : Str := ['|'] ++ Str.join ['+'] line ++ ['|']
def otherRow (line : List Str) : Str := (line.flatMap fun x => '|' :: x) ++ ['|']

/-- `makeTable` (RCglimpse.py:51-83), for at most `width` columns (with more, the format of the headings is not valid). With `compact` a negative height leaves no line for the headings: `IndexError`, given as `none`. -/
def makeTable (values : List Column) (height : Int) (width : Nat) (compact : Bool) : Option Str :=
  if compact then
    if height < 0 then none
    else
      match addColumns height.toNat (width / values.length - 1) (((width % values.length : Nat) : Int) - 1) (List.replicate (height.toNat + 1) []) values with
      | [] => none
      | l0 :: ls => some (Str.join ['\n'] (firstRow l0 :: ls.map otherRow))
  else
    some (Str.join ['\n'] (values.flatMap fun c =>
      [] :: c.1 :: (sliceTo (height / 2) c.2).map (fun p => showInt p.2 ++ [' '] ++ sliceTo ((width : Int) - (showInt p.2).length - 1) p.1)))

/-- `_glimpse` (RCglimpse.py:18-36), which is `glimpse` (mkCollection.py:525-567), for a terminal of `cols` times `rows`. -/
def glimpse (I : Info) (values : List Column) (cols rows : Nat) (compact : Bool) : Option Str :=
  let tCols := if cols < 55 then 80 else cols
  let tRows := if rows < 6 then 24 else rows
  let maxRows : Int := if description.length > tCols then (tRows : Int) - 7 else (tRows : Int) - 6
  (makeTable values maxRows tCols compact).map (fun t => makeHeader I tCols compact ++ t)

end Verif.Model.Glimpse
