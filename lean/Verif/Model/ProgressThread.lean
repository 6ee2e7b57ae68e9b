import Verif.Model.ProgressBar
import Mathlib.Logic.Relation

/-!
# The thread of the progress bar

Models `_ProgressBar` of `metaknowledge/progressBar.py` with its thread, as two programs that share the attributes of the bar and are interleaved in any way. A step
is a reading or writing of an attribute or of the output (Python runs these one at a time). The width of the terminal and the clock are whatever they are when they
are read. Simplified: `secondRow` is never given by the code, so only the bar of one row is modelled; `barMaxLength` is kept with the program that uses it, as the
thread has ended when `finish` sets it; the thread raises no exception; `jumpUp`, which nothing calls, is left out.
-/
set_option autoImplicit false
namespace Verif.Model.ProgressThread
open Verif.Py Verif.Model.ProgressBar

/-- The attributes `finished`, `per`, `inputString`, and what has been written to `out`, a piece for each `write`. -/
structure Shared where
  finished : Bool
  per : Rat
  text : Str
  out : List Str
deriving DecidableEq

/-- `self.out.write(s)`. -/
def Shared.write (sh : Shared) (s : Str) : Shared := { sh with out := sh.out ++ [s] }

/-- Where the thread is in `threadedUpdate` (progressBar.py:106-138), with the values of its variables. -/
inductive Pc where
  /-- at `while not self.finished` (line 108) -/
  | check
  /-- the width is read (109-117) -/
  | size
  /-- `self.out.write('\r')` (118) -/
  | cr (columns : Int)
  /-- `percentString` is made (119) -/
  | percent (columns : Int)
  /-- `barLength` is made (120) -/
  | length (columns : Int) (p : Rat)
  /-- `elif self.inputString` (129) -/
  | choose (columns : Int) (p q : Rat)
  /-- `dString` is made (130) -/
  | layout (columns : Int) (p : Rat)
  /-- the line is written (131, 134, 136) -/
  | emit (line : Str)
  /-- `flush` and `sleep` (137-138) -/
  | pause
  /-- the thread has ended, or was never started -/
  | ended
deriving DecidableEq

/-- A step of the thread (progressBar.py:106-138); `large` is the test with logarithms in `prepTime`. -/
def threadStep (large : Rat → Int → Bool) (columns : Int) (clock : Rat) (sh : Shared) : Pc → Shared × Pc
  | .check => (sh, if sh.finished then .ended else .size)
  | .size => (sh, .cr columns)
  | .cr c => (sh.write ['\r'], .percent c)
  | .percent c => (sh, .length c sh.per)
  | .length c p => (sh, .choose c p sh.per)
  | .choose c p q =>
    if sh.text ≠ [] then (sh, .layout c p) else (sh, .emit (barLine c (barLen c q) (percentText p) ++ ['\r']))
  | .layout c p => (sh, .emit (textLine c sh.text (prepTime (large clock 6) clock 6) (percentText p)))
  | .emit l => (sh.write l, .pause)
  | .pause => (sh, .check)
  | .ended => (sh, .ended)

/-- What the main program does with the bar: `updateVal(per, text)`, `finish(text)`, and leaving the `with` statement. -/
inductive Op where
  | update (per : Rat) (text : Option Str)
  | finish (text : Str)
  | leave
deriving DecidableEq

/-- The steps these are made of. -/
inductive Instr where
  | setPer (p : Rat) | setText (s : Str) | setFinished | join | write (s : Str) | writeLast | leave
deriving DecidableEq

/-- `updateVal` (progressBar.py:49-52), `finish` (54-78), and `__exit__` (46-47), which calls `__del__`. A dummy does nothing in the last two. -/
def compile (dummy : Bool) : Op → List Instr
  | .update p none => [.setPer p]
  | .update p (some s) => [.setPer p, .setText s]
  | .finish s => if dummy then [] else [.setFinished, .setText s, .join, .write ['\r'], .writeLast, .write ['\n']]
  | .leave => if dummy then [] else [.leave]

/-- Both programs: `cur` is what is left of the operation the main program is at, `rest` are the next ones. -/
structure State where
  sh : Shared
  thread : Pc
  cur : List Instr
  rest : List Op
deriving DecidableEq

/-- A step of the main program, if it is not at its end and not waiting for the thread in `join`. `leave` is `__del__` (progressBar.py:36-41). The last line is that of lines
71-76. -/
def mainStep (large : Rat → Int → Bool) (dummy : Bool) (columns : Int) (clock : Rat) (s : State) : Option State :=
  match s.cur with
  | [] =>
    match s.rest with
    | [] => none
    | op :: ops => some { s with cur := compile dummy op, rest := ops }
  | .setPer p :: c => some { s with sh := { s.sh with per := p }, cur := c }
  | .setText t :: c => some { s with sh := { s.sh with text := t }, cur := c }
  | .setFinished :: c => some { s with sh := { s.sh with finished := true }, cur := c }
  | .join :: c => if s.thread = .ended then some { s with cur := c } else none
  | .write t :: c => some { s with sh := s.sh.write t, cur := c }
  | .writeLast :: c => some { s with sh := s.sh.write (finishLine large columns s.sh.text clock), cur := c }
  | .leave :: c =>
    if s.sh.finished then some { s with cur := c } else some { s with cur := [.setFinished, .join, .write ['\n']] ++ c }

/-- A step of one of the programs. -/
inductive Step (large : Rat → Int → Bool) (dummy : Bool) : State → State → Prop where
  | thread (columns : Int) (clock : Rat) (s : State) : s.thread ≠ .ended →
      Step large dummy s { s with sh := (threadStep large columns clock s.sh s.thread).1, thread := (threadStep large columns clock s.sh s.thread).2 }
  | main (columns : Int) (clock : Rat) (s s' : State) : mainStep large dummy columns clock s = some s' → Step large dummy s s'

/-- `_ProgressBar(per, text, dummy = dummy)` (progressBar.py:11-31), followed by the operations. -/
def start (dummy : Bool) (per : Rat) (text : Str) (ops : List Op) : State :=
  ⟨⟨false, per, text, []⟩, if dummy then .ended else .check, [], ops⟩

/-- What can be reached, for all interleavings. -/
def Reach (large : Rat → Int → Bool) (dummy : Bool) : State → State → Prop := Relation.ReflTransGen (Step large dummy)

/-! ## Two functions that do not use `with` -/

/-- The updates of a loop over `n` things that makes one for every `k`th. -/
def every (k n : Nat) (f : Nat → Op) : List Op := (List.range n).filterMap (fun i => if (i + 1) % k = 0 then some (f (i + 1)) else none)

/-- What `writeEdgeList` does with a bar of its own (graphHelpers.py:197-267). The texts with names of nodes are arguments. Without `extraInfo` it stops with an `UnboundLocalError` at the
first edge (line 256), with `allSameAttribute` with an `AttributeError` (line 216). -/
def edgeListOps (extraInfo allSameAttribute : Bool) (edges : Nat) (name : Str) (checking writing : Nat → Str) : List Op :=
  if edges < 1 then [.update 1 (some ("Done edge list '".toList ++ name ++ "', 0 edges written.".toList))]
  else if extraInfo = false then [.update (1 / 100) (some ("Opening file ".toList ++ name))]
  else if allSameAttribute then []
  else
    every 1000 edges (fun c => .update ((c : Rat) / edges * (1 / 10)) (some (checking c))) ++
    [.update (1 / 100) (some ("Opening file ".toList ++ name))] ++
    every 1000 edges (fun c => .update ((c : Rat) / edges * (9 / 10) + 1 / 10) (some (writing c))) ++
    [.update 1 (some ("Closing ".toList ++ name)),
      .finish ("Done edge list ".toList ++ name ++ ", ".toList ++ showNat edges ++ " edges written.".toList)]

/-- What `writeNodeAttributeFile` does with a bar of its own (graphHelpers.py:290-342). -/
def nodeListOps (allSameAttribute : Bool) (nodes : Nat) (name : Str) (checking writing : Nat → Str) : List Op :=
  if nodes < 1 then [.update 1 (some ("Done node attribute list: ".toList ++ name ++ ", 0 nodes written.".toList))]
  else if allSameAttribute then []
  else
    every 100 nodes (fun c => .update ((c : Rat) / nodes * (1 / 10)) (some (checking c))) ++
    [.update (1 / 10) (some ("Opening '".toList ++ name ++ "'".toList))] ++
    every 100 nodes (fun c => .update ((c : Rat) / nodes * (9 / 10) + 1 / 10) (some (writing c))) ++
    [.update 1 (some ("Closing ".toList ++ name)),
      .finish ("Done node attribute list: ".toList ++ name ++ ", ".toList ++ showNat nodes ++ " nodes written.".toList)]

end Verif.Model.ProgressThread
