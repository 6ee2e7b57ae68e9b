import Verif.Model.GraphHelpers
import Verif.Py.Str

/-!
# Model of the dialogues of `metaknowledge/bin/metaknowledgeCLI.py`

The lines the user types are a list; a dialogue reads them one by one and ends early when there are none left (`EOFError`). The recursive
calls of the code are written as automata: the mode says which question the next line answers. What is printed is left out. The thresholds
are whole numbers: `num` reads one (`float`), and returns `none` where `float` raises `ValueError`.
-/
set_option autoImplicit false
namespace Verif.Model.Cli
open Verif.Py Verif.Model.GraphHelpers

variable {ν : Type} [DecidableEq ν]

/-- The four questions for a number (metaknowledgeCLI.py:270, 273, 276, 279). -/
inductive Ask where
  | minWeight | maxWeight | minDegree | maxDegree
deriving DecidableEq, Repr

/-- Which question is being answered: the menu (metaknowledgeCLI.py:263) or a number. -/
inductive Mode where
  | menu | ask (a : Ask)
deriving DecidableEq, Repr

/-- How the dialogue ends: with the graph, by `sys.exit()`, with the `TypeError` of `int(None)`, with an exception of the graph helpers, or
at the end of the input. -/
inductive Out where
  | graph | quit | typeError | raised (e : GErr) | eof
deriving DecidableEq, Repr

/-- What is done with a number (metaknowledgeCLI.py:269-280). -/
def answer (a : Ask) (x : Int) (g : G ν) : G ν × Option GErr :=
  match a with
  | .minWeight => dropEdges (some x) none "weight" false false g
  | .maxWeight => dropEdges (some x) none "weight" false false g
  | .minDegree => dropNodesByDegree (some x) none true "weight" true g
  | .maxDegree => dropNodesByDegree (some x) none true "weight" true g

/-- `getThresholds` (metaknowledgeCLI.py:252-281) with `inputMenu` (metaknowledgeCLI.py:39-67) and `getNum` (metaknowledgeCLI.py:97-103): how the dialogue ends, the graph, which
is changed in place, and the lines not read. After `i` the console is opened, taken to change nothing, `inputMenu` returns `None` and `int` raises. -/
def getThresholds (num : Str → Option Int) : Mode → G ν → List Str → Out × G ν × List Str
  | _, g, [] => (.eof, g, [])
  | .menu, g, l :: rest =>
    if l = ['0'] then (.graph, g, rest)
    else if l = ['1'] then
      match dropNodesByDegree (some 1) none true "weight" true g with
      | (g', some e) => (.raised e, g', rest)
      | (g', none) => getThresholds num .menu g' rest
    else if l = ['2'] then
      match dropEdges none none "weight" false true g with
      | (g', some e) => (.raised e, g', rest)
      | (g', none) => getThresholds num .menu g' rest
    else if l = ['3'] then getThresholds num (.ask .minWeight) g rest
    else if l = ['4'] then getThresholds num (.ask .maxWeight) g rest
    else if l = ['5'] then getThresholds num (.ask .minDegree) g rest
    else if l = ['6'] then getThresholds num (.ask .maxDegree) g rest
    else if l = ['q'] then (.quit, g, rest)
    else if l = ['i'] then (.typeError, g, rest)
    else getThresholds num .menu g rest
  | .ask a, g, l :: rest =>
    match num l with
    | none => getThresholds num (.ask a) g rest
    | some x =>
      match answer a x g with
      | (g', some e) => (.raised e, g', rest)
      | (g', none) => getThresholds num .menu g' rest

/-! ## Names of output files -/

/-- `yesorNo` (metaknowledgeCLI.py:29-37) for one line: yes, no, or the question is asked again. `upper` is `str.upper`. -/
def yes? (upper : Str → Str) (l : Str) : Option Bool :=
  if upper l = ['Y'] ∨ upper l = [] then some true
  else if upper l = ['N'] then some false
  else none

/-- Which question is being answered: the name, or whether an existing file may be overwritten. -/
inductive NMode where
  | name | confirm (s : Str)
deriving DecidableEq, Repr

/-- `getOutputName` (metaknowledgeCLI.py:69-84) without `--name`: the name and the lines left. `there` is `os.path.lexists`. The recursive
calls do not pass `checking` on, so it is then `True`. -/
def askName (upper : Str → Str) (there : Str → Bool) (suffix : Str) : NMode → Bool → List Str → Option (Str × List Str)
  | _, _, [] => none
  | .name, checking, l :: rest =>
    if l ++ suffix = [] then askName upper there suffix .name true rest
    else if there (l ++ suffix) && checking then askName upper there suffix (.confirm (l ++ suffix)) checking rest
    else some (l ++ suffix, rest)
  | .confirm s, checking, l :: rest =>
    match yes? upper l with
    | some true => some (s, rest)
    | some false => askName upper there suffix .name true rest
    | none => askName upper there suffix (.confirm s) checking rest

/-- `getOutputName` (metaknowledgeCLI.py:69-84): `name` is the value of `--name`, empty when it is not given. -/
def getOutputName (upper : Str → Str) (there : Str → Bool) (name suffix : Str) (checking : Bool) (lines : List Str) : Option (Str × List Str) :=
  if name ≠ [] then some (name ++ suffix, lines) else askName upper there suffix .name checking lines

/-- Which question is being answered when the two files of a graph are named: the name, whether a file of that very name is overwritten, or
whether the files of the graph are. -/
inductive GMode where
  | name | confirm (s : Str) | over (s : Str)
deriving DecidableEq, Repr

/-- The loop of `outputNetwork` for the first option (metaknowledgeCLI.py:303-322) without `--name`: the name given to `writeGraph`, the
value of `overwrite` in the call that writes, and the lines left. `clash s` says that `writeGraph` without `overwrite` raises `OSError`: one
of its two files exists. Other `OSError`s (a directory that does not exist) are left out. -/
def askGraph (upper : Str → Str) (there clash : Str → Bool) : GMode → Bool → List Str → Option (Str × Bool × List Str)
  | _, _, [] => none
  | .name, checking, l :: rest =>
    if l = [] then askGraph upper there clash .name true rest
    else if there l && checking then askGraph upper there clash (.confirm l) checking rest
    else if clash l then askGraph upper there clash (.over l) false rest
    else some (l, false, rest)
  | .confirm s, checking, l :: rest =>
    match yes? upper l with
    | some true => if clash s then askGraph upper there clash (.over s) false rest else some (s, false, rest)
    | some false => askGraph upper there clash .name true rest
    | none => askGraph upper there clash (.confirm s) checking rest
  | .over s, _, l :: rest =>
    match yes? upper l with
    | some true => some (s, true, rest)
    | some false => askGraph upper there clash .name false rest
    | none => askGraph upper there clash (.over s) false rest

/-- `outputNetwork`, first option (metaknowledgeCLI.py:303-322). -/
def writeGraphAs (upper : Str → Str) (there clash : Str → Bool) (name : Str) (lines : List Str) : Option (Str × Bool × List Str) :=
  if name ≠ [] then some (name, clash name, lines) else askGraph upper there clash .name false lines

end Verif.Model.Cli
