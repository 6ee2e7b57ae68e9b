import Mathlib.Data.Rat.Floor

/-!
# Model of `quickVisual` and of the grid of `graphDensityContourPlot` (contour/plotting.py)

The drawing calls of matplotlib are not modelled: the models give what is handed to them.
-/
set_option autoImplicit false
namespace Verif.Model.Plotting

/-- The colours `quickVisual` has (plotting.py:17). -/
def palette : List Char := ['b', 'r', 'c', 'm', 'y', 'k', 'w', 'g']

/-- What `quickVisual` raises: `ZeroDivisionError` (line 22) or `RuntimeError` (line 29). -/
inductive VErr where
  | zeroDivision
  | untyped
  deriving DecidableEq, Repr

/-- The argument `node_color` of `draw_networkx_nodes`: one colour for all nodes (plotting.py:31) or a list (plotting.py:33). -/
inductive NodeColours where
  | one (c : Char)
  | each (cs : List Char)
  deriving DecidableEq, Repr

section
variable {τ : Type} [DecidableEq τ]

/-- `ndTypes` with the type noted (plotting.py:25-26). -/
def noteType (seen : List τ) (t : τ) : List τ := if t ∈ seen then seen else seen ++ [t]

/-- `colours[ndTypes.index(t) % len(colours)]` (plotting.py:27). -/
def colourOf (seen : List τ) (t : τ) : Char := palette.getD (seen.idxOf t % palette.length) 'b'

/-- The loop over the nodes (plotting.py:23-29), each node given by its attribute `type`, if it has one. -/
def colourLoop (seen : List τ) (cols : List Char) : List (Option τ) → Except VErr (List Char)
  | [] => .ok cols
  | some t :: rest => colourLoop (noteType seen t) (cols ++ [colourOf (noteType seen t) t]) rest
  | none :: rest => if cols.length > 1 then .error .untyped else colourLoop seen cols rest

/-- `quickVisual` up to the drawing of the nodes (plotting.py:17-33). The layout is left out, but not the division by the root of the number of nodes made for it (line 22). -/
def quickVisual (nodes : List (Option τ)) : Except VErr NodeColours :=
  if nodes.length = 0 then .error .zeroDivision
  else
    match colourLoop [] [] nodes with
    | .error e => .error e
    | .ok cols => if cols.length < 1 then .ok (.one (palette.getD 0 'b')) else .ok (.each cols)

end

/-- What `graphDensityContourPlot` raises before drawing: `TypeError` (plotting.py:93, 110), `ZeroDivisionError` (line 103) or `IndexError` (lines 99, 108). -/
inductive GErr where
  | type
  | zeroDivision
  | index
  deriving DecidableEq, Repr

/-- numpy's `round(0)` and `int` of it (plotting.py:98, 107): the nearest integer, halves to the even one. Coordinates are rationals; the rounding of floating point products is left out. -/
def npRound (q : Rat) : Int :=
  let f := q.floor
  if q - f < 1 / 2 then f else if 1 / 2 < q - f then f + 1 else if f % 2 = 0 then f else f + 1

/-- The place a Python index `i` means in a sequence of length `n`: from the end if it is negative, `none` for `IndexError`. -/
def pyIndex (n : Nat) (i : Int) : Option Nat :=
  if 0 ≤ i ∧ i < n then some i.toNat
  else if i < 0 ∧ -(n : Int) ≤ i then some (i + n).toNat
  else none

/-- The grid: row `y`, column `x`. The counts are float32 in the code, exact up to 2 ^ 24. -/
abbrev Grid := Nat → Nat → Nat

/-- `grid[y][x] += 1` (plotting.py:99, 108). -/
def bump (n : Nat) (g : Grid) (x y : Int) : Except GErr Grid :=
  match pyIndex n y with
  | none => .error .index
  | some j =>
    match pyIndex n x with
    | none => .error .index
    | some i => .ok (fun y' x' => if y' = j ∧ x' = i then g y' x' + 1 else g y' x')

/-- The loops over the positions (plotting.py:97-99, 104-108). -/
def fill (n : Nat) (g : Grid) : List (Rat × Rat) → Except GErr Grid
  | [] => .ok g
  | p :: rest =>
    match bump n g (npRound p.1) (npRound p.2) with
    | .error e => .error e
    | .ok g' => fill n g' rest

/-- The argument `layout`: `None`, in which case spring_layout is asked for positions, which are a parameter here (plotting.py:94-95), a dictionary with the positions of the nodes as numpy pairs, or something else. -/
inductive LayoutArg where
  | computed (positions : List (Rat × Rat))
  | dict (positions : List (Rat × Rat))
  | other

/-- `layout[k] * multFactor` (plotting.py:105). -/
def scaleBy (m : Rat) (p : Rat × Rat) : Rat × Rat := (p.1 * m, p.2 * m)

/-- `graphDensityContourPlot` up to the drawing (plotting.py:92-110): the grid and the positions the overlay is drawn with. `isGraph` says if the first argument is a graph. `axisSamples` is a natural number here. -/
def density (isGraph : Bool) (axisSamples : Nat) (layoutScaleFactor : Rat) (layout : LayoutArg) : Except GErr (Grid × List (Rat × Rat)) :=
  if !isGraph then .error .type
  else
    match layout with
    | .computed ps =>
      match fill axisSamples (fun _ _ => 0) ps with
      | .error e => .error e
      | .ok g => .ok (g, ps)
    | .dict ps =>
      if layoutScaleFactor = 0 then .error .zeroDivision
      else
        let multFactor := ((axisSamples : Rat) - 1) / layoutScaleFactor
        match fill axisSamples (fun _ _ => 0) (ps.map (scaleBy multFactor)) with
        | .error e => .error e
        | .ok g => .ok (g, ps.map (scaleBy multFactor))
    | .other => .error .type

end Verif.Model.Plotting
