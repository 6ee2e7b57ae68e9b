import Mathlib.Data.List.Dedup
import Mathlib.Algebra.Order.Ring.Abs
import Mathlib.Algebra.Order.Field.Rat

/-!
# Specification for the plots: colours by type, and cells nodes fall in
-/
set_option autoImplicit false
namespace Verif.Spec.Plotting

/-- The number of different types met before `t` is met first. -/
def typesBefore {τ : Type} [DecidableEq τ] (types : List τ) (t : τ) : Nat := (types.takeWhile (· ≠ t)).dedup.length

/-- `r` is an integer nearest to `q`, the even one if there are two. -/
def Nearest (q : Rat) (r : Int) : Prop := |q - r| ≤ 1 / 2 ∧ (|q - r| = 1 / 2 → r % 2 = 0)

/-- The cell (column, row) of a position in a grid whose cells are one apart. -/
def InCell (p : Rat × Rat) (c : Int × Int) : Prop := Nearest p.1 c.1 ∧ Nearest p.2 c.2

/-- The position is in the square with the corners `(a, a)` and `(b, b)`. -/
def InSquare (a b : Rat) (p : Rat × Rat) : Prop := a ≤ p.1 ∧ p.1 ≤ b ∧ a ≤ p.2 ∧ p.2 ≤ b

/-- The position on the grid: the layout stretched so that the coordinate `s` comes to the last of `n` cells. -/
def stretch (n : Nat) (s : Rat) (p : Rat × Rat) : Rat × Rat := (p.1 * ((n : Rat) - 1) / s, p.2 * ((n : Rat) - 1) / s)

end Verif.Spec.Plotting
