import Verif.Model.ProgressThread

/-!
# What a progress bar shows

The lines are those of `Verif.Model.ProgressBar`, about which C54 says that they have the width of the terminal.
-/
set_option autoImplicit false
namespace Verif.Spec.ProgressThread
open Verif.Py Verif.Model.ProgressBar Verif.Model.ProgressThread

/-- A picture of the bar: the width of the terminal, the part done that the percentage shows, and either a text and a time or a bar with the part done that it shows. -/
inductive Picture where
  | withText (columns : Int) (per : Rat) (text : Str) (clock : Rat)
  | withBar (columns : Int) (per barPer : Rat)

/-- The part done it shows as a percentage. -/
def Picture.per : Picture → Rat
  | .withText _ p _ _ => p
  | .withBar _ p _ => p

/-- All parts done it shows. -/
def Picture.pers : Picture → List Rat
  | .withText _ p _ _ => [p]
  | .withBar _ p q => [p, q]

/-- The text it shows. -/
def Picture.texts : Picture → List Str
  | .withText _ _ t _ => [t]
  | .withBar _ _ _ => []

/-- The line. -/
def Picture.line (large : Rat → Int → Bool) : Picture → Str
  | .withText c p t k => textLine c t (prepTime (large k 6) k 6) (percentText p)
  | .withBar c p q => barLine c (barLen c q) (percentText p) ++ ['\r']

/-- What is written for it: back to the start of the line, and the line. -/
def Picture.writes (large : Rat → Int → Bool) (p : Picture) : List Str := [['\r'], p.line large]

/-- What is written for pictures one after the other. -/
def pictures (large : Rat → Int → Bool) (ps : List Picture) : List Str := ps.flatMap (Picture.writes large)

/-- The parts done that the program gives. -/
def opPers : List Op → List Rat
  | [] => []
  | .update p _ :: ops => p :: opPers ops
  | _ :: ops => opPers ops

/-- The texts it gives. -/
def opTexts : List Op → List Str
  | [] => []
  | .update _ (some t) :: ops => t :: opTexts ops
  | .finish t :: ops => t :: opTexts ops
  | _ :: ops => opTexts ops

/-- An operation after which the bar is closed. -/
def Op.closes : Op → Bool
  | .update _ _ => false
  | .finish _ => true
  | .leave => true

/-- What the main program itself writes: for `finish` the last line and a new line, for leaving the `with` statement a new line if the bar was not closed before. -/
inductive Ending (large : Rat → Int → Bool) : Bool → List Op → List Str → Prop where
  | nil (closed : Bool) : Ending large closed [] []
  | update (closed : Bool) (p : Rat) (t : Option Str) (ops : List Op) (w : List Str) : Ending large closed ops w → Ending large closed (.update p t :: ops) w
  | finish (closed : Bool) (t : Str) (ops : List Op) (w : List Str) (columns : Int) (clock : Rat) : Ending large true ops w →
      Ending large closed (.finish t :: ops) ([['\r'], finishLine large columns t clock, ['\n']] ++ w)
  | leave (ops : List Op) (w : List Str) : Ending large true ops w → Ending large false (.leave :: ops) (['\n'] :: w)
  | leaveClosed (ops : List Op) (w : List Str) : Ending large true ops w → Ending large true (.leave :: ops) w

end Verif.Spec.ProgressThread
