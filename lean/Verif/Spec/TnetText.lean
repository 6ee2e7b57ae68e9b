import Verif.Spec.Graphs
import Verif.Model.TnetText

/-!
# What a tnet file should say

Independent of the model of `writeTnetFile`; only its types are used.
-/
set_option autoImplicit false
namespace Verif.Spec.TnetText
open Verif.Py Verif.Model.GraphHelpers Verif.Model.TnetText

variable {ν κ : Type} [DecidableEq ν]

/-- The graph without its edges, to speak of its modes and of the numbers of its nodes. -/
def bare (g : KGraph ν κ) : G ν := ⟨false, g.nodes, []⟩

/-- The nodes are all different and the ends of edges are nodes. -/
def WF (g : KGraph ν κ) : Prop :=
  (g.nodes.map Prod.fst).Nodup ∧ ∀ e ∈ g.edges, e.1.1 ∈ g.nodes.map Prod.fst ∧ e.1.2.1 ∈ g.nodes.map Prod.fst

/-- The words of the line of an edge: the number of its end of mode `m1`, that of its other end, and its weight when asked for. -/
def wordsOf (modeName : String) (weighted : Bool) (ws : String) (m1 : Val) (showVal : Val → Str) (g : KGraph ν κ)
    (e : (ν × ν × κ) × Attrs) : List Str :=
  let first := if Verif.Spec.modeOf modeName (bare g) e.1.1 = some m1 then e.1.1 else e.1.2.1
  let second := if Verif.Spec.modeOf modeName (bare g) e.1.1 = some m1 then e.1.2.1 else e.1.1
  [showNat (Verif.Spec.tnetId (bare g) first), showNat (Verif.Spec.tnetId (bare g) second)] ++
    (if weighted then (e.2.get? ws).toList.map showVal else [])

/-- The word for the time, in quotes. -/
def quoted (s : Str) : Str := '"' :: s ++ ['"']

end Verif.Spec.TnetText
