import Verif.Model.Grants
import Verif.Model.CoNetworks

/-!
# Co-investigator networks of grants, with the list of tags that all grants are given

`GrantCollection.networkCoInvestigator` (grantCollection.py:145-229) and `networkCoInvestigatorInstitution` (grantCollection.py:141-143) pass the same
object `targetTags` to every grant, and NSF and NSERC grants append to a list they are given. Here the argument is threaded through the loop.
-/
set_option autoImplicit false
namespace Verif.Model.GrantNetwork
open Verif.Py Verif.Model.Grants Verif.Model.CoNetworks

/-- Which `getInvestigators` and `getInstitutions` a grant has: those of `NSERCGrant` (nsercGrant.py:28-62), of `NSFGrant` (nsfGrant.py:22-54), or those of
`Grant` (baseGrant.py:32-97), as all other classes do. -/
inductive Kind where
  | base
  | nserc
  | nsf
  deriving DecidableEq, Repr

/-- A grant: its class and its fields. -/
abbrev G := Kind × Fields

/-- The list of tags a grant looks up, given the argument. `inst` chooses `getInstitutions`. -/
def used (lower : Str → Str) (inst : Bool) (g : G) (tags : Tags) : List Str :=
  match g.1 with
  | .nserc => nsercTags lower (if inst then "institution".toList else "name-".toList) g.2 tags
  | .nsf => nsfTags (if inst then "Institution".toList else "Investigator".toList) tags
  | .base => match tags with
    | .none => []
    | .one t => [t]
    | .many l => l

/-- The argument after the call: a list was appended to in place (nsercGrant.py:42, 60; nsfGrant.py:36, 53). -/
def left (lower : Str → Str) (inst : Bool) (g : G) (tags : Tags) : Tags :=
  match tags with
  | .many _ => .many (used lower inst g tags)
  | t => t

/-- `G.getInvestigators(tags, seperator, _getTag = True)` or `G.getInstitutions(…)`. -/
def names (ws : Char → Bool) (lower : Str → Str) (inst : Bool) (sep : Str) (g : G) (tags : Tags) : Except GErr (List (Str × Str)) :=
  investigatorsOf ws g.2 sep (used lower inst g tags)

/-- The names that the loop over the grants works with (grantCollection.py:185-193), and the argument after it. -/
def readAll (ws : Char → Bool) (lower : Str → Str) (inst : Bool) (sep : Str) : Tags → List G → Except GErr (List (List (Str × Str))) × Tags
  | tags, [] => (.ok [], tags)
  | tags, g :: gs =>
    match names ws lower inst sep g tags with
    | .error e => (.error e, left lower inst g tags)
    | .ok ns =>
      match readAll ws lower inst sep (left lower inst g tags) gs with
      | (.error e, t) => (.error e, t)
      | (.ok nss, t) => (.ok (ns :: nss), t)

/-- The network (grantCollection.py:141-143, 145-229), and the argument `targetTags` afterwards. -/
def network (ws : Char → Bool) (lower : Str → Str) (inst : Bool) (sep : Str) (count weighted : Bool) (tags : Tags) (gs : List G) :
    Except GErr (CoNet Str Str) × Tags :=
  match readAll ws lower inst sep tags gs with
  | (.error e, t) => (.error e, t)
  | (.ok nss, t) => (.ok (networkCoInvestigator count weighted (fun ns => ns) nss), t)

end Verif.Model.GrantNetwork
