import Verif.Model.CiteParse
import Verif.Model.NodeInfo

/-!
# Model of the texts of `metaknowledge/citation.py`: `ID`, `Extra`, `allButDOI`, `str`

`metaknowledge.FAST_CITES` is taken to be `False`, the default.
-/
set_option autoImplicit false
namespace Verif.Model.CiteText
open Verif.Py Verif.Model.Citation Verif.Model.CiteParse

/-- `Citation.ID` (citation.py:208-220); what `__hash__` (citation.py:174-182) hashes. -/
def idText (p : Parsed) : Str := p.cite.id

/-- `Citation.__str__` (citation.py:156-163). -/
def strText (p : Parsed) : Str := p.cite.original

/-- The loop of `Citation.Extra` (citation.py:253-257) over the values of the attributes. `none` is the `AttributeError` of `getattr` when there is no such attribute. -/
def extraLoop : List (Option (Option Str)) → Str → Option Str
  | [], ret => some ret
  | none :: _, _ => none
  | some none :: rest, ret => extraLoop rest ret
  | some (some v) :: rest, ret => if v = [] then extraLoop rest ret else extraLoop rest (ret ++ (v ++ ", ".toList))

/-- `Citation.Extra` (citation.py:243-261). -/
def extra (p : Parsed) : Option Str :=
  match extraLoop [p.cite.V, p.cite.P, p.doi, p.cite.misc] [] with
  | none => none
  | some ret => if ret.length > 2 then some (ret.take (ret.length - 2)) else some ret

/-- `Citation.allButDOI` (citation.py:222-241) of a WOS citation, which has no `extraAuthors` and no `issue`. -/
def allButDOI (p : Parsed) : Str :=
  Verif.Model.NodeInfo.allButDOI (κ := Unit) ⟨(), p.cite.id, p.cite.original, [none, p.cite.V.getD none, none, p.cite.P.getD none, p.cite.misc.getD none], none⟩

end Verif.Model.CiteText
