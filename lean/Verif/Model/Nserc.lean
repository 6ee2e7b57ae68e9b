import Verif.Py.StrOps
import Verif.Py.Dict

/-!
# NSERC grants

Models `metaknowledge/grants/nsercGrant.py` (`__init__`, `update`, `parserNSERCfile` from the rows on) and the merging over the files of a directory in
`GrantCollection.__init__`. Reading rows with the `csv` module is not modelled; every row has a string in each column.
-/
set_option autoImplicit false
namespace Verif.Model.Nserc
open Verif.Py

/-- A row of the table, by column. -/
abbrev Row := Dict Str Str

structure Grant where
  id : Str
  fields : Row
  bad : Bool
  deriving DecidableEq

/-- `NSERCGrant.__init__` (nsercGrant.py:8-17); `hash` gives the text of the hash of the line. -/
def mkGrant (hash : Str → Str) (line : Str) (row : Row) : Grant :=
  if (Dict.get? row "Cle".toList).getD [] = [] then ⟨"NSERC:".toList ++ hash line, row, true⟩
  else ⟨"NSERC:".toList ++ (Dict.get? row "Cle".toList).getD [], row, false⟩

/-- What a grant is hashed and compared by (mkRecord.py:90-101, 128-145): the id, or the values if it is bad. Hash collisions are left out. -/
def Grant.key (g : Grant) : Sum Str (List Str) := if g.bad then .inr (g.fields.map Prod.snd) else .inl g.id

/-- One turn of `NSERCGrant.update` (nsercGrant.py:20-26). -/
def addField (d : Row) (p : Str × Str) : Row :=
  if p.2 = [] then d
  else if (Dict.get? d p.1).getD [] = [] then Dict.set d p.1 p.2
  else Dict.set d p.1 ((Dict.get? d p.1).getD [] ++ "; ".toList ++ p.2)

/-- `NSERCGrant.update` (nsercGrant.py:19-26). -/
def Grant.update (g o : Grant) : Grant := { g with fields := o.fields.foldl addField g.fields }

/-- A Python set of grants: each with the key it had when it was put in, as grants are changed while they are members. -/
abbrev GSet := List (Sum Str (List Str) × Grant)

/-- `G in grantSet` -/
def isIn (S : GSet) (g : Grant) : Bool := S.any (fun e => e.1 = g.key ∧ e.2.key = g.key)

/-- The first member equal to `G` is updated (nsercGrant.py:92-95); members are visited in the order of the list. -/
def updateFirst (g : Grant) : GSet → GSet
  | [] => []
  | e :: S => if e.2.key = g.key then (e.1, e.2.update g) :: S else e :: updateFirst g S

/-- One row of the file (nsercGrant.py:90-97). -/
def addRow (hash : Str → Str) (S : GSet) (r : Str × Row) : GSet :=
  let g := mkGrant hash r.1 r.2
  if isIn S g then updateFirst g S else S ++ [(g.key, g)]

/-- `parserNSERCfile` (nsercGrant.py:82-106), on the rows of the file with their lines. -/
def parseFile (hash : Str → Str) (rows : List (Str × Row)) : GSet := rows.foldl (addRow hash) []

/-- A member of the collection is updated by the grant of the new file with its id, if there is one (grantCollection.py:108-110). -/
def updateFrom (overlap : Dict Str Grant) (e : Sum Str (List Str) × Grant) : Sum Str (List Str) × Grant :=
  match Dict.get? overlap e.2.id with
  | some o => (e.1, e.2.update o)
  | none => e

/-- `e` of another set is found in `S` by the set operations, which use the key it was put in with. -/
def sameIn (S : GSet) (e : Sum Str (List Str) × Grant) : Bool := S.any (fun x => x.1 = e.1 ∧ x.2.key = e.2.key)

/-- `S |= G` -/
def union (S G : GSet) : GSet := G.foldl (fun S e => if sameIn S e then S else S ++ [e]) S

/-- `grants.remove(Gover)`; `none` is `KeyError`: a grant that was changed in the set is looked for under its new key. -/
def removeOne (G : GSet) (g : Grant) : Option GSet :=
  if isIn G g then some (G.eraseP (fun e => e.1 = g.key ∧ e.2.key = g.key)) else none

/-- `overlap` (grantCollection.py:103-106) -/
def overlapOf (S G : GSet) : Dict Str Grant := Dict.update [] ((G.filter (fun e => isIn S e.2)).map (fun e => (e.2.id, e.2)))

/-- Taking the grants of one more file into the collection (grantCollection.py:94-111). -/
def mergeFile (S G : GSet) : Option GSet :=
  if G.any (sameIn S) then
    match ((overlapOf S G).map Prod.snd).foldlM removeOne G with
    | none => none
    | some G' => some (union (S.map (updateFrom (overlapOf S G))) G')
  else some (union S G)

/-- One more file. -/
def addFile (hash : Str → Str) (S : GSet) (rows : List (Str × Row)) : Option GSet := mergeFile S (parseFile hash rows)

/-- The grants of a directory of NSERC files; `none` is `KeyError`. -/
def loadDir (hash : Str → Str) (files : List (List (Str × Row))) : Option GSet := files.foldlM (addFile hash) []

end Verif.Model.Nserc
