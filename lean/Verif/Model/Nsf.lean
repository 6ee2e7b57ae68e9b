import Verif.Model.Grants

/-!
# NSF award files

Models `metaknowledge/grants/nsfGrant.py`: `NSFGrant.__init__` and `parserNSFfile`. Parsing XML is not modelled; the file is given by its tree.
-/
set_option autoImplicit false
namespace Verif.Model.Nsf
open Verif.Py Verif.Model.Grants

/-- An XML element: its tag, the text before its first child (`None` if there is none) and its children. -/
inductive Xml where
  | mk (tag : Str) (text : Option Str) (children : List Xml)

def Xml.tag : Xml → Str | .mk t _ _ => t
def Xml.text : Xml → Option Str | .mk _ x _ => x
def Xml.children : Xml → List Xml | .mk _ _ c => c

/-- `AttributeError`: `append` of something that is not a list. It is not among the exceptions that are caught (nsfGrant.py:129). -/
inductive NsfErr where
  | attributeError
deriving DecidableEq, Repr

/-- `[sub.text for sub in element if sub.text is not None]`, as the loops do (nsfGrant.py:85-87, 94-96, 123-126). -/
def texts (e : Xml) : List Str := e.children.filterMap Xml.text

/-- `grantDict[key].append(s)` after the key was given an empty list if it was missing (nsfGrant.py:88-91, 97-100, 113-116, 120-127). -/
def appendTo (d : Fields) (key s : Str) : Except NsfErr Fields :=
  match Dict.get? d key with
  | none => .ok (Dict.set d key (.list [s]))
  | some (.list l) => .ok (Dict.set d key (.list (l ++ [s])))
  | some _ => .error .attributeError

/-- The directorate or the division of an organisation (nsfGrant.py:83-100). -/
def addPart (key : Str) (d : Fields) (org : Xml) : Except NsfErr Fields :=
  match org.children.find? (fun c => c.tag = key) with
  | none => .ok d
  | some e => if texts e = [] then .ok d else appendTo d key (Str.join "; ".toList (texts e))

/-- One turn of the loop over the organisations (nsfGrant.py:80-100). -/
def orgStep (d : Fields) (org : Xml) : Except NsfErr Fields :=
  match addPart "Directorate".toList d org with
  | .error e => .error e
  | .ok d => addPart "Division".toList d org

/-- One turn of the loop over the parts of an investigator (nsfGrant.py:104-112): the name and the other texts. -/
def partStep (s : List Str × List Str) (sub : Xml) : List Str × List Str :=
  match sub.text with
  | none => s
  | some x =>
    if sub.tag = "FirstName".toList then (x :: s.1, s.2)
    else if sub.tag = "LastName".toList then (s.1 ++ [x], s.2)
    else (s.1, s.2 ++ [x])

/-- `investString` (nsfGrant.py:102-113) -/
def investString (e : Xml) : Str :=
  let (name, other) := e.children.foldl partStep ([], [])
  Str.join " ".toList name ++ "; ".toList ++ Str.join ", ".toList other

/-- One turn of the loop over the investigators (nsfGrant.py:101-117). -/
def investStep (d : Fields) (e : Xml) : Except NsfErr Fields := appendTo d "Investigator".toList (investString e)

/-- One turn of the loop over all elements of the award (nsfGrant.py:118-127). -/
def elementStep (d : Fields) (e : Xml) : Except NsfErr Fields :=
  if e.tag = "Organization".toList ∨ e.tag = "Investigator".toList then .ok d
  else if e.children = [] then .ok (Dict.set d e.tag (e.text.elim .none .str))
  else appendTo d e.tag (Str.join "; ".toList (texts e))

/-- The three loops (nsfGrant.py:79-127) on the elements of the award. -/
def awardFields (top : List Xml) : Except NsfErr Fields :=
  match (top.filter (fun e => e.tag = "Organization".toList)).foldlM orgStep [] with
  | .error e => .error e
  | .ok d =>
    match (top.filter (fun e => e.tag = "Investigator".toList)).foldlM investStep d with
    | .error e => .error e
    | .ok d => top.foldlM elementStep d

/-- `NSFGrant.__init__` (nsfGrant.py:10-20): the id and whether the grant is bad. `str` gives the text of a list. -/
def award (str : List Str → Str) (fileName : Str) (d : Fields) : Str × Bool :=
  match Dict.get? d "AwardID".toList with
  | none => ("NSF:".toList ++ fileName, true)
  | some (.str []) => ("NSF:".toList ++ fileName, true)
  | some (.str s) => ("NSF:".toList ++ s, false)
  | some (.list l) => ("NSF:".toList ++ str l, false)
  | some .none => ("NSF:None".toList, false)

/-- `isNSFfile` (nsfGrant.py:56-67). `parsed` is the root element, `none` if the file is not XML; `base` is the last part of the path. -/
def isNSF (base : Str) (useFileName : Bool) (parsed : Option Xml) : Bool :=
  if useFileName && !(".xml".toList.isSuffixOf base) then false
  else match parsed with
    | none => false
    | some root => if (root.children.filter (fun e => e.tag = "Award".toList)).length ≠ 1 then false else true

/-- What `parserNSFfile` does: `AttributeError` is raised, or there is a grant (its fields, id and whether it is bad), or an error is returned. -/
inductive FileOut where
  | raised
  | grant (fields : Fields) (id : Str) (bad : Bool)
  | failed

/-- `parserNSFfile` (nsfGrant.py:69-132). Without an award `top` is `None` and `top.findall` raises `AttributeError`. -/
def parserNSF (str : List Str → Str) (fileName : Str) (parsed : Option Xml) : FileOut :=
  match parsed with
  | none => .failed
  | some root =>
    match root.children.find? (fun e => e.tag = "Award".toList) with
    | none => .raised
    | some top =>
      match awardFields top.children with
      | .error _ => .raised
      | .ok d => .grant d (award str fileName d).1 (award str fileName d).2

end Verif.Model.Nsf
