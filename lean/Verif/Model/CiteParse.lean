import Verif.Py.Regex
import Verif.Py.Decimal
import Verif.Py.StrOps
import Verif.Model.Citation

/-!
# Parsing of citation strings, and the citation of a record

Models `Citation.__init__` (citation.py:61-154) and `ExtendedRecord.createCitation` (mkRecord.py:615-658). The patterns are given to the matcher of
`Verif.Py.Regex`. Case mappings and the classes `\w`, `\d` of characters are parameters. `FAST_CITES` is off.
-/
set_option autoImplicit false
namespace Verif.Model.CiteParse
open Verif.Py Verif.Py.Regex Verif.Model.Citation

/-- What Python knows about characters: `str.upper` (character by character), `str.title`, `\w`, `\d`, and `int` of a string of `\d`. -/
structure Chars where
  up : Char → Str
  title : Str → Str
  word : Char → Bool
  digit : Char → Bool
  intOf : Str → Int

/-- `s.upper()` -/
def Chars.upper (C : Chars) (s : Str) : Str := s.flatMap C.up

/-- `[^,]` -/
def noComma (c : Char) : Bool := c ≠ ','
/-- `.` -/
def dot (c : Char) : Bool := c ≠ '\n'
/-- `[^0-9,]` -/
def authStart (c : Char) : Bool := !isDig c && c ≠ ','

/-- A class of characters once, and one or more times. -/
def one (p : Char → Bool) : Re := .rep p 1 (some 1) false
def plus (p : Char → Bool) : Re := .rep p 1 none false
def star (p : Char → Bool) : Re := .rep p 0 none false

/-- `(, DOI (.+))` and the end of `wosCiteRegex` (citation.py:61): `($|, DOI (.+)|((.+?)(, DOI (.+))?))` -/
def wosEnd : Re :=
  .grp 10 (.alt .eos (.alt (.lit ", DOI ".toList ⬝ .grp 11 (plus dot))
    (.grp 12 (.grp 13 (.rep dot 1 none true) ⬝ .opt (.grp 14 (.lit ", DOI ".toList ⬝ .grp 15 (plus dot)))))))

/-- `(, (V[^,]+))?`, `(, (P[^,]+))?` -/
def wosTagged (outer inner : Nat) (t : Char) : Re := .opt (.grp outer (.lit ", ".toList ⬝ .grp inner (.lit [t] ⬝ plus noComma)))

/-- `wosCiteRegex` (citation.py:61):
`([^0-9,][^,]+)?(, )?(-?[0-9]{1,5})?(, )?([^,]+)?(, (V[^,]+))?(, (P[^,]+))?($|, DOI (.+)|((.+?)(, DOI (.+))?))` -/
def wosRe : Re :=
  .opt (.grp 1 (one authStart ⬝ plus noComma)) ⬝ .opt (.grp 2 (.lit ", ".toList)) ⬝
  .opt (.grp 3 (.opt (.lit "-".toList) ⬝ .rep isDig 1 (some 5) false)) ⬝ .opt (.grp 4 (.lit ", ".toList)) ⬝
  .opt (.grp 5 (plus noComma)) ⬝ wosTagged 6 7 'V' ⬝ wosTagged 8 9 'P' ⬝ wosEnd

section scopus
variable (C : Chars)

/-- `[\w\- ]`, `[\w\.\-]`, `[\w-]`, `[^(]` -/
def nameChar (c : Char) : Bool := C.word c || c = '-' || c = ' '
def initialChar (c : Char) : Bool := C.word c || c = '.' || c = '-'
def wordDash (c : Char) : Bool := C.word c || c = '-'
def noParen (c : Char) : Bool := c ≠ '('

/-- `[\w\- ]+,? [\w\.\-]+\.` -/
def scopusName : Re := plus (nameChar C) ⬝ .opt (.lit ",".toList) ⬝ .lit " ".toList ⬝ plus (initialChar C) ⬝ .lit ".".toList

/-- `scopusCiteRegex` (citation.py:63):
`([\w\- ]+,? [\w\.\-]+\.), (([\w\- ]+,? [\w\-\.]+\., )+)?([^(]+? )?\((\d{2,5})\) ([^,]+)(, ([\w-]+)( \(([\w-]*)\))?)?(, P?P\. ([\w-]*))?(.*)` -/
def scopusRe : Re :=
  .grp 1 (scopusName C) ⬝ .lit ", ".toList ⬝
  .opt (.grp 2 (.many (.grp 3 (scopusName C ⬝ .lit ", ".toList)))) ⬝
  .opt (.grp 4 (.rep noParen 1 none true ⬝ .lit " ".toList)) ⬝
  .lit "(".toList ⬝ .grp 5 (.rep C.digit 2 (some 5) false) ⬝ .lit ") ".toList ⬝
  .grp 6 (plus noComma) ⬝
  .opt (.grp 7 (.lit ", ".toList ⬝ .grp 8 (plus (wordDash C)) ⬝ .opt (.grp 9 (.lit " (".toList ⬝ .grp 10 (star (wordDash C)) ⬝ .lit ")".toList)))) ⬝
  .opt (.grp 11 (.lit ", ".toList ⬝ .opt (.lit "P".toList) ⬝ .lit "P. ".toList ⬝ .grp 12 (star (wordDash C)))) ⬝
  .grp 13 (star dot)
end scopus

/-- `"{0}, {1}, {2}".format(author, year, journal)` -/
def fullId (a : Str) (y : Int) (j : Str) : Str := a ++ ", ".toList ++ showInt y ++ ", ".toList ++ j

/-- A value that is not `None` and not empty, as a list of at most one. -/
def truthy (o : Option Str) : List Str := (o.toList).filter (fun s => s ≠ [])

/-- `atrLst` joined (citation.py:92-99, 123-130, 135-142): a year 0 is false. -/
def partId (a : Option Str) (y : Option Int) (j : Option Str) : Str :=
  Str.join ", ".toList (truthy a ++ (y.toList.filter (fun i => i ≠ 0)).map showInt ++ truthy j)

/-- A citation and its `DOI`, which only WOS citations have. -/
structure Parsed where
  cite : Cite
  doi : Option (Option Str)
  deriving DecidableEq

/-- `Citation(cite)` (citation.py:101-154). `none` is the `AttributeError` when the pattern does not match. -/
def parseWos (C : Chars) (s : Str) : Option Parsed :=
  match matchStart wosRe (C.upper s) with
  | none => none
  | some caps =>
    let author := (group caps 1).map (fun a => C.title (a.filter (fun c => c ≠ '.')))
    let year := (group caps 3).map readInt
    let journal := group caps 5
    let mk (id : Str) (misc : Option Str) (bad : Bool) (doi : Option Str) : Parsed :=
      ⟨⟨id, s, some author, some year, some journal, some (group caps 7), some (group caps 9), some misc, bad⟩, some doi⟩
    match group caps 12, author, year, journal with
    | some misc, _, _, _ => some (mk (partId author year journal) (some misc) true (group caps 15))
    | none, some a, some y, some j => some (mk (fullId a y j) none false (group caps 11))
    | none, _, _, _ => some (mk (partId author year journal) none true (group caps 11))

/-- `Citation(cite, scopusMode = True)` (citation.py:74-100). -/
def parseScopus (C : Chars) (s : Str) : Parsed :=
  match matchStart (scopusRe C) (C.upper s) with
  | none => ⟨⟨s, s, none, none, none, none, none, none, true⟩, none⟩
  | some caps =>
    let author := group caps 1
    let year := (group caps 5).map C.intOf
    let journal := group caps 6
    let mk (id : Str) (bad : Bool) : Parsed :=
      ⟨⟨id, s, some author, some year, some journal, some (group caps 8), some (group caps 12), some (group caps 13), bad⟩, none⟩
    match truthy author, year.toList.filter (fun i => i ≠ 0), truthy journal with
    | [a], [y], [j] => mk (fullId a y j) false
    | _, _, _ => mk (partId author year journal) true

/-- What `createCitation` reads from a record (mkRecord.py:632-652): the authors, none if the tag is missing; the other values, `none` if missing. -/
structure Vals where
  authors : List Str
  year : Option Int
  j9 : Option Str
  title : Option Str
  volume : Option Str
  page : Option Str
  doi : Option Str

/-- The author as it is written (mkRecord.py:637, 640). -/
def citeAuthor (a : Str) : Str := a.filter (fun c => c ≠ ',')

/-- The values after the author (mkRecord.py:641-652). -/
def tailVals (v : Vals) : List Str :=
  (v.year.toList.filter (fun i => i ≠ 0)).map showInt ++
  (if truthy v.j9 ≠ [] then truthy v.j9 else truthy v.title) ++
  (truthy v.volume).map (fun x => 'V' :: x) ++
  (truthy v.page).map (fun x => 'P' :: x) ++
  (truthy v.doi).map (fun x => "DOI ".toList ++ x)

/-- The string of `createCitation()` (mkRecord.py:632-658). -/
def citeString (v : Vals) : Str := Str.join ", ".toList ((v.authors.take 1).map citeAuthor ++ tailVals v)

/-- The strings of `createCitation(multiCite = True)` (mkRecord.py:653-656). -/
def citeStrings (v : Vals) : List Str :=
  if v.authors = [] then [Str.join ", ".toList (tailVals v)] else v.authors.map (fun a => Str.join ", ".toList (citeAuthor a :: tailVals v))

end Verif.Model.CiteParse
