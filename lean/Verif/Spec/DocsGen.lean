import Verif.Model.DocsGen

/-!
# The pages of the documentation (C116, C117)

Of the model only the types of what `inspect` says are used: functions, classes and modules.
-/
set_option autoImplicit false
namespace Verif.Spec.DocsGen
open Verif.Py
open Verif.Model.DocsGen (Fn Meth Cls Module Member World)

/-- Where a link to a name leads: the place marked with it on the page. -/
def anchor (name : Str) : Str := "<a name=\"".toList ++ name ++ "\"></a>".toList

/-- What a reader finds about a function: its name, its arguments if it has any, and its documentation. -/
structure Entry where
  name : Str
  args : Option Str
  doc : Str

/-- The row of a table: a link to the name, and the arguments. -/
def Entry.row (e : Entry) : Str :=
  "<li><article><a href=\"#".toList ++ e.name ++ "\"><b>".toList ++ e.name ++ "</b>(".toList ++ e.args.elim [] (fun a => "<i>".toList ++ a ++ "</i>".toList) ++
    ")</a></article></li>".toList

/-- The entry on a page: the anchor, where the function belongs to, its name with a link to the page on the site, the arguments and the documentation. -/
def Entry.text (owner : Str) (e : Entry) : Str :=
  anchor e.name ++ "<small>".toList ++ owner ++ "</small>**[<ins>".toList ++ e.name ++ "</ins>]({{ site.baseurl }}{{ page.url }}#".toList ++ e.name ++ ")**(".toList ++
    e.args.elim [] (fun a => "_".toList ++ a ++ "_".toList) ++ "):\n\n".toList ++ e.doc

/-- The rows stand below each other in a list, and the entries follow in the same order, each behind a line. -/
def Shows (owner : Str) (es : List Entry) (text : Str) : Prop :=
  ∃ start middle rest : Str, ∃ line : Str, text = start ++ "<ol class=\"post-list\">\n".toList ++ Str.join "\n".toList (es.map Entry.row) ++ "\n</ol>\n".toList ++ middle ++
    (es.map (fun e => line ++ "\n\n".toList ++ e.text owner)).flatten ++ rest ∧ "<hr style=\"".toList <+: line

/-- A name that belongs to the outside. -/
def Public (name : Str) : Prop := name.head? ≠ some '_'

/-- The arguments as written in the source, without `self`, and without the arguments that stand for any others. -/
def argumentsOf (spec : Str) : Str :=
  ((Str.replace "self".toList [] (Str.replace "self, ".toList [] (Str.replace ", **kwargs".toList [] (Str.replace ", *args".toList [] spec)))).drop 1).dropLast

/-- The arguments that are shown. -/
def shownArgs (s : Str) : Str := Str.join ", ".toList ((Str.split ", ".toList s).filter (fun a => a.head? ≠ some '_'))

/-- There are arguments to be shown: the text has no empty piece between its commas. -/
def Arguments (spec : Option Str) : Prop := ∃ s, spec = some s ∧ (argumentsOf s = [] ∨ [] ∉ Str.split ", ".toList (argumentsOf s))

/-- A docstring can be shown if no line of it is a single `>`. -/
def Readable (doc : Str) : Prop := ">".toList ∉ Str.split "\n".toList doc

/-- The function can be shown. -/
def FnOk (f : Fn) : Prop := Arguments f.spec ∧ ∀ d, f.doc = some d → Readable d

/-- The members of a class that are shown: its own functions with a public name, and what it lists as documented. -/
def Shown (c : Cls) (m : Meth) : Prop :=
  m ∈ c.members ∧ ((Public m.fn.name ∧ m.inBases = false ∧ m.fn.name ≠ "with_traceback".toList ∧ m.fn.isFunction = true) ∨
    (¬ (Public m.fn.name ∧ m.inBases = false ∧ m.fn.name ≠ "with_traceback".toList) ∧ m.fn.name ∈ c.documented))

/-- These members, in the order in which `inspect` lists them. -/
noncomputable def shownMembers (c : Cls) : List Meth := by
  classical exact c.members.filter (fun m => decide (Shown c m))

/-- The class can be shown. -/
def ClsOk (c : Cls) : Prop := Arguments c.init ∧ (∀ d, c.doc = some d → Readable d) ∧ ∀ m, Shown c m → FnOk m.fn

/-- The module can be shown. -/
def ModuleOk (m : Module) : Prop := (∃ d, m.doc = some d ∧ Readable d) ∧ ∀ f ∈ m.functions, Public f.name → FnOk f

/-- A line of a docstring as it is shown: headings are lowered by `lvl` levels, a quoted line loses its mark, a twice quoted one is quoted once. -/
def shownLine (lvl : Nat) (line : Str) : Str :=
  if line.head? = some '#' then List.replicate lvl '#' ++ line
  else if ">>".toList <+: line then "> ".toList ++ line.drop 2
  else if ">".toList <+: line then line.drop 1
  else line

/-- A docstring as it is shown, line by line. -/
def shownDoc (links : Str → Str) (lvl : Nat) (doc : Str) : Str :=
  ((Str.split "\n".toList doc).map (fun l => shownLine lvl (links l) ++ "\n".toList)).flatten ++ "\n\n".toList

/-- The entry is about the function: its name, its public arguments and its documentation, or a line saying that there is none. -/
def About (links : Str → Str) (f : Fn) (e : Entry) : Prop :=
  e.name = f.name ∧ (∃ s, f.spec = some s ∧ e.args = if argumentsOf s = [] then none else some (shownArgs (argumentsOf s))) ∧
    e.doc = f.doc.elim "# Needs to be written\n\n".toList (shownDoc links 5)

/-- The public functions, classes and exceptions of the package. -/
def publicFn : Member → Option Fn
  | .fn f => if f.name.head? = some '_' then none else some f
  | _ => none
def publicCls (exception : Bool) : Member → Option Cls
  | .cls c => if c.name.head? = some '_' ∨ c.isException ≠ exception then none else some c
  | _ => none

/-- The text by which functions are ordered: the file of the source with the number of the line behind it. -/
def placeText : Option (Str × Nat) → Str
  | none => "-1".toList
  | some (file, n) => file ++ showNat n

/-- A link in a docstring: `[shown](#owner.name)`. -/
structure Link where
  shown : Str
  owner : Str
  name : Str

def Link.written (l : Link) : Str := "[".toList ++ l.shown ++ "](#".toList ++ l.owner ++ ".".toList ++ l.name ++ ")".toList

/-- The link on a page of the site, and in the single file: to the anchor with the name. -/
def Link.onSite (l : Link) : Str := "[".toList ++ l.shown ++ "]({{ site.baseurl }}{{ page.url }}#".toList ++ l.name ++ ")".toList
def Link.inFile (l : Link) : Str := "[".toList ++ l.shown ++ "](#".toList ++ l.name ++ ")".toList

/-- The parts of a link are there and have no blanks; owner and name have no bracket, and the name no dot. -/
structure LinkOk (ws : Char → Bool) (l : Link) : Prop where
  shown : l.shown ≠ [] ∧ ∀ c ∈ l.shown, ws c = false
  owner : l.owner ≠ [] ∧ (∀ c ∈ l.owner, ws c = false) ∧ ']' ∉ l.owner
  name : l.name ≠ [] ∧ (∀ c ∈ l.name, ws c = false) ∧ ']' ∉ l.name ∧ '.' ∉ l.name

/-- Up to the next blank there is no closing bracket. -/
def Free (ws : Char → Bool) (s : Str) : Prop := ∀ c ∈ s.takeWhile (fun c => !ws c), c ≠ ']' ∧ c ≠ ')'

/-- A line with links: in front of each one some text without `[`, and text without `[` at the end. -/
def writeLine (f : Link → Str) : List (Str × Link) → Str → Str
  | [], last => last
  | (p, l) :: rest, last => p ++ f l ++ writeLine f rest last

/-- The links of the line stand apart. -/
def Apart (ws : Char → Bool) : List (Str × Link) → Str → Prop
  | [], last => '[' ∉ last
  | (p, l) :: rest, last => '[' ∉ p ∧ LinkOk ws l ∧ Free ws (writeLine Link.written rest last) ∧ Apart ws rest last

/-- Brackets, the dot and the hash are no blanks. -/
def Blanks (ws : Char → Bool) : Prop := ∀ c ∈ "[](#.)".toList, ws c = false

/-- Names of classes: not empty and without a comma. -/
def NameOk (n : Str) : Prop := n ≠ [] ∧ ',' ∉ n

/-- The base classes of the public classes and exceptions have names. -/
def Named (W : World) : Prop := ∀ b, ∀ c ∈ W.members.filterMap (publicCls b), ∀ n ∈ c.bases, NameOk n

/-- What a page begins with: its title, a word on what it is about, what it is of, and its place among the pages. -/
def front (title excerpt tag : Str) (weight : Nat) : Str :=
  "---\nlayout: doc\ntitle: ".toList ++ title ++ "\ncategories: docs\nexcerpt: ".toList ++ excerpt ++ "\ntags: [".toList ++ tag ++ "]\nweight: ".toList ++ showNat weight ++
    "\n---\n".toList

/-- What is said about a class or module in one line: what is written for it, or that something is to be written for it. -/
def Blurb (W : World) (name s : Str) : Prop := W.blurbs.get? name = some s ∨ (W.blurbs.get? name = none ∧ s = "BLURB NEEDED FOR ".toList ++ name)

/-- A name as the head of what is said about it: it can be linked to, and is a link to itself. `site` is the page the link leads to, nothing for the same page. -/
def heading (site name : Str) : Str :=
  anchor name ++ "<small></small>**[<ins>".toList ++ name ++ "</ins>](".toList ++ site ++ "#".toList ++ name ++ ")**".toList

/-- What stands over the table of the functions of a module: it can be linked to, and the name is a link to it. -/
def anchorText (name : Str) : Str :=
  "<a name=\"".toList ++ name ++ "\">The <a href=\"#".toList ++ name ++ "\"><u>".toList ++ name ++ "</u></a> module provides the following functions:</a>".toList

/-- The page a link is on. -/
def thisPage : Str := "{{ site.baseurl }}{{ page.url }}".toList

/-- A list with a headline. -/
def headedList (headline : Str) (rows : List Str) : Str :=
  "<h3>".toList ++ headline ++ "</h3>\n\n<ol class=\"post-list\">\n".toList ++ Str.join "\n".toList rows ++ "\n</ol>\n".toList

/-- A function in the lists of the single file: a link to its name, behind the class or module it belongs to, and its arguments. -/
def listRow (owner : Option Str) (f : Fn) : Str :=
  "<li><article><a href=\"#".toList ++ f.name ++ "\">".toList ++ owner.elim [] (fun o => "<small>".toList ++ o ++ "</small>.".toList) ++ "<b>".toList ++ f.name ++ "</b>(".toList ++
    (if argumentsOf (f.spec.getD []) = [] then [] else "<i>".toList ++ shownArgs (argumentsOf (f.spec.getD [])) ++ "</i>".toList) ++ ")</a></article></li>".toList

/-- A module in the list of the single file: a link to its name, and what is said about it in one line. -/
def moduleLink (name blurb : Str) : Str :=
  "<li><article><a href=\"#".toList ++ name ++ "\"><b>".toList ++ name ++ "</b><span class=\"excerpt\">".toList ++ blurb ++ "</span></a></article></li>".toList

end Verif.Spec.DocsGen
