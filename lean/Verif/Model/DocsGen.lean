import Verif.Py.Str
import Verif.Py.StrOps
import Verif.Py.Dict
import Verif.Py.Decimal
import Verif.Py.Regex
import Mathlib.Data.List.Sort

/-!
# Model of `metaknowledge/bin/metaknowledgeDocsGen.py`, the script `metaknowledge-DocsGen`

What `inspect` says about a package is the input: the members in the order of `inspect.getmembers`, each with the text of its arguments, its docstring and the place of
its source. The texts written are modelled character by character. Left out: the messages printed, the counters, making the directory, and what a run that raises
leaves in the files. The branch for a module named `tagProcessing` is left out: the list of modules has none of that name (metaknowledgeDocsGen.py:13).
-/
set_option autoImplicit false
namespace Verif.Model.DocsGen
open Verif.Py Verif.Py.Regex

/-- The exceptions that end the script. -/
inductive Err where
  | attributeError | indexError | typeError
deriving DecidableEq, Repr

/-- A function or another member that can have an entry. `line` is the file and the line of its source, if `inspect` can tell; `spec` the text of its arguments as
`inspect.formatargspec` gives it, `none` if it has none (`TypeError`). -/
structure Fn where
  name : Str
  line : Option (Str × Nat)
  isFunction : Bool
  spec : Option Str
  doc : Option Str
deriving DecidableEq

/-- A member of a class: `inBases` if a base class has the same member, `inFirst` if the first one has. -/
structure Meth where
  fn : Fn
  inBases : Bool
  inFirst : Bool
deriving DecidableEq

/-- A class: the names of its bases, the arguments of `__init__`, its docstring, its members and its list `_documented`. -/
structure Cls where
  name : Str
  line : Option (Str × Nat)
  isException : Bool
  bases : List Str
  init : Option Str
  doc : Option Str
  members : List Meth
  documented : List Str
deriving DecidableEq

/-- A member of the package. -/
inductive Member where
  | fn (f : Fn)
  | cls (c : Cls)
  | builtin (name : Str) (line : Option (Str × Nat))
  | other (name : Str) (line : Option (Str × Nat))
deriving DecidableEq

def Member.name : Member → Str
  | .fn f => f.name
  | .cls c => c.name
  | .builtin n _ => n
  | .other n _ => n

def Member.line : Member → Option (Str × Nat)
  | .fn f => f.line
  | .cls c => c.line
  | .builtin _ l => l
  | .other _ l => l

/-- One of `documentedModules` with its functions. -/
structure Module where
  name : Str
  doc : Option Str
  functions : List Fn
deriving DecidableEq

/-- The package, the blurbs and the start of the names of the files. -/
structure World where
  doc : Option Str
  members : List Member
  modules : List Module
  blurbs : Dict Str Str
  filePrefix : Str
  yaml : Str
  ws : Char → Bool

def t (s : String) : Str := s.toList

/-- `makeBlurb` (metaknowledgeDocsGen.py:73-79) -/
def makeBlurb (W : World) (name : Str) : Str :=
  match W.blurbs.get? name with
  | some b => b
  | none => t "BLURB NEEDED FOR " ++ name

/-- `makeHeader` (metaknowledgeDocsGen.py:81-95), with the layout `doc`. -/
def makeHeader (title excerpt tag : Str) (weight : Nat) (single : Bool) : Str :=
  if single then t "\n---\n<a name=\"" ++ title ++ t "\"></a>\n"
  else t "---\nlayout: doc\ntitle: " ++ title ++ t "\ncategories: docs\nexcerpt: " ++ excerpt ++ t "\ntags: [" ++ tag ++ t "]\nweight: " ++ showNat weight ++
    t "\n---\n<a name=\"" ++ title ++ t "\"></a>\n"

/-- `getLineNumber` (metaknowledgeDocsGen.py:103-110): the file and the line as one text. -/
def lineKey : Option (Str × Nat) → Str
  | none => t "-1"
  | some (file, n) => file ++ showNat n

/-- `<=` of strings, by code points. -/
def strLe : Str → Str → Bool
  | [], _ => true
  | _ :: _, [] => false
  | c :: s, d :: r => if c.toNat < d.toNat then true else if d.toNat < c.toNat then false else strLe s r

/-- `sorted(l, key = getLineNumber)`, a stable sort. -/
def sortedByLine {α : Type} (line : α → Option (Str × Nat)) (l : List α) : List α :=
  l.insertionSort (fun a b => strLe (lineKey (line a)) (lineKey (line b)) = true)

/-- `', '.join([a for a in argStr.split(', ') if a[0] != '_'])` (metaknowledgeDocsGen.py:125): an empty piece has no `a[0]`. -/
def publicArgs (s : Str) : Except Err Str :=
  if [] ∈ Str.split (t ", ") s then .error .indexError
  else .ok (Str.join (t ", ") ((Str.split (t ", ") s).filter (fun a => a.head? ≠ some '_')))

/-- The end of `cleanargs` (metaknowledgeDocsGen.py:124-131). -/
def wrapArgs (basic : Bool) (s : Str) : Except Err Str :=
  if s.length > 0 then do
    let a ← publicArgs s
    return if basic then t "(<i>" ++ a ++ t "</i>)" else t "(_" ++ a ++ t "_)"
  else .ok (t "()")

/-- The arguments of a function without `self`, `*args` and `**kwargs` (metaknowledgeDocsGen.py:122-123). -/
def argText (spec : Str) : Str :=
  ((Str.replace (t "self") [] (Str.replace (t "self, ") [] (Str.replace (t ", **kwargs") [] (Str.replace (t ", *args") [] spec)))).drop 1).dropLast

/-- `cleanargs` of a function (metaknowledgeDocsGen.py:112-131). -/
def cleanargs (spec : Option Str) (basic : Bool) : Except Err Str :=
  match spec with
  | none => .error .typeError
  | some s => wrapArgs basic (argText s)

/-- A base class, with a link if there is a blurb (metaknowledgeDocsGen.py:115-119). -/
def baseText (W : World) (n : Str) : Str :=
  if (W.blurbs.get? n).isSome then t "<a href=\"#" ++ n ++ t "\"><u style=\"border-bottom: .5px dashed gray;\">" ++ n ++ t "</u></a>" else n

/-- `cleanargs` of a class (metaknowledgeDocsGen.py:112-131). -/
def classArgs (W : World) (bases : List Str) (basic : Bool) : Except Err Str := wrapArgs basic (Str.join (t ", ") (bases.map (baseText W)))

/-- `\[(\S+)\]\(\#(\S+)\.(\S+)\)` (metaknowledgeDocsGen.py:147, 149) -/
def linkRe (ws : Char → Bool) : Regex.Re :=
  .lit ['['] ⬝ .grp 1 (.rep (fun c => !ws c) 1 none false) ⬝ .lit (t "](#") ⬝ .grp 2 (.rep (fun c => !ws c) 1 none false) ⬝ .lit ['.'] ⬝
    .grp 3 (.rep (fun c => !ws c) 1 none false) ⬝ .lit [')']

/-- `makeUrls` and `makeSingleFileUrls` (metaknowledgeDocsGen.py:133-137). -/
def makeUrls (single : Bool) (caps : List (Nat × Str)) : Str :=
  let g (n : Nat) : Str := (Regex.group caps n).getD []
  if single then t "[" ++ g 1 ++ t "](#" ++ g 3 ++ t ")"
  else t "[" ++ g 1 ++ t "]({{ site.baseurl }}{{ page.url }}#" ++ g 3 ++ t ")"

/-- `re.sub(…, line, count = 99)` (metaknowledgeDocsGen.py:146-149): from left to right, at most `count` times; `skip` characters belong to the last match. -/
def subLinks (ws : Char → Bool) (single : Bool) : Nat → Nat → Str → Str
  | _, _, [] => []
  | count, skip + 1, _ :: s => subLinks ws single count skip s
  | 0, 0, s => s
  | count + 1, 0, c :: s =>
    match Regex.m (linkRe ws) some ⟨c :: s, []⟩ with
    | none => c :: subLinks ws single (count + 1) 0 s
    | some st => makeUrls single st.caps ++ subLinks ws single count (s.length - st.rest.length) s

/-- One line of `cleanedDoc` behind the links (metaknowledgeDocsGen.py:150-162). -/
def docLine (lvl : Nat) (line : Str) : Except Err Str :=
  match line with
  | [] => .ok (t "\n")
  | '#' :: rest => .ok (List.replicate (lvl + 1) '#' ++ rest ++ t "\n")
  | '>' :: [] => .error .indexError
  | '>' :: '>' :: rest => .ok (t "> " ++ rest ++ t "\n")
  | '>' :: rest => .ok (rest ++ t "\n")
  | line => .ok (line ++ t "\n")

/-- `cleanedDoc` (metaknowledgeDocsGen.py:139-163). A line that begins with four blanks is written as it is, like any other. -/
def cleanedDoc (W : World) (doc : Option Str) (lvl : Nat) (single : Bool) : Except Err Str :=
  match doc with
  | none => .error .attributeError
  | some ds => do
    let lines ← (Str.split (t "\n") ds).mapM (fun line => docLine lvl (subLinks W.ws single 99 0 line))
    return lines.flatten ++ t "\n\n"

/-- `makeTitle` (metaknowledgeDocsGen.py:165-170) -/
def makeTitle (module name args : Str) (single : Bool) : Str :=
  if single then t "<a name=\"" ++ name ++ t "\"></a><small>" ++ module ++ t "</small>**[<ins>" ++ name ++ t "</ins>](#" ++ name ++ t ")**" ++ args ++ t ":\n\n"
  else t "<a name=\"" ++ name ++ t "\"></a><small>" ++ module ++ t "</small>**[<ins>" ++ name ++ t "</ins>]({{ site.baseurl }}{{ page.url }}#" ++ name ++ t ")**" ++
    args ++ t ":\n\n"

/-- `makeLine` (metaknowledgeDocsGen.py:172-183) -/
def makeLine : Str :=
  t "<hr style=\"padding: 0;border: none;border-width: 3px;height: 20px;color: #333;text-align: center;border-top-style: solid;border-bottom-style: solid;\">"

/-- The frame of `makeTable` (metaknowledgeDocsGen.py:204). -/
def makeTable (header : Str) (rows : List Str) : Str :=
  t "<h3>" ++ header ++ t "</h3>\n\n<ol class=\"post-list\">\n" ++ Str.join (t "\n") rows ++ t "\n</ol>\n"

/-- A row of the table of the functions of a page (metaknowledgeDocsGen.py:203). -/
def linkRow (f : Fn) : Except Err Str := do
  let a ← cleanargs f.spec true
  return t "<li><article><a href=\"#" ++ f.name ++ t "\"><b>" ++ f.name ++ t "</b>" ++ a ++ t "</a></article></li>"

/-- A row of the table of the exceptions (metaknowledgeDocsGen.py:201). -/
def simpleRow (W : World) (c : Cls) : Except Err Str := do
  let a ← classArgs W c.bases true
  return t "<li><article><b>" ++ c.name ++ t "</b>" ++ a ++ t "</article></li>"

/-- A row of the table of the classes (metaknowledgeDocsGen.py:192). -/
def classRow (W : World) (c : Cls) : Except Err Str := do
  let a ← classArgs W c.bases true
  return t "<li><article><a href=\"#" ++ c.name ++ t "\"><b>" ++ c.name ++ t "</b></a>" ++ a ++ t "<span class=\"excerpt\">" ++ makeBlurb W c.name ++ t "</span></article></li>"

/-- A row of the table of the modules (metaknowledgeDocsGen.py:194). -/
def moduleRow (W : World) (m : Str) : Str :=
  t "<li><article><a href=\"#" ++ m ++ t "\"><b>" ++ m ++ t "</b><span class=\"excerpt\">" ++ makeBlurb W m ++ t "</span></a></article></li>"

/-- A row of the tables of all functions (metaknowledgeDocsGen.py:195-199). -/
def bigRow (e : Fn × Option Str) : Except Err Str := do
  let a ← cleanargs e.1.spec true
  return match e.2 with
    | none => t "<li><article><a href=\"#" ++ e.1.name ++ t "\"><b>" ++ e.1.name ++ t "</b>" ++ a ++ t "</a></article></li>"
    | some owner => t "<li><article><a href=\"#" ++ e.1.name ++ t "\"><small>" ++ owner ++ t "</small>.<b>" ++ e.1.name ++ t "</b>" ++ a ++ t "</a></article></li>"

/-- The documentation of a function or class; without a docstring a line saying so (metaknowledgeDocsGen.py:212-218, 224-230). -/
def docOrNone (W : World) (doc : Option Str) (lvl : Nat) (single : Bool) : Except Err Str :=
  match cleanedDoc W doc lvl single with
  | .error .attributeError => .ok (t "# Needs to be written\n\n")
  | r => r

/-- `writeFunc` (metaknowledgeDocsGen.py:207-218). Its callers leave `singleFile` at `False` (:251, 285, 310). -/
def writeFunc (W : World) (f : Fn) (pre : Str) : Except Err Str := do
  let a ← cleanargs f.spec false
  let d ← docOrNone W f.doc 5 false
  return makeLine ++ t "\n\n" ++ makeTitle pre f.name a false ++ d

/-- `writeClass` (metaknowledgeDocsGen.py:220-230). -/
def writeClass (W : World) (c : Cls) (single : Bool) : Except Err Str := do
  let a ← classArgs W c.bases false
  let i ← cleanargs c.init false
  let d ← docOrNone W c.doc 4 single
  return makeTitle [] c.name a single ++ makeTitle [] (c.name ++ t ".__init__") i single ++ d

/-- The methods of a class that get an entry (metaknowledgeDocsGen.py:234-247). -/
def methods (c : Cls) : List Fn :=
  ((sortedByLine (fun m => m.fn.line) c.members).filter (fun m =>
    if m.fn.name.head? = some '_' ∨ m.inBases = true ∨ m.fn.name = t "with_traceback" then decide (m.fn.name ∈ c.documented) else m.fn.isFunction)).map Meth.fn

/-- A table of functions and their entries. -/
def tableAndEntries (W : World) (header pre : Str) (fs : List Fn) : Except Err Str := do
  let rows ← fs.mapM linkRow
  let entries ← fs.mapM (fun f => writeFunc W f pre)
  return makeTable header rows ++ entries.flatten

/-- `proccessClass` (metaknowledgeDocsGen.py:232-251). -/
def processClass (W : World) (c : Cls) (single : Bool) : Except Err Str := do
  let w ← writeClass W c single
  let r ← if (methods c).length > 0 then tableAndEntries W (t "\nThe " ++ c.name ++ t " class has the following methods:") (c.name ++ t ".") (methods c) else .ok []
  return w ++ (if single then makeLine else []) ++ r

def footer : Str := t "\n{% include docsFooter.md %}"

/-- `writeClassFile` (metaknowledgeDocsGen.py:253-263), without the footer. -/
def classPage (W : World) (single : Bool) (c : Cls) : Except Err Str := do
  let p ← processClass W c single
  return makeHeader c.name (makeBlurb W c.name) (t "class") 2 single ++ p

/-- The functions of a module that get an entry (metaknowledgeDocsGen.py:276-281). -/
def moduleFuncs (m : Module) : List Fn := (sortedByLine Fn.line m.functions).filter (fun f => decide (f.name.head? ≠ some '_'))

/-- `writeModuleFile` (metaknowledgeDocsGen.py:265-291), without the footer. -/
def modulePage (W : World) (single : Bool) (m : Module) : Except Err Str := do
  let d ← cleanedDoc W m.doc 3 single
  let r ← tableAndEntries W (t "<a name=\"" ++ m.name ++ t "\">The <a href=\"#" ++ m.name ++ t "\"><u>" ++ m.name ++
    t "</u></a> module provides the following functions:</a>") (m.name ++ t ".") (moduleFuncs m)
  return makeHeader m.name (makeBlurb W m.name) (t "module") 3 single ++
    (t "\n# [" ++ m.name ++ t "]({{ site.baseurl }}{{ page.url }}#" ++ m.name ++ t ")\n\n") ++ (d ++ t "\n\n") ++ r

/-- The members of the package in the order in which they are gone through (metaknowledgeDocsGen.py:331). -/
def members (W : World) : List Member := sortedByLine Member.line W.members

/-- `inspect.isbuiltin(m[1]) or m[0][0] == '_'` (metaknowledgeDocsGen.py:332) -/
def hidden : Member → Bool
  | .builtin _ _ => true
  | m => decide (m.name.head? = some '_')

/-- `funcs`, `classes` and `exceptions` (metaknowledgeDocsGen.py:331-342). -/
def funcs (W : World) : List Fn := (members W).filterMap (fun m => if hidden m then none else match m with | .fn f => some f | _ => none)
def classes (W : World) : List Cls := (members W).filterMap (fun m => if hidden m then none else match m with | .cls c => if c.isException then none else some c | _ => none)
def exceptions (W : World) : List Cls := (members W).filterMap (fun m => if hidden m then none else match m with | .cls c => if c.isException then some c else none | _ => none)

/-- The first part of `writeMainBody` (metaknowledgeDocsGen.py:299-300). -/
def overviewPage (W : World) (single : Bool) : Except Err Str := do
  let d ← cleanedDoc W W.doc 3 single
  return makeHeader (t "Overview") (t "The <i>metaknowledge</i> Package, a quick tour") (t "main") 0 single ++ (d ++ t "\n\n")

/-- The second part of `writeMainBody` (metaknowledgeDocsGen.py:305-310). -/
def functionsPage (W : World) (single : Bool) : Except Err Str := do
  let rows ← (funcs W).mapM linkRow
  let excs ← (exceptions W).mapM (simpleRow W)
  let entries ← (funcs W).mapM (fun f => writeFunc W f [])
  return makeHeader (t "Base Functions") (t "The <i>metaknowledge</i> functions, for filtering reading and writing graphs") (t "functions") 1 single ++
    makeTable (t "The functions provided by <i>metaknowledge</i> are:") rows ++
    makeTable (t "The Exceptions defined by <i>metaknowledge</i> are:") excs ++ entries.flatten

/-- `main` without `-single` (metaknowledgeDocsGen.py:315-386): the files in the order in which they are written, with their texts. -/
def files (W : World) : Except Err (List (Str × Str)) := do
  let o ← overviewPage W false
  let f ← functionsPage W false
  let cs ← (classes W).mapM (fun c => do return (W.filePrefix ++ c.name ++ t ".md", (← classPage W false c) ++ footer))
  let ms ← W.modules.mapM (fun m => do return (W.filePrefix ++ m.name ++ t ".md", (← modulePage W false m) ++ footer))
  return (W.filePrefix ++ t "overview.md", o ++ footer) :: (W.filePrefix ++ t "metaknowledge.md", f ++ footer) :: (cs ++ ms)

/-- The methods of the table of all functions (metaknowledgeDocsGen.py:355-361). -/
def bigMethods (c : Cls) : List (Fn × Option Str) :=
  ((sortedByLine (fun m => m.fn.line) c.members).filter (fun m =>
    !(decide (m.fn.name.head? = some '_') || m.inFirst) && m.fn.isFunction)).map (fun m => (m.fn, some c.name))

/-- `main` with `-single` (metaknowledgeDocsGen.py:315-389): the text of `metaknowledgeFull.md`. -/
def single (W : World) : Except Err Str := do
  let cs ← (classes W).mapM (classRow W)
  let big ← ((funcs W).map (fun f => (f, none)) ++ (classes W).flatMap bigMethods).mapM bigRow
  let ms ← W.modules.mapM (fun m => do
    let rows ← ((moduleFuncs m).map (fun f => (f, some m.name))).mapM bigRow
    return makeTable (t "All the functions of the <a href=\"#" ++ m.name ++ t "\"><u>" ++ m.name ++ t "</u></a> module are as follows:") rows)
  let o ← overviewPage W true
  let f ← functionsPage W true
  let cps ← (classes W).mapM (classPage W true)
  let mps ← W.modules.mapM (modulePage W true)
  return W.yaml ++
    makeTable (t "<a name=\"objlist\"></a>The modules of <i>metaknowledge</i> are:") (W.modules.map (fun m => moduleRow W m.name)) ++
    makeTable (t "<a name=\"objlist\"></a>The classes of <i>metaknowledge</i> are:") cs ++
    makeTable (t "<a name=\"fulllist\"></a>All the functions and methods of <i>metaknowledge</i> and its objects are as follows:") big ++
    ms.flatten ++ o ++ f ++ cps.flatten ++ mps.flatten ++ footer

end Verif.Model.DocsGen
