import Verif.Py.Dict

/-!
# Model of the directory cache

`metaknowledge/mkCollection.py`: `_loadFromCache`, `_createCache`; the directory branch of
`recordCollection.py:108-166` and `grantCollection.py:59-135`.

Simplifications: a path is a list of characters; the directory holds plain files with modification times and possibly
the cache file; a pickle is either intact (the pair that was dumped), damaged so that unpickling raises `PickleError`, or
cut short so that it raises `EOFError`; parsing the listed files is a parameter.
-/
set_option autoImplicit false
namespace Verif.Model.Cache
open Verif.Py

abbrev Path := List Char

/-- The dictionary `dat` stored beside the collection (mkCollection.py:398-405). -/
structure Stamp where
  version : String
  name : String
  ext : List Char
  files : Dict Path Int
deriving DecidableEq

/-- What unpickling the cache file gives (mkCollection.py:368-372). -/
inductive CacheFile (R : Type) where
  | pickleError
  | eof
  | ok (stamp : Stamp) (rc : R)
deriving DecidableEq

/-- A directory: the files other than the cache with their modification times, and the cache file if there is one. -/
structure Dir (R : Type) where
  files : Dict Path Int
  cachePath : Path
  cache : Option (Int × CacheFile R)
deriving DecidableEq

/-- The exceptions that matter here. -/
inductive Err | cacheError | keyError | fileNotFound | eofError | badInput
deriving DecidableEq, Repr

variable {R : Type}

/-- `os.stat(p).st_mtime`; `none` is `FileNotFoundError`. -/
def stat (d : Dir R) (p : Path) : Option Int :=
  if p = d.cachePath then d.cache.map Prod.fst else d.files.get? p

/-- `os.listdir`, with the cache file among the others. -/
def listing (d : Dir R) : List Path :=
  Dict.keys d.files ++ (if d.cache.isSome then [d.cachePath] else [])

/-- The suffix a record cache is recognised by (recordCollection.py:119). -/
def rcSuffix : List Char := "mkRecordDirCache".toList

/-- The files considered: recordCollection.py:117-120 (`grant = false`) leaves record caches out, grantCollection.py:68-71
(`grant = true`) leaves nothing out. -/
def flist (grant : Bool) (ext : List Char) (d : Dir R) : List Path :=
  (listing d).filter (fun p => ext.isSuffixOf p && (grant || !rcSuffix.isSuffixOf p))

/-- The `while len(flist) > 0` loop (mkCollection.py:382-385), which takes files from the end; here over the reversed
list. `os.stat` is evaluated before the dictionary lookup. -/
def checkFiles (d : Dir R) (stamp : Stamp) : List Path → Except Err Unit
  | [] => .ok ()
  | p :: rest =>
    match stat d p with
    | none => .error .fileNotFound
    | some m =>
      match stamp.files.get? p with
      | none => .error .keyError
      | some m' => if m ≠ m' then .error .cacheError else checkFiles d stamp rest

/-- `loadCache` (mkCollection.py:367-386). -/
def loadCache (version name : String) (ext : List Char) (d : Dir R) (files : List Path) (f : CacheFile R) :
    Except Err R :=
  match f with
  | .pickleError => .error .cacheError
  | .eof => .error .eofError
  | .ok stamp rc =>
    if stamp.version ≠ version then .error .cacheError
    else if stamp.name ≠ name then .error .cacheError
    else if stamp.ext ≠ ext then .error .cacheError
    else if files.length ≠ stamp.files.length then .error .cacheError
    else match checkFiles d stamp files.reverse with
      | .error e => .error e
      | .ok () => .ok rc

/-- The exceptions `_loadFromCache` catches (mkCollection.py:391). -/
def caught : Err → Bool
  | .cacheError | .keyError | .fileNotFound => true
  | _ => false

/-- The loop of `_createCache` (mkCollection.py:404-405): the modification times of the files. -/
def stampFiles (d : Dir R) : List Path → Dict Path Int → Except Err (Dict Path Int)
  | [], acc => .ok acc
  | p :: rest, acc =>
    match stat d p with
    | none => .error .fileNotFound
    | some m => stampFiles d rest (acc.set p m)

/-- Parsing the files and writing the new cache (recordCollection.py:132-166, grantCollection.py:82-135). `now` is the
modification time the cache file gets. -/
def reparse (version name : String) (ext : List Char) (parse : Dir R → List Path → Except Err R) (now : Int)
    (d : Dir R) (files : List Path) : Except Err R × Dir R :=
  match parse d files with
  | .error e => (.error e, d)
  | .ok rc =>
    match stampFiles d files [] with
    | .error e => (.error e, d)
    | .ok fs => (.ok rc, { d with cache := some (now, .ok ⟨version, name, ext, fs⟩ rc) })

/-- The constructor on a directory with `cached = True` (recordCollection.py:115-166, grantCollection.py:66-135): the
collection or the exception, and the directory afterwards. The list of files is computed once, before the cache is
looked at. -/
def initDir (grant : Bool) (version name : String) (ext : List Char) (parse : Dir R → List Path → Except Err R)
    (now : Int) (d : Dir R) : Except Err R × Dir R :=
  let files := flist grant ext d
  match d.cache with
  | none => reparse version name ext parse now d files
  | some (_, f) =>
    match loadCache version name ext d files f with
    | .ok rc => (.ok rc, d)
    | .error e =>
      if caught e then reparse version name ext parse now { d with cache := none } files
      else (.error e, d)

/-- The constructor on a directory without a cache when other programs change the directory, as `between` says, after the files were read and
before their modification times are taken (recordCollection.py:132-166, mkCollection.py:404-405). -/
def initDirWhile (between : Dict Path Int → Dict Path Int) (grant : Bool) (version name : String) (ext : List Char)
    (parse : Dir R → List Path → Except Err R) (now : Int) (d : Dir R) : Except Err R × Dir R :=
  let files := flist grant ext d
  let d' : Dir R := { d with files := between d.files }
  match parse d files with
  | .error e => (.error e, d')
  | .ok rc =>
    match stampFiles d' files [] with
    | .error e => (.error e, d')
    | .ok fs => (.ok rc, { d' with cache := some (now, .ok ⟨version, name, ext, fs⟩ rc) })

end Verif.Model.Cache
