import Mathlib.Logic.Relation

/-!
# Several programs load one directory with a cache at the same time

Models `RecordCollection(directory, cached = True)` as a program of small steps, any number of which run side by side on one cache file: `_loadFromCache` and `_createCache`
(mkCollection.py:366-407) called from `RecordCollection.__init__` (recordCollection.py:121-131, 160-165). The files of the directory do not change meanwhile (what happens when they
do is in `Verif.Model.Cache`), so that reading them gives the same collection every time, and whether the cache is accepted depends on its bytes only. A step is a call of the system:
testing for the file, opening, removing, reading or writing one byte (a buffer that is read or written at once is a run of such steps). A file that is removed while it is open lives on
without a name, a file opened for writing is cut to nothing first, bytes between its end and the place written to become zero. A program may be killed at any time.
-/
set_option autoImplicit false
namespace Verif.Model.CacheRace

/-- What comes of unpickling and checking the stamp (mkCollection.py:367-386, 391): the collection, one of the exceptions `_loadFromCache` catches (`cacheError` for a `PickleError` or a
stamp that does not fit, `KeyError`), or another one (`EOFError`, …). -/
inductive Verdict (R : Type) where
  | accept (r : R) | caught | raised
deriving DecidableEq

/-- The surroundings: `judge` is what comes of the bytes read so far, `none` if `pickle.load` wants more; `atEnd` says, if there is no more, whether it then raises an exception that is
caught; `value` is what reading the files of the directory gives; `dump i` is what program `i` pickles (two programs may pickle the same collection differently, as the order of a set
depends on the run); `zero` is the byte zero. -/
structure World (R β : Type) where
  judge : List β → Option (Verdict R)
  atEnd : List β → Bool
  value : R
  dump : Nat → List β
  zero : β

/-- The cache file: the number of the file its name leads to, if there is one, the bytes of all files, and the first number that is not used. -/
structure Disk (β : Type) where
  entry : Option Nat
  data : Nat → List β
  next : Nat

/-- How loading fails: `FileNotFoundError` from `os.remove`, or what unpickling raises. -/
inductive Exn where
  | fileNotFound | unpickling
deriving DecidableEq, Repr

/-- Where a program is. -/
inductive Pc (R β : Type) where
  /-- at `os.path.isfile(cacheName)` (mkCollection.py:388) -/
  | check
  /-- at `open(cacheFile, 'rb')` (368) -/
  | openRead
  /-- in `pickle.load` (369-372), then the checks (373-386), with the bytes read -/
  | reading (file : Nat) (got : List β)
  /-- at `os.remove(cacheName)` (392) -/
  | remove
  /-- the files are read (recordCollection.py:132-152); at `open(cacheFile, 'wb')` (mkCollection.py:406) -/
  | openWrite
  /-- in `pickle.dump` (407), with the number of bytes written -/
  | writing (file pos : Nat)
  | done (r : R)
  | failed (e : Exn)
  | killed
deriving DecidableEq

variable {R β : Type}

/-- A file with other bytes. -/
def Disk.put (d : Disk β) (k : Nat) (bs : List β) : Disk β := { d with data := fun n => if n = k then bs else d.data n }

/-- The bytes of a file after writing one at a place. -/
def writeByte (zero : β) (bs : List β) (pos : Nat) (b : β) : List β :=
  if pos < bs.length then bs.set pos b else bs ++ List.replicate (pos - bs.length) zero ++ [b]

/-- A step of program `i` (mkCollection.py:366-407). -/
def act (W : World R β) (i : Nat) (d : Disk β) : Pc R β → Disk β × Pc R β
  | .check => match d.entry with
    | none => (d, .openWrite)
    | some _ => (d, .openRead)
  | .openRead => match d.entry with
    | none => (d, .remove)
    | some k => (d, .reading k [])
  | .reading k got => match W.judge got with
    | some (.accept r) => (d, .done r)
    | some .caught => (d, .remove)
    | some .raised => (d, .failed .unpickling)
    | none => match (d.data k)[got.length]? with
      | some b => (d, .reading k (got ++ [b]))
      | none => if W.atEnd got then (d, .remove) else (d, .failed .unpickling)
  | .remove => match d.entry with
    | none => (d, .failed .fileNotFound)
    | some _ => ({ d with entry := none }, .openWrite)
  | .openWrite => match d.entry with
    | none => ({ d.put d.next [] with entry := some d.next, next := d.next + 1 }, .writing d.next 0)
    | some k => (d.put k [], .writing k 0)
  | .writing k pos => match (W.dump i)[pos]? with
    | some b => (d.put k (writeByte W.zero (d.data k) pos b), .writing k (pos + 1))
    | none => (d, .done W.value)
  | .done r => (d, .done r)
  | .failed e => (d, .failed e)
  | .killed => (d, .killed)

/-- The cache and all programs. -/
structure State (R β : Type) where
  disk : Disk β
  pc : Nat → Pc R β

/-- Program `i` is at another place. -/
def setPc (pc : Nat → Pc R β) (i : Nat) (p : Pc R β) : Nat → Pc R β := fun n => if n = i then p else pc n

/-- A step of one of the programs, or the end of one. -/
inductive Step (W : World R β) : State R β → State R β → Prop where
  | run (i : Nat) (s : State R β) : Step W s ⟨(act W i s.disk (s.pc i)).1, setPc s.pc i (act W i s.disk (s.pc i)).2⟩
  | kill (i : Nat) (s : State R β) : Step W s ⟨s.disk, setPc s.pc i .killed⟩

/-- What can be reached, for all interleavings. -/
def Reach (W : World R β) : State R β → State R β → Prop := Relation.ReflTransGen (Step W)

/-- A directory with a cache file of these bytes, or without one. -/
def fresh : Option (List β) → Disk β
  | none => ⟨none, fun _ => [], 0⟩
  | some bs => ⟨some 0, fun n => if n = 0 then bs else [], 1⟩

/-- All programs are about to begin. -/
def start (old : Option (List β)) : State R β := ⟨fresh old, fun _ => .check⟩

end Verif.Model.CacheRace
