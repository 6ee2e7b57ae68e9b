import Verif.Model.Cache
import Mathlib.Data.List.Perm.Subperm

/-! # C08: the directory cache -/
set_option autoImplicit false
set_option linter.unusedSectionVars false
namespace Verif.Props
open Verif.Py Verif.Model.Cache

variable {R : Type}

theorem checkFiles_ok_iff (d : Dir R) (s : Stamp) (l : List Path) :
    checkFiles d s l = .ok () ↔ ∀ p ∈ l, ∃ m, stat d p = some m ∧ s.files.get? p = some m := by
  induction l with
  | nil => simp [checkFiles]
  | cons p l ih =>
    unfold checkFiles
    simp only [List.mem_cons, forall_eq_or_imp]
    cases h1 : stat d p with
    | none => simp
    | some m =>
      cases h2 : s.files.get? p with
      | none => simp
      | some m' =>
        by_cases hm : m = m'
        · subst hm; simp [ih]
        · simp [hm]; intro h; exact absurd h.symm hm

/-- The files recorded in `s` are exactly the files in `files`, with the modification times they have in `d`. -/
def Fresh (d : Dir R) (files : List Path) (s : Stamp) : Prop :=
  (∀ p, p ∈ files ↔ p ∈ Dict.keys s.files) ∧ ∀ p ∈ files, (stat d p).isSome ∧ stat d p = s.files.get? p

/-- C08: an intact cache is served exactly when version, name and extension agree and the recorded files are exactly the
listed ones with unchanged modification times. -/
theorem C08_served_iff_fresh (version name : String) (ext : List Char) (d : Dir R) (files : List Path)
    (hf : files.Nodup) (s : Stamp) (hs : Dict.WF s.files) (rc : R) :
    loadCache version name ext d files (.ok s rc) = .ok rc ↔
      s.version = version ∧ s.name = name ∧ s.ext = ext ∧ Fresh d files s := by
  have hlenkeys : (Dict.keys s.files).length = s.files.length := by simp [Dict.keys]
  unfold loadCache
  constructor
  · intro h
    simp only [] at h
    split at h; · simp at h
    rename_i hv
    split at h; · simp at h
    rename_i hnm
    split at h; · simp at h
    rename_i hex
    split at h; · simp at h
    rename_i hlen
    split at h; · simp at h
    rename_i hck
    rw [checkFiles_ok_iff] at hck
    simp only [List.mem_reverse, not_not] at *
    refine ⟨hv, hnm, hex, ?_, ?_⟩
    · have hsub : files ⊆ Dict.keys s.files := by
        intro p hp
        obtain ⟨m, _, h2⟩ := hck p hp
        rw [Dict.mem_keys_iff, h2]; rfl
      have hsp : files.Subperm (Dict.keys s.files) := List.subperm_of_subset hf hsub
      exact fun p => (hsp.perm_of_length_le (by omega)).mem_iff
    · intro p hp
      obtain ⟨m, h1, h2⟩ := hck p hp
      simp [h1, h2]
  · rintro ⟨hv, hnm, hex, hset, hm⟩
    have hlen : files.length = s.files.length := by
      rw [← hlenkeys]
      exact ((List.perm_ext_iff_of_nodup hf hs).2 hset).length_eq
    have hck : checkFiles d s files.reverse = .ok () := by
      rw [checkFiles_ok_iff]
      intro p hp
      obtain ⟨h1, h2⟩ := hm p (by simpa using hp)
      cases h3 : stat d p with
      | none => simp [h3] at h1
      | some m => exact ⟨m, rfl, by rw [← h2, h3]⟩
    simp [hv, hnm, hex, hlen, hck]

/-- A cache that does not unpickle cleanly to a fresh one is never served: the exception is reported. -/
theorem C08_damaged_not_served (version name : String) (ext : List Char) (d : Dir R) (files : List Path) :
    loadCache version name ext d files .pickleError = .error .cacheError ∧
    loadCache version name ext d files .eof = .error .eofError := ⟨rfl, rfl⟩

theorem stampFiles_spec (d : Dir R) (l : List Path) (acc : Dict Path Int) (hacc : Dict.WF acc) :
    (∀ fs, stampFiles d l acc = .ok fs → Dict.WF fs ∧
      ∀ p, fs.get? p = if p ∈ l then stat d p else acc.get? p) ∧
    ((∀ p ∈ l, (stat d p).isSome) → ∃ fs, stampFiles d l acc = .ok fs) ∧
    ((∃ p ∈ l, stat d p = none) → stampFiles d l acc = .error .fileNotFound) := by
  induction l generalizing acc with
  | nil => simp [stampFiles, hacc]
  | cons q l ih =>
    unfold stampFiles
    cases h : stat d q with
    | none => simp [h]
    | some m =>
      obtain ⟨i1, i2, i3⟩ := ih (acc.set q m) (Dict.WF_set hacc q m)
      refine ⟨?_, ?_, ?_⟩
      · intro fs hfs
        obtain ⟨g1, g2⟩ := i1 fs hfs
        refine ⟨g1, fun p => ?_⟩
        rw [g2, Dict.get?_set]
        by_cases hp : p ∈ l
        · simp [hp]
        · by_cases hq : q = p
          · subst hq; simp [hp, h]
          · simp [hp, hq, Ne.symm hq]
      · intro hall
        exact i2 (fun p hp => hall p (List.mem_cons_of_mem _ hp))
      · rintro ⟨p, hp, hn⟩
        rcases List.mem_cons.1 hp with rfl | hp
        · rw [h] at hn; simp at hn
        · exact i3 ⟨p, hp, hn⟩

theorem listing_nodup (d : Dir R) (hd : Dict.WF d.files) (hc : d.cachePath ∉ Dict.keys d.files) : (listing d).Nodup := by
  unfold listing
  rw [List.nodup_append]
  refine ⟨hd, by split <;> simp, ?_⟩
  intro a ha b hb
  split at hb
  · simp at hb; subst hb; rintro rfl; exact hc ha
  · simp at hb

theorem flist_nodup (g : Bool) (ext : List Char) (d : Dir R) (hd : Dict.WF d.files)
    (hc : d.cachePath ∉ Dict.keys d.files) : (flist g ext d).Nodup := (listing_nodup d hd hc).filter _

theorem stat_file (d : Dir R) (hc : d.cachePath ∉ Dict.keys d.files) {p : Path} (hp : p ∈ Dict.keys d.files) :
    stat d p = d.files.get? p := by
  unfold stat
  rw [if_neg]; rintro rfl; exact hc hp

/-- The files that are read: those with the extension, and a collection of records leaves out caches of records. -/
def Reads (grant : Bool) (ext : List Char) (p : Path) : Prop := ext <:+ p ∧ (grant = true ∨ ¬ "mkRecordDirCache".toList <:+ p)

instance (grant : Bool) (ext : List Char) (p : Path) : Decidable (Reads grant ext p) := by unfold Reads; infer_instance

/-- The files of the directory that are read, in the order in which the directory lists them. -/
def reading (grant : Bool) (ext : List Char) (d : Dir R) : List Path := (Dict.keys d.files).filter (fun p => Reads grant ext p)

/-- Two directories agree on the files that are read: same files, same modification times. -/
def SameFiles (grant : Bool) (ext : List Char) (d d' : Dir R) : Prop := ∀ p, Reads grant ext p → d.files.get? p = d'.files.get? p

/-- A directory as it should be: the cache file is not one of the files that are read. -/
structure Usual (grant : Bool) (ext : List Char) (d : Dir R) : Prop where
  wf : Dict.WF d.files
  notFile : d.cachePath ∉ Dict.keys d.files
  notRead : ¬ Reads grant ext d.cachePath

theorem reads_bool (grant : Bool) (ext p : List Char) : (ext.isSuffixOf p && (grant || !rcSuffix.isSuffixOf p)) = decide (Reads grant ext p) := by
  rw [Bool.eq_iff_iff, Bool.and_eq_true, Bool.or_eq_true, decide_eq_true_iff, List.isSuffixOf_iff_suffix]
  unfold Reads
  have e : (!rcSuffix.isSuffixOf p) = true ↔ ¬ "mkRecordDirCache".toList <:+ p := by
    rw [← List.isSuffixOf_iff_suffix, Bool.not_eq_true', Bool.not_eq_true]; rfl
  rw [e]

theorem flist_eq (grant : Bool) (ext : List Char) (d : Dir R) (h : ¬ Reads grant ext d.cachePath) : flist grant ext d = reading grant ext d := by
  have hb := reads_bool grant ext
  unfold flist listing reading
  rw [List.filter_append]
  simp only [hb]
  have : ((if d.cache.isSome = true then [d.cachePath] else []) : List Path).filter (fun p => decide (Reads grant ext p)) = [] := by
    split <;> simp [h]
  rw [this, List.append_nil]

theorem mem_reading (grant : Bool) (ext : List Char) (d : Dir R) (p : Path) :
    p ∈ reading grant ext d ↔ p ∈ Dict.keys d.files ∧ Reads grant ext p := by
  unfold reading; simp

/-- The dictionary of modification times records the files that are read as they are in `dd`. -/
def Records (grant : Bool) (ext : List Char) (files : Dict Path Int) (dd : Dir R) : Prop :=
  Dict.WF files ∧ ∀ p, files.get? p = if Reads grant ext p then dd.files.get? p else none

theorem stamp_reading (grant : Bool) (ext : List Char) (d : Dir R) (h : Usual grant ext d) :
    ∃ fs, stampFiles d (reading grant ext d) [] = .ok fs ∧ Records grant ext fs d := by
  obtain ⟨h1, h2, -⟩ := stampFiles_spec d (reading grant ext d) [] Dict.WF_nil
  obtain ⟨fs, hfs⟩ := h2 (by
    intro p hp
    have := (mem_reading grant ext d p).1 hp
    rw [stat_file d h.notFile this.1]
    exact (Dict.mem_keys_iff _ _).1 this.1)
  refine ⟨fs, hfs, (h1 fs hfs).1, fun p => ?_⟩
  rw [(h1 fs hfs).2 p]
  by_cases hr : Reads grant ext p
  · rw [if_pos hr]
    by_cases hk : p ∈ Dict.keys d.files
    · rw [if_pos ((mem_reading _ _ _ _).2 ⟨hk, hr⟩), stat_file d h.notFile hk]
    · rw [if_neg (fun hm => hk ((mem_reading _ _ _ _).1 hm).1), (Dict.get?_eq_none_iff _ _).2 hk]; rfl
  · rw [if_neg hr, if_neg (fun hm => hr ((mem_reading _ _ _ _).1 hm).2)]; rfl

theorem fresh_iff (grant : Bool) (version name : String) (ext : List Char) (dd d : Dir R) (h : Usual grant ext d) (fs : Dict Path Int)
    (hfs : Records grant ext fs dd) : Fresh d (reading grant ext d) ⟨version, name, ext, fs⟩ ↔ SameFiles grant ext dd d := by
  constructor
  · rintro ⟨h1, h2⟩ p hr
    by_cases hin : p ∈ reading grant ext d
    · have h4 := (h2 p hin).2
      rw [stat_file d h.notFile ((mem_reading _ _ _ _).1 hin).1] at h4
      dsimp only at h4
      rw [hfs.2, if_pos hr] at h4
      exact h4.symm
    · have h5 : p ∉ Dict.keys fs := fun hk => hin ((h1 p).2 hk)
      have h6 := (Dict.get?_eq_none_iff _ _).2 h5
      rw [hfs.2, if_pos hr] at h6
      rw [h6, (Dict.get?_eq_none_iff _ _).2 (fun hk => hin ((mem_reading _ _ _ _).2 ⟨hk, hr⟩))]
  · intro hsame
    refine ⟨fun p => ?_, fun p hin => ?_⟩
    · rw [mem_reading, Dict.mem_keys_iff, Dict.mem_keys_iff]
      dsimp only
      rw [hfs.2]
      by_cases hr : Reads grant ext p
      · rw [if_pos hr, hsame p hr]; simp [hr]
      · rw [if_neg hr]; simp [hr]
    · obtain ⟨hk, hr⟩ := (mem_reading _ _ _ _).1 hin
      rw [stat_file d h.notFile hk]
      refine ⟨(Dict.mem_keys_iff _ _).1 hk, ?_⟩
      dsimp only
      rw [hfs.2, if_pos hr, hsame p hr]

theorem checkFiles_caught (d : Dir R) (s : Stamp) (l : List Path) (e : Err) (h : checkFiles d s l = .error e) : caught e = true := by
  induction l with
  | nil => simp [checkFiles] at h
  | cons q l ih =>
    unfold checkFiles at h
    split at h
    · simp at h; subst h; rfl
    · split at h
      · simp at h; subst h; rfl
      · split at h
        · simp at h; subst h; rfl
        · exact ih h

theorem loadCache_ok (version name : String) (ext : List Char) (d : Dir R) (files : List Path) (s : Stamp) (rc : R) :
    loadCache version name ext d files (.ok s rc) = .ok rc ∨
      ∃ e, loadCache version name ext d files (.ok s rc) = .error e ∧ caught e = true := by
  unfold loadCache
  dsimp only
  split
  · exact .inr ⟨_, rfl, rfl⟩
  · split
    · exact .inr ⟨_, rfl, rfl⟩
    · split
      · exact .inr ⟨_, rfl, rfl⟩
      · split
        · exact .inr ⟨_, rfl, rfl⟩
        · split
          · rename_i h; exact .inr ⟨_, rfl, checkFiles_caught _ _ _ _ h⟩
          · exact .inl rfl

/-- What the constructor does with an intact cache. -/
theorem initDir_intact (grant : Bool) (version name : String) (ext : List Char) (parse : Dir R → List Path → Except Err R) (now t : Int)
    (d : Dir R) (h : Usual grant ext d) (s : Stamp) (hs : Dict.WF s.files) (rc : R) (hcache : d.cache = some (t, .ok s rc)) :
    (s.version = version ∧ s.name = name ∧ s.ext = ext ∧ Fresh d (reading grant ext d) s →
      initDir grant version name ext parse now d = (.ok rc, d)) ∧
    (¬ (s.version = version ∧ s.name = name ∧ s.ext = ext ∧ Fresh d (reading grant ext d) s) →
      initDir grant version name ext parse now d = reparse version name ext parse now { d with cache := none } (reading grant ext d)) := by
  have hserved := C08_served_iff_fresh version name ext d (reading grant ext d) (h.wf.filter _) s hs rc
  rw [← hserved]
  unfold initDir
  rw [hcache, flist_eq grant ext d h.notRead]
  dsimp only
  rcases loadCache_ok version name ext d (reading grant ext d) s rc with hl | ⟨e, hl, he⟩
  · rw [hl]; exact ⟨fun _ => rfl, fun hn => absurd rfl hn⟩
  · rw [hl]
    refine ⟨fun hh => by (cases hh), fun _ => ?_⟩
    simp [he]

/-- Reading the files: the result is that of the parser, and if it is a collection a cache with it is written. -/
theorem reparse_eq (grant : Bool) (version name : String) (ext : List Char) (parse : Dir R → List Path → Except Err R) (now : Int)
    (d : Dir R) (h : Usual grant ext d) :
    (∀ e, parse d (reading grant ext d) = .error e → reparse version name ext parse now d (reading grant ext d) = (.error e, d)) ∧
    (∀ rc, parse d (reading grant ext d) = .ok rc → ∃ fs, Records grant ext fs d ∧
      reparse version name ext parse now d (reading grant ext d) = (.ok rc, { d with cache := some (now, .ok ⟨version, name, ext, fs⟩ rc) })) := by
  obtain ⟨fs, h1, h2⟩ := stamp_reading grant ext d h
  constructor
  · intro e he; unfold reparse; rw [he]
  · intro rc hrc; refine ⟨fs, h2, ?_⟩; unfold reparse; rw [hrc]; dsimp only; rw [h1]

/-- C08: a cache written in directory `d` and looked at later in any directory state `d'` with the same cache file is served if and only if no
file that is read was added, removed or touched in between; if so the saved collection is returned and nothing is written, otherwise the files
are parsed afresh in `d'` without the old cache, and their result is given. For collections of records, and for those of grants unless the
cache file has the extension asked for, see `C08_grant_second_load_raises`. -/
theorem C08_history_partial (grant : Bool) (version name : String) (ext : List Char) (parse : Dir R → List Path → Except Err R)
    (now now' : Int) (d d1 d' : Dir R) (rc : R) (hd : Usual grant ext d) (hd' : Usual grant ext d')
    (hnone : d.cache = none) (hfirst : initDir grant version name ext parse now d = (.ok rc, d1)) (hkeep : d'.cache = d1.cache) :
    (SameFiles grant ext d d' → initDir grant version name ext parse now' d' = (.ok rc, d')) ∧
    (¬ SameFiles grant ext d d' →
      (initDir grant version name ext parse now' d').1 = parse { d' with cache := none } (reading grant ext d')) := by
  have hd0 : Usual grant ext ({ d' with cache := none } : Dir R) := ⟨hd'.wf, hd'.notFile, hd'.notRead⟩
  unfold initDir at hfirst
  rw [hnone, flist_eq grant ext d hd.notRead] at hfirst
  dsimp only at hfirst
  obtain ⟨r1, r2⟩ := reparse_eq grant version name ext parse now d hd
  cases hp : parse d (reading grant ext d) with
  | error e => rw [r1 e hp] at hfirst; cases hfirst
  | ok rc0 =>
    obtain ⟨fs, hfs, r3⟩ := r2 rc0 hp
    rw [r3] at hfirst
    simp only [Prod.mk.injEq, Except.ok.injEq] at hfirst
    obtain ⟨rfl, hd1⟩ := hfirst
    have hcache : d'.cache = some (now, .ok ⟨version, name, ext, fs⟩ rc0) := by rw [hkeep, ← hd1]
    obtain ⟨i1, i2⟩ := initDir_intact grant version name ext parse now' now d' hd' _ hfs.1 rc0 hcache
    have hf := fresh_iff grant version name ext d d' hd' fs hfs
    refine ⟨fun hs => i1 ⟨rfl, rfl, rfl, hf.2 hs⟩, fun hs => ?_⟩
    rw [i2 (fun hh => hs (hf.1 hh.2.2.2))]
    obtain ⟨q1, q2⟩ := reparse_eq grant version name ext parse now' { d' with cache := none } hd0
    cases hq : parse { d' with cache := none } (reading grant ext { d' with cache := none }) with
    | error e => exact (congrArg Prod.fst (q1 e hq)).trans hq.symm
    | ok r =>
      obtain ⟨_, _, q3⟩ := q2 r hq
      exact (congrArg Prod.fst q3).trans hq.symm

/-! ## Any number of loads and changes -/

/-- What happens to a directory: it is loaded, files are written or removed, the cache is removed, damaged or replaced by one of another version. -/
inductive Op (R : Type) where
  | load (now : Int)
  | write (p : Path) (m : Int)
  | remove (p : Path)
  | dropCache
  | damageCache (t : Int)
  | otherCache (t : Int) (s : Stamp) (rc : R)

/-- Changes that do not write a file in the place of the cache, and no cache of the same version that was not made here. -/
def Op.Ok (version : String) (cachePath : Path) : Op R → Prop
  | .write p _ => p ≠ cachePath
  | .otherCache _ s _ => s.version ≠ version ∧ Dict.WF s.files
  | _ => True

def step (grant : Bool) (version name : String) (ext : List Char) (parse : Dir R → List Path → Except Err R) (d : Dir R) : Op R → Dir R
  | .load now => (initDir grant version name ext parse now d).2
  | .write p m => { d with files := d.files.set p m }
  | .remove p => { d with files := d.files.erase p }
  | .dropCache => { d with cache := none }
  | .damageCache t => { d with cache := some (t, .pickleError) }
  | .otherCache t s rc => { d with cache := some (t, .ok s rc) }

/-- Whatever is in the cache was read from a directory that had the recorded files. -/
def CacheOk (grant : Bool) (version name : String) (ext : List Char) (parse : Dir R → List Path → Except Err R) (d : Dir R) : Prop :=
  match d.cache with
  | none => True
  | some (_, .pickleError) => True
  | some (_, .eof) => False
  | some (_, .ok s rc) => Dict.WF s.files ∧ (s.version = version →
      s.name = name ∧ s.ext = ext ∧ ∃ dd : Dir R, Records grant ext s.files dd ∧ parse dd (reading grant ext dd) = .ok rc)

theorem load_ok (grant : Bool) (version name : String) (ext : List Char) (parse : Dir R → List Path → Except Err R) (now : Int) (d : Dir R)
    (h : Usual grant ext d) (hc : CacheOk grant version name ext parse d) :
    (∃ dd : Dir R, SameFiles grant ext dd d ∧ (initDir grant version name ext parse now d).1 = parse dd (reading grant ext dd)) ∧
    Usual grant ext (initDir grant version name ext parse now d).2 ∧ CacheOk grant version name ext parse (initDir grant version name ext parse now d).2 ∧
    (initDir grant version name ext parse now d).2.files = d.files ∧ (initDir grant version name ext parse now d).2.cachePath = d.cachePath := by
  have hre : ∀ d0 : Dir R, d0.files = d.files → d0.cachePath = d.cachePath → d0.cache = none →
      initDir grant version name ext parse now d = reparse version name ext parse now d0 (reading grant ext d0) →
      (∃ dd : Dir R, SameFiles grant ext dd d ∧ (initDir grant version name ext parse now d).1 = parse dd (reading grant ext dd)) ∧
      Usual grant ext (initDir grant version name ext parse now d).2 ∧ CacheOk grant version name ext parse (initDir grant version name ext parse now d).2 ∧
      (initDir grant version name ext parse now d).2.files = d.files ∧ (initDir grant version name ext parse now d).2.cachePath = d.cachePath := by
    intro d0 e1 e2 e3 hi
    have hu : Usual grant ext d0 := ⟨by rw [e1]; exact h.wf, by rw [e1, e2]; exact h.notFile, by rw [e2]; exact h.notRead⟩
    rw [hi]
    obtain ⟨q1, q2⟩ := reparse_eq grant version name ext parse now d0 hu
    have hs : SameFiles grant ext d0 d := by intro p _; rw [e1]
    cases hp : parse d0 (reading grant ext d0) with
    | error e =>
      rw [q1 e hp]
      refine ⟨⟨d0, hs, hp.symm⟩, hu, ?_, e1, e2⟩
      unfold CacheOk; rw [e3]; trivial
    | ok rc =>
      obtain ⟨fs, hfs, q3⟩ := q2 rc hp
      rw [q3]
      exact ⟨⟨d0, hs, hp.symm⟩, ⟨hu.wf, hu.notFile, hu.notRead⟩, ⟨hfs.1, fun _ => ⟨rfl, rfl, d0, hfs, hp⟩⟩, e1, e2⟩
  cases hcache : d.cache with
  | none =>
    apply hre d rfl rfl hcache
    unfold initDir; rw [hcache, flist_eq grant ext d h.notRead]
  | some c =>
    obtain ⟨t, f⟩ := c
    unfold CacheOk at hc
    rw [hcache] at hc
    cases f with
    | eof => exact hc.elim
    | pickleError =>
      apply hre { d with cache := none } rfl rfl rfl
      unfold initDir
      rw [hcache, flist_eq grant ext d h.notRead]
      rfl
    | ok s rc =>
      obtain ⟨hs, hv⟩ := hc
      obtain ⟨i1, i2⟩ := initDir_intact grant version name ext parse now t d h s hs rc hcache
      by_cases hf : s.version = version ∧ s.name = name ∧ s.ext = ext ∧ Fresh d (reading grant ext d) s
      · obtain ⟨-, -, dd, hdd, hpd⟩ := hv hf.1
        rw [i1 hf]
        refine ⟨⟨dd, ?_, hpd.symm⟩, h, ?_, rfl, rfl⟩
        · exact (fresh_iff grant s.version s.name ext dd d h s.files hdd).1 hf.2.2.2
        · unfold CacheOk; rw [hcache]; exact ⟨hs, hv⟩
      · exact hre { d with cache := none } rfl rfl rfl (i2 hf)

/-- C08: in any history of loads of a directory, changes of its files, and removals or damages of the cache, every load gives the result of reading a
directory with exactly the files, with their modification times, that the directory has at that moment: a cache is never out of date. If
reading depends on the files and their modification times alone, this is the result of reading the directory. Missing: a cache that ends too
early (`C08_crash_while_writing`), changes while a directory is loaded (`C08_race`) and grants read with an extension that the cache has, too
(`C08_grant_second_load_raises`). -/
theorem C08_sessions_partial (grant : Bool) (version name : String) (ext : List Char) (parse : Dir R → List Path → Except Err R) (d : Dir R)
    (hd : Usual grant ext d) (hnone : d.cache = none) (ops : List (Op R)) (hops : ∀ op ∈ ops, op.Ok version d.cachePath) (now : Int) :
    let d' := ops.foldl (step grant version name ext parse) d
    ∃ dd : Dir R, SameFiles grant ext dd d' ∧ (initDir grant version name ext parse now d').1 = parse dd (reading grant ext dd) := by
  have hc : CacheOk grant version name ext parse d := by unfold CacheOk; rw [hnone]; trivial
  clear hnone
  induction ops generalizing d with
  | nil => exact (load_ok grant version name ext parse now d hd hc).1
  | cons op ops ih =>
    have hop := hops op (by simp)
    have hrest : ∀ op ∈ ops, op.Ok version d.cachePath := fun o ho => hops o (by simp [ho])
    rw [List.foldl_cons]
    have key : Usual grant ext (step grant version name ext parse d op) ∧ (step grant version name ext parse d op).cachePath = d.cachePath ∧
        CacheOk grant version name ext parse (step grant version name ext parse d op) := by
      cases op with
      | load now =>
        obtain ⟨-, h1, h2, -, h4⟩ := load_ok grant version name ext parse now d hd hc
        exact ⟨h1, h4, h2⟩
      | write p m =>
        refine ⟨⟨Dict.WF_set hd.wf p m, ?_, hd.notRead⟩, rfl, hc⟩
        dsimp only [step]
        rw [Dict.mem_keys_iff, Dict.get?_set]
        have hp : p ≠ d.cachePath := hop
        rw [if_neg hp, ← Dict.mem_keys_iff]
        exact hd.notFile
      | remove p =>
        refine ⟨⟨Dict.WF_erase hd.wf p, ?_, hd.notRead⟩, rfl, hc⟩
        dsimp only [step]
        intro hm
        rw [Dict.mem_keys_iff, Dict.get?_erase _ hd.wf] at hm
        split at hm
        · cases hm
        · exact hd.notFile ((Dict.mem_keys_iff _ _).2 hm)
      | dropCache => exact ⟨⟨hd.wf, hd.notFile, hd.notRead⟩, rfl, trivial⟩
      | damageCache t => exact ⟨⟨hd.wf, hd.notFile, hd.notRead⟩, rfl, trivial⟩
      | otherCache t s rc => exact ⟨⟨hd.wf, hd.notFile, hd.notRead⟩, rfl, hop.2, fun hv => absurd hv hop.1⟩
    exact ih _ key.1 (by rw [key.2.1]; exact hrest) key.2.2

/-- C08: so if what is read depends only on the files with their modification times, a load with a cache gives what a load without one would. -/
theorem C08_transparent_partial (grant : Bool) (version name : String) (ext : List Char) (parse : Dir R → List Path → Except Err R)
    (hparse : ∀ a b : Dir R, SameFiles grant ext a b → parse a (reading grant ext a) = parse b (reading grant ext b)) (d : Dir R)
    (hd : Usual grant ext d) (hnone : d.cache = none) (ops : List (Op R)) (hops : ∀ op ∈ ops, op.Ok version d.cachePath) (now : Int) :
    let d' := ops.foldl (step grant version name ext parse) d
    (initDir grant version name ext parse now d').1 = parse d' (reading grant ext d') := by
  obtain ⟨dd, h1, h2⟩ := C08_sessions_partial grant version name ext parse d hd hnone ops hops now
  exact h2.trans (hparse _ _ h1)

/-- C08 fails when a file is changed while its directory is loaded, after it was read and before its modification time is recorded: the cache holds the
old contents with the new time, so the old contents are served from then on, although no file changed since. -/
theorem C08_race (grant : Bool) (version name : String) (ext : List Char) (parse : Dir R → List Path → Except Err R) (now now' : Int) (d : Dir R)
    (hd : Usual grant ext d) (p : Path) (hp : p ∈ reading grant ext d) (m : Int) (rc : R) (hrc : parse d (reading grant ext d) = .ok rc) :
    ∃ d1, initDirWhile (fun files => files.set p m) grant version name ext parse now d = (.ok rc, d1) ∧ d1.files = d.files.set p m ∧
      initDir grant version name ext parse now' d1 = (.ok rc, d1) := by
  obtain ⟨hk, hr⟩ := (mem_reading _ _ _ _).1 hp
  have hpc : p ≠ d.cachePath := by rintro rfl; exact hd.notFile hk
  have hd' : Usual grant ext ({ d with files := d.files.set p m } : Dir R) := by
    refine ⟨Dict.WF_set hd.wf p m, ?_, hd.notRead⟩
    dsimp only
    rw [Dict.mem_keys_iff, Dict.get?_set, if_neg hpc, ← Dict.mem_keys_iff]
    exact hd.notFile
  have hkeys : Dict.keys (d.files.set p m) = Dict.keys d.files := by rw [Dict.keys_set, if_pos hk]
  have hrd : reading grant ext ({ d with files := d.files.set p m } : Dir R) = reading grant ext d := by
    unfold reading; dsimp only; rw [hkeys]
  obtain ⟨fs, h1, h2⟩ := stamp_reading grant ext _ hd'
  rw [hrd] at h1
  refine ⟨{ d with files := d.files.set p m, cache := some (now, .ok ⟨version, name, ext, fs⟩ rc) }, ?_, rfl, ?_⟩
  · unfold initDirWhile
    rw [flist_eq grant ext d hd.notRead]
    dsimp only
    rw [hrc]
    dsimp only
    rw [h1]
  · have hu : Usual grant ext { d with files := d.files.set p m, cache := some (now, .ok ⟨version, name, ext, fs⟩ rc) } :=
      ⟨hd'.wf, hd'.notFile, hd'.notRead⟩
    refine (initDir_intact grant version name ext parse now' now _ hu _ h2.1 rc rfl).1 ⟨rfl, rfl, rfl, ?_⟩
    exact (fresh_iff grant version name ext { d with files := d.files.set p m } _ hu fs h2).2 (fun _ _ => rfl)

/-- C08 fails for grant collections read with an extension the cache file's name also ends with (the default, the empty
extension, always does): the cache file is then among the files it must be compared with, so it is rejected and removed,
and the second load raises although nothing in the directory changed. -/
theorem C08_grant_second_load_raises (version name : String) (ext : List Char)
    (parse : Dir R → List Path → Except Err R) (now now' : Int) (d d1 : Dir R) (rc : R)
    (hd : Dict.WF d.files) (hc : d.cachePath ∉ Dict.keys d.files) (hext : ext.isSuffixOf d.cachePath = true)
    (hnone : d.cache = none) (hfirst : initDir true version name ext parse now d = (.ok rc, d1)) :
    ∃ e, (initDir true version name ext parse now' d1).1 = .error e := by
  unfold initDir at hfirst
  rw [hnone] at hfirst
  simp only [reparse] at hfirst
  cases hp : parse d (flist true ext d) with
  | error e => simp [hp] at hfirst
  | ok rc0 =>
    simp only [hp] at hfirst
    cases hst : stampFiles d (flist true ext d) [] with
    | error e => simp [hst] at hfirst
    | ok fs =>
      simp only [hst, Prod.mk.injEq, Except.ok.injEq] at hfirst
      obtain ⟨rfl, hd1⟩ := hfirst
      have hfiles : d1.files = d.files := by rw [← hd1]
      have hcp : d1.cachePath = d.cachePath := by rw [← hd1]
      have hcache : d1.cache = some (now, .ok ⟨version, name, ext, fs⟩ rc0) := by rw [← hd1]
      obtain ⟨hfsWF, hfs⟩ := (stampFiles_spec d (flist true ext d) [] Dict.WF_nil).1 fs hst
      have hin : d1.cachePath ∈ flist true ext d1 := by
        unfold flist listing
        rw [hcache]
        simp [hcp, hext]
      have hnotfs : d1.cachePath ∉ Dict.keys fs := by
        rw [← Dict.get?_eq_none_iff, hfs]
        split
        · rw [hcp]; simp [stat, hnone]
        · rfl
      have hne : ¬ Fresh d1 (flist true ext d1) ⟨version, name, ext, fs⟩ := by
        rintro ⟨h1, _⟩
        exact hnotfs ((h1 _).1 hin)
      have hserved := C08_served_iff_fresh version name ext d1 (flist true ext d1)
        (flist_nodup true ext d1 (by rw [hfiles]; exact hd) (by rw [hcp, hfiles]; exact hc))
        ⟨version, name, ext, fs⟩ hfsWF rc0
      unfold initDir
      simp only [hcache]
      cases hl : loadCache version name ext d1 (flist true ext d1) (.ok ⟨version, name, ext, fs⟩ rc0) with
      | ok r =>
        have hr : r = rc0 := by
          unfold loadCache at hl
          simp only [] at hl
          repeat' (split at hl; · simp at hl)
          simp at hl; exact hl.symm
        subst hr
        exact absurd (hserved.1 hl).2.2.2 hne
      | error e =>
        simp only []
        split
        · unfold reparse
          split
          · exact ⟨_, rfl⟩
          · obtain ⟨_, _, h3⟩ := stampFiles_spec { d1 with cache := none } (flist true ext d1) [] Dict.WF_nil
            rw [h3 ⟨d1.cachePath, hin, by simp [stat]⟩]
            exact ⟨_, rfl⟩
        · exact ⟨_, rfl⟩

/-- C08 and crashes: a crash while the cache is being written can leave a file whose unpickling ends early; then every
later cached load raises `EOFError`, and leaves the directory (with the unreadable cache) as it is, instead of
reparsing. -/
theorem C08_crash_while_writing (grant : Bool) (version name : String) (ext : List Char)
    (parse : Dir R → List Path → Except Err R) (now m : Int) (d : Dir R) (h : d.cache = some (m, .eof)) :
    initDir grant version name ext parse now d = (.error .eofError, d) := by
  unfold initDir
  simp [h, loadCache, caught]

/-- A cache whose unpickling raises `PickleError` is removed and the files are parsed again. -/
theorem C08_pickle_error_reparses (grant : Bool) (version name : String) (ext : List Char)
    (parse : Dir R → List Path → Except Err R) (now m : Int) (d : Dir R) (h : d.cache = some (m, .pickleError)) :
    initDir grant version name ext parse now d =
      reparse version name ext parse now { d with cache := none } (flist grant ext d) := by
  unfold initDir
  simp [h, loadCache, caught]

private def dir0 : Dir Nat := ⟨[("a.txt".toList, 5), ("b.isi".toList, 6)], "x.[].mkRecordDirCache".toList, none⟩
private def parse0 : Dir Nat → List Path → Except Err Nat := fun _ l => .ok l.length

example : ∃ d1, initDir false "3.4.1" "n" [] parse0 9 dir0 = (.ok 2, d1) ∧ Dict.WF dir0.files ∧
    Usual false [] dir0 ∧
    initDir false "3.4.1" "n" [] parse0 9 d1 = (.ok 2, d1) ∧
    (initDir false "3.4.1" "n" [] parse0 9 { d1 with files := [("a.txt".toList, 5)] }).1 = .ok 1 :=
  ⟨_, rfl, by decide, ⟨by decide, by decide, by decide⟩, by rfl, by rfl⟩

/-- A session in which the directory is loaded, a file is touched, the cache damaged, a file removed, and all loaded in between. -/
example : (∀ op ∈ ([.load 9, .write "a.txt".toList 10, .load 11, .damageCache 12, .load 13, .remove "b.isi".toList] : List (Op Nat)),
      op.Ok "3.4.1" dir0.cachePath) ∧
    (initDir false "3.4.1" "n" [] parse0 20 ([.load 9, .write "a.txt".toList 10, .load 11, .damageCache 12, .load 13,
      .remove "b.isi".toList].foldl (step false "3.4.1" "n" [] parse0) dir0)).1 = .ok 1 := by
  refine ⟨?_, by rfl⟩
  simp only [List.mem_cons, List.not_mem_nil, or_false]
  rintro op (rfl | rfl | rfl | rfl | rfl | rfl) <;> first | trivial | (show _ ≠ _; decide)

example : "a.txt".toList ∈ reading false [] dir0 ∧ parse0 dir0 (reading false [] dir0) = .ok 2 := ⟨by decide, by rfl⟩

example : ∃ d1, initDir true "3.4.1" "n" [] parse0 9 { dir0 with cachePath := "x.[].mkGrantDirCache".toList } = (.ok 2, d1) ∧
    (initDir true "3.4.1" "n" [] parse0 9 d1).1 = .error .fileNotFound := ⟨_, rfl, by rfl⟩

end Verif.Props
