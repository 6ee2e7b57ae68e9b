import Verif.Lemmas.J9Files

/-!
# C106: the saved pages, the databases of abbreviations and the working directory
-/
set_option autoImplicit false
set_option linter.unusedSimpArgs false
namespace Verif.Props.J9Files
open Verif.Py Verif.Spec.Paths Verif.Spec.J9Files Verif.Model.J9Files Verif.Lemmas.J9Files
open Verif.Model.JournalDB (getDict getCurrent storeNew loadInto Which)

/-- `j9urlGenerator` gives the address of every page once, as a list or with the name of the page, in the same order. -/
theorem C106_addresses :
    (∀ u, u ∈ urls ↔ ∃ id, PageName id ∧ u = address id) ∧ urls.Nodup ∧ urls.length = 27 ∧
    urlDict.map Prod.snd = urls ∧ ∀ id u, (id, u) ∈ urlDict ↔ PageName id ∧ u = address id := by
  have key : ∀ id u, (id, u) ∈ urlDict ↔ PageName id ∧ u = address id := by
    intro id u
    rw [pageName_mem]
    constructor
    · intro h; exact ⟨List.mem_map_of_mem (f := Prod.fst) h, urlDict_pair _ h⟩
    · rintro ⟨h, rfl⟩
      obtain ⟨⟨a, b⟩, hp, rfl⟩ := List.mem_map.1 h
      rw [← urlDict_pair _ hp]; exact hp
  refine ⟨fun u => ?_, by decide +kernel, by decide +kernel, urlDict_snd, key⟩
  rw [← urlDict_snd, List.mem_map]
  constructor
  · rintro ⟨⟨a, b⟩, hp, rfl⟩; exact ⟨a, (key _ _).1 hp⟩
  · rintro ⟨id, h⟩; exact ⟨(id, u), (key _ _).2 h, rfl⟩

/-- `updatej9DB(saveRawHTML = True)` that ends well: every page is in the directory of the day inside `j9Raws` beside the source, exactly as the server
gave it; no other file is changed and no other directory made; the one database that may have changed is the named one beside the source, wherever
the caller was working. -/
theorem C106_saved (net : Net) (pkg day dbname : Str) (src : Loc) (st : St) (h : Ready st.fs pkg src day) (hn : Name dbname)
    (hok : (update net pkg day dbname true st).2 = none) :
    let st' := (update net pkg day dbname true st).1
    (∀ id, PageName id → ∃ i text, urls[i]? = some (address id) ∧ net (st.asked.length + i) (address id) = some text ∧
      st'.fs.file (dayOf src day ++ [fileOf id]) = some text) ∧
    (∀ l, (∀ id, PageName id → l ≠ dayOf src day ++ [fileOf id]) → st'.fs.file l = st.fs.file l) ∧
    (∀ l, st'.fs.dir l = true ↔ st.fs.dir l = true ∨ l = rawsOf src ∨ l = dayOf src day) ∧
    (∀ l, l ≠ src ++ [dbname] → st'.dbs l = st.dbs l) := by
  obtain ⟨fs', hf, hd, he⟩ := update_save net pkg day dbname src st (Ready.ne h) (Ready.at h _) h.room
  rw [he] at hok ⊢
  obtain ⟨k, hk, st1, h1, h2, h3, h4, h5, h6, h7⟩ := saveLoop_spec net (dayOf src day) urlDict { st with fs := fs', cwd := dayOf src day } rfl
    (by rw [hd]; simp) urlDict_nodup (ready_loop h.room hd)
  rcases h7 with ⟨rfl, hr, -⟩ | ⟨hlt, -, -, hr⟩
  · have hres : rest net pkg dbname { st with fs := fs', cwd := dayOf src day } = updateDB net pkg dbname st1 := by unfold rest; rw [hr]
    rw [hres]
    obtain ⟨u1, -, u3⟩ := updateDB_st net pkg dbname st1
    dsimp only
    rw [u1]
    refine ⟨?_, ?_, ?_, ?_⟩
    · intro id hid
      obtain ⟨i, hi, hg⟩ := List.getElem_of_mem ((C106_addresses.2.2.2.2 id (address id)).2 ⟨hid, rfl⟩)
      obtain ⟨t, ht, hft⟩ := h1 i hi hi
      rw [hg] at ht hft
      refine ⟨i, t, ?_, ht, hft⟩
      rw [← urlDict_snd, List.getElem?_map, List.getElem?_eq_getElem hi, hg]; rfl
    · intro l hl
      rw [h3 l (fun p hp => hl _ ((pageName_mem _).2 (List.mem_map_of_mem hp)))]
      exact congrFun hf l
    · intro l
      rw [h4]
      dsimp only
      rw [hd]
      simp [or_assoc]
    · intro l hl
      rw [u3 l, h6]
      rw [db_place _ _ _ hn, walk_absolute _ _ h.absolute, h.place]
      exact hl
  · unfold rest at hok
    rw [hr] at hok
    simp at hok

/-- Whatever becomes of the downloads, `updatej9DB(saveRawHTML = True)` leaves the process in the directory of the pages: a name given afterwards
stands for a file there, not for the one in the directory the caller was working in. -/
theorem C106_workdir_wrong (net : Net) (pkg day dbname : Str) (src : Loc) (st : St) (h : Ready st.fs pkg src day) :
    (update net pkg day dbname true st).1.cwd = dayOf src day ∧
    (st.cwd ≠ dayOf src day → ∀ x, Name x → walk (update net pkg day dbname true st).1.cwd x ≠ walk st.cwd x) := by
  have hc : (update net pkg day dbname true st).1.cwd = dayOf src day := by
    obtain ⟨fs', hf, hd, he⟩ := update_save net pkg day dbname src st (Ready.ne h) (Ready.at h _) h.room
    rw [he]
    obtain ⟨k, hk, st1, h1, h2, h3, h4, h5, h6, h7⟩ := saveLoop_spec net (dayOf src day) urlDict { st with fs := fs', cwd := dayOf src day } rfl
      (by rw [hd]; simp) urlDict_nodup (ready_loop h.room hd)
    unfold rest
    rcases h7 with ⟨rfl, hr, -⟩ | ⟨hlt, -, -, hr⟩
    · rw [hr]; exact (updateDB_st net pkg dbname st1).2.1.trans h5
    · rw [hr]; exact h5
  refine ⟨hc, fun hne x hx heq => ?_⟩
  rw [hc, walk_name _ _ hx, walk_name _ _ hx] at heq
  exact hne (List.append_cancel_right heq).symm

/-- Without `saveRawHTML` neither the working directory nor any file is touched, whatever happens, and no database but the named one; if the
package is known by an absolute path that one is beside the source, wherever the caller is working. -/
theorem C106_workdir_partial (net : Net) (pkg day dbname : Str) (st : St) (hn : Name dbname) (ha : pkg.head? = some '/') :
    let st' := (update net pkg day dbname false st).1
    st'.cwd = st.cwd ∧ st'.fs = st.fs ∧ ∀ l, l ≠ walk [] pkg ++ [dbname] → st'.dbs l = st.dbs l := by
  obtain ⟨h1, h2, h3⟩ := updateDB_st net pkg dbname st
  refine ⟨h2, h1, fun l hl => h3 l ?_⟩
  rw [db_place _ _ _ hn, walk_absolute _ _ ha]
  exact hl

/-- A download that fails on the way: the pages before it are saved, those after it are what they were, and the file of the page itself is empty,
even if it held that page from an earlier call of the day. The exception is `URLError`, and no database is touched. -/
theorem C106_interrupted (net : Net) (pkg day dbname : Str) (src : Loc) (st : St) (h : Ready st.fs pkg src day) (k : Nat) (hk : k < urls.length)
    (hbefore : ∀ i (hi : i < urls.length), i < k → (net (st.asked.length + i) urls[i]).isSome) (hfail : net (st.asked.length + k) urls[k] = none) :
    let r := update net pkg day dbname true st
    r.2 = some .url ∧ r.1.dbs = st.dbs ∧
    ∀ id i (hi : i < urls.length), PageName id → urls[i] = address id →
      r.1.fs.file (dayOf src day ++ [fileOf id]) =
        if i < k then net (st.asked.length + i) urls[i] else if i = k then some [] else st.fs.file (dayOf src day ++ [fileOf id]) := by
  obtain ⟨fs', hf, hd, he⟩ := update_save net pkg day dbname src st (Ready.ne h) (Ready.at h _) h.room
  have hlen : urlDict.length = urls.length := by decide +kernel
  have hsnd : ∀ i (h1 : i < urlDict.length) (h2 : i < urls.length), urlDict[i].2 = urls[i] := by
    intro i h1 h2
    have := congrArg (fun l => l[i]?) urlDict_snd
    simp only [List.getElem?_map, List.getElem?_eq_getElem h1, List.getElem?_eq_getElem h2, Option.map_some] at this
    exact Option.some.inj this
  have hfst : ∀ id i (h1 : i < urlDict.length) (h2 : i < urls.length), urls[i] = address id → urlDict[i].1 = id := by
    intro id i h1 h2 ha
    have e := ha.symm.trans ((hsnd i h1 h2).symm.trans (urlDict_pair _ (List.getElem_mem h1)))
    unfold address at e
    exact (List.append_cancel_left (List.append_cancel_right e)).symm
  obtain ⟨m, hm, st1, h1, h2, h3, h4, h5, h6, h7⟩ := saveLoop_spec net (dayOf src day) urlDict { st with fs := fs', cwd := dayOf src day } rfl
    (by rw [hd]; simp) urlDict_nodup (ready_loop h.room hd)
  have hmk : ∃ hlt : m < urlDict.length, m = k ∧ st1.fs.file (dayOf src day ++ [pageFile urlDict[m].1]) = some [] ∧
      saveLoop net urlDict { st with fs := fs', cwd := dayOf src day } = (st1, some .url) := by
    rcases h7 with ⟨rfl, -, -⟩ | ⟨hlt, hnone, hem, hr⟩
    · obtain ⟨t, ht, -⟩ := h1 k (by omega) (by omega)
      have ht' := (congrArg (net (st.asked.length + k)) (hsnd k (by omega) hk)).symm.trans ht
      rw [hfail] at ht'
      cases ht'
    · refine ⟨hlt, ?_, hem, hr⟩
      rcases Nat.lt_trichotomy m k with hlt' | rfl | hgt
      · have := hbefore m (by omega) hlt'
        have hn' := (congrArg (net (st.asked.length + m)) (hsnd m hlt (by omega))).symm.trans hnone
        rw [hn'] at this
        simp at this
      · rfl
      · obtain ⟨t, ht, -⟩ := h1 k (by omega) hgt
        have ht' := (congrArg (net (st.asked.length + k)) (hsnd k (by omega) hk)).symm.trans ht
        rw [hfail] at ht'
        cases ht'
  obtain ⟨hlt, rfl, hem, hr⟩ := hmk
  have hres : rest net pkg dbname { st with fs := fs', cwd := dayOf src day } = (st1, some .url) := by unfold rest; rw [hr]
  dsimp only
  rw [he, hres]
  refine ⟨rfl, h6, ?_⟩
  intro id i hi hid ha
  have hid1 := hfst id i (by omega) hi ha
  have e0 : dayOf src day ++ [fileOf id] = dayOf src day ++ [pageFile (urlDict[i]'(by omega)).1] :=
    congrArg (fun x => dayOf src day ++ [pageFile x]) hid1.symm
  rw [e0]
  split
  · rename_i hlt'
    obtain ⟨t, ht, hft⟩ := h1 i (by omega) hlt'
    have ht' := (congrArg (net (st.asked.length + i)) (hsnd i (by omega) hi)).symm.trans ht
    rw [ht']
    exact hft
  · split
    · rename_i hik; subst hik; exact hem
    · rw [h2 i (by omega) (by omega)]
      exact congrFun hf _

/-- What the named database beside the source has after an update that ends well, with the pages saved or not: what it had, and for every
abbreviation it did not have the names on the pages. The pages are those of a second round of requests if the first were saved. -/
theorem C106_database (net : Net) (pkg day dbname : Str) (src : Loc) (save : Bool) (st : St) (h : Ready st.fs pkg src day) (hn : Name dbname)
    (hok : (update net pkg day dbname save st).2 = none) :
    ∃ pages : List Str, pages.length = 27 ∧
      (∀ i (hi : i < urls.length), net ((st.asked.length + if save then 27 else 0) + i) urls[i] = pages[i]?) ∧
      ∃ db, (update net pkg day dbname save st).1.dbs (src ++ [dbname]) = some db ∧
        ∀ j, db.get? j = afterUpdate ((st.dbs (src ++ [dbname])).getD []) pages j := by
  have main : ∀ st1 : St, (updateDB net pkg dbname st1).2 = none → ∃ pages : List Str, pages.length = 27 ∧
      (∀ i (hi : i < urls.length), net (st1.asked.length + i) urls[i] = pages[i]?) ∧
      ∃ db, (updateDB net pkg dbname st1).1.dbs (src ++ [dbname]) = some db ∧
        ∀ j, db.get? j = afterUpdate ((st1.dbs (src ++ [dbname])).getD []) pages j := by
    intro st1 hok1
    obtain ⟨pages, j9, h1, h2, h3, h4⟩ := updateDB_ok net pkg dbname st1 hok1
    rw [db_place _ _ _ hn, walk_absolute _ _ h.absolute, h.place] at h4
    refine ⟨pages, h1.trans C106_addresses.2.2.1, h2, _, h4, fun j => ?_⟩
    rw [Verif.Props.JournalDB.get?_storeNew _ (Verif.Props.JournalDB.WF_getCurrent _ _ _ Dict.WF_nil h3)]
    unfold afterUpdate Verif.Spec.JournalDB.downloaded
    simp only [h3]
  cases save with
  | false =>
    have eu : update net pkg day dbname false st = updateDB net pkg dbname st := by simp [update]
    rw [eu] at hok ⊢
    simpa using main st hok
  | true =>
    obtain ⟨fs', hf, hd, he⟩ := update_save net pkg day dbname src st (Ready.ne h) (Ready.at h _) h.room
    rw [he] at hok ⊢
    obtain ⟨k, hk, st1, h1, h2, h3, h4, h5, h6, h7⟩ := saveLoop_spec net (dayOf src day) urlDict { st with fs := fs', cwd := dayOf src day } rfl
      (by rw [hd]; simp) urlDict_nodup (ready_loop h.room hd)
    rcases h7 with ⟨rfl, hr, hask⟩ | ⟨hlt, -, -, hr⟩
    · have hres : rest net pkg dbname { st with fs := fs', cwd := dayOf src day } = updateDB net pkg dbname st1 := by unfold rest; rw [hr]
      rw [hres] at hok ⊢
      obtain ⟨pages, p1, p2, p3⟩ := main st1 hok
      refine ⟨pages, p1, ?_, ?_⟩
      · intro i hi
        rw [← p2 i hi, hask]
        have : (urlDict.map Prod.snd).length = 27 := by decide +kernel
        simp only [List.length_append, this, if_true]
      · rw [h6] at p3; exact p3
    · unfold rest at hok
      rw [hr] at hok
      simp at hok

/-- When the server cannot be reached, at the first page or at a later one, the call raises `JournalDataBaseError`, one of the package's own exceptions
as documented, and the database has what it had (it is made if there was none). -/
theorem C106_unreachable (net : Net) (pkg day dbname : Str) (st : St) (hn : Name dbname) (ha : pkg.head? = some '/')
    (hd : st.fs.dir (walk [] pkg) = true) (pages : List Str) (j9 : Dict Str (List Str)) (hl : pages.length < urls.length)
    (hp : ∀ i (hi : i < urls.length), i < pages.length → net (st.asked.length + i) urls[i] = pages[i]?)
    (hg : getCurrent (pages.map (Str.split ['\n'])) [] = .ok j9) (hf : net (st.asked.length + pages.length) urls[pages.length] = none) :
    let r := update net pkg day dbname false st
    r.2 = some .journalDataBase ∧ r.1.dbs (walk [] pkg ++ [dbname]) = some ((st.dbs (walk [] pkg ++ [dbname])).getD []) := by
  have eu : update net pkg day dbname false st = updateDB net pkg dbname st := by simp [update]
  dsimp only
  rw [eu]
  obtain ⟨h1, h2⟩ := updateDB_err net pkg dbname st (walk [] pkg ++ [dbname]) (by rw [db_place _ _ _ hn, walk_absolute _ _ ha])
    (by simpa using hd) .url (fun st1 h1 => fetch_url net urls [] j9 st1 pages hl (by rw [h1]; exact hp) hg (by rw [h1]; exact hf))
  exact ⟨h1, h2⟩

/-- A page that comes but has no list in it, as after a change of the site, makes the call raise `IndexError`, which is none of the package's
exceptions; the database has what it had. -/
theorem C106_unreadable_wrong (net : Net) (pkg day dbname : Str) (st : St) (hn : Name dbname) (ha : pkg.head? = some '/')
    (hd : st.fs.dir (walk [] pkg) = true) (pages : List Str) (j9 : Dict Str (List Str)) (hl : pages.length < urls.length)
    (hp : ∀ i (hi : i < urls.length), i < pages.length → net (st.asked.length + i) urls[i] = pages[i]?)
    (hg : getCurrent (pages.map (Str.split ['\n'])) [] = .ok j9) (page : Str)
    (hf : net (st.asked.length + pages.length) urls[pages.length] = some page) (hpage : "<DL>".toList ∉ Str.split ['\n'] page) :
    let r := update net pkg day dbname false st
    r.2 = some .index ∧ r.1.dbs (walk [] pkg ++ [dbname]) = some ((st.dbs (walk [] pkg ++ [dbname])).getD []) := by
  have eu : update net pkg day dbname false st = updateDB net pkg dbname st := by simp [update]
  dsimp only
  rw [eu]
  obtain ⟨h1, h2⟩ := updateDB_err net pkg dbname st (walk [] pkg ++ [dbname]) (by rw [db_place _ _ _ hn, walk_absolute _ _ ha])
    (by simpa using hd) .index
    (fun st1 h1 => fetch_index net urls [] j9 st1 pages hl (by rw [h1]; exact hp) hg page (by rw [h1]; exact hf) hpage)
  exact ⟨h1, h2⟩

/-- A package known by a relative path: after the pages are saved the path is followed from their directory, and if it leads nowhere from there the
database beside the source is not updated: although every page came, the call raises `JournalDataBaseError` and changes no database. -/
theorem C106_relative_wrong (net : Net) (pkg day dbname : Str) (src : Loc) (st : St) (hpne : pkg ≠ []) (hsrc : walk st.cwd pkg = src)
    (h : Room st.fs src day) (hn : Name dbname) (hnet : ∀ n u, (net n u).isSome)
    (hd : st.fs.dir (walk (dayOf src day) pkg) = false) (hl : (walk (dayOf src day) pkg).length > (dayOf src day).length)
    (hdb : st.dbs (walk (dayOf src day) pkg ++ [dbname]) = none) :
    (update net pkg day dbname true st).2 = some .journalDataBase ∧ (update net pkg day dbname true st).1.dbs = st.dbs := by
  obtain ⟨fs', hf, hd', he⟩ := update_save net pkg day dbname src st hpne hsrc h
  rw [he]
  obtain ⟨k, hk, st1, h1, h2, h3, h4, h5, h6, h7⟩ := saveLoop_spec net (dayOf src day) urlDict { st with fs := fs', cwd := dayOf src day } rfl
    (by rw [hd']; simp) urlDict_nodup (ready_loop h hd')
  rcases h7 with ⟨rfl, hr, -⟩ | ⟨hlt, hnone, -, hr⟩
  · have hu : updateDB net pkg dbname st1 = (st1, some .journalDataBase) := by
      unfold updateDB
      dsimp only
      rw [db_place _ _ _ hn, h5]
      unfold dbOpen
      have hdir : fs'.dir (walk (dayOf src day) pkg) = false := by
        rw [hd', hd]
        have n1 : walk (dayOf src day) pkg ≠ dayOf src day := by
          intro hc; rw [hc] at hl; omega
        have n2 : walk (dayOf src day) pkg ≠ rawsOf src := by
          intro hc; rw [hc] at hl; simp [dayOf] at hl
        simp [n1, n2]
      rw [h6, List.dropLast_concat, h4]
      simp [hdb, hdir]
    have hres : rest net pkg dbname { st with fs := fs', cwd := dayOf src day } = (st1, some .journalDataBase) := by
      unfold rest; rw [hr]; exact hu
    rw [hres]
    exact ⟨rfl, h6⟩
  · have := hnet (List.length st.asked + k) urlDict[k].2
    dsimp only at hnone
    rw [hnone] at this
    simp at this

/-- `getj9dict` for the default name makes a missing database: if the next 27 requests give pages that can be read, it gives for every
abbreviation the names on the pages. -/
theorem C106_missing_default (net : Net) (pkg manualDB : Str) (st : St) (fuel : Nat) (hd : st.fs.dir (walk st.cwd pkg) = true)
    (he : (st.dbs (walk st.cwd pkg ++ [abrevDBname])).getD [] = [])
    (pages : List Str) (j9 : Dict Str (List Str)) (hl : pages.length = urls.length)
    (hp : ∀ i (hi : i < urls.length), net (st.asked.length + i) urls[i] = pages[i]?) (hg : getCurrent (pages.map (Str.split ['\n'])) [] = .ok j9) :
    ∃ st' d, getj9dict net pkg abrevDBname manualDB .wos (fuel + 2) st = some (st', .ok d) ∧
      ∀ j, d.get? j = (afterUpdate [] pages j).map Verif.Spec.JournalDB.namesIn := by
  have hn : Name abrevDBname := ⟨by decide, by decide⟩
  have hw := Verif.Props.JournalDB.WF_getCurrent _ _ _ Dict.WF_nil hg
  have hne : storeNew [] j9 ≠ [] := store_ne j9 hw (current_ne _ _ _ (Or.inr (by
    intro hc
    have h27 := C106_addresses.2.2.1
    have := congrArg List.length hc
    simp only [List.length_map, List.length_nil] at this
    omega)) hg)
  have hopen : ∃ st1 : St, dbOpen (walk st.cwd pkg ++ [abrevDBname]) st = some ([], st1) ∧ st1.fs = st.fs ∧ st1.cwd = st.cwd ∧ st1.asked = st.asked ∧
      st1.dbs (walk st.cwd pkg ++ [abrevDBname]) = some [] := by
    unfold dbOpen
    cases hdb : st.dbs (walk st.cwd pkg ++ [abrevDBname]) with
    | none =>
      rw [List.dropLast_concat]
      simp only [hd, if_true]
      exact ⟨_, rfl, rfl, rfl, rfl, by simp⟩
    | some db =>
      rw [hdb] at he
      simp only [Option.getD_some] at he
      subst he
      exact ⟨st, rfl, rfl, rfl, rfl, hdb⟩
  obtain ⟨st1, ho, h1, h2, h3, h4⟩ := hopen
  have hu := updateDB_of net pkg abrevDBname st1 (walk st.cwd pkg ++ [abrevDBname]) (by rw [h2, db_place _ _ _ hn])
    (by rw [h1, List.dropLast_concat]; exact hd) pages j9 hl (by rw [h3]; exact hp) hg
  refine ⟨(updateDB net pkg abrevDBname st1).1, loadInto [] (storeNew [] j9), ?_, ?_⟩
  rotate_left
  · intro j
    rw [Verif.Props.JournalDB.get?_loadInto _ (Verif.Props.JournalDB.WF_storeNew _ _ Dict.WF_nil), Verif.Props.JournalDB.get?_storeNew _ hw]
    unfold afterUpdate Verif.Spec.JournalDB.downloaded
    simp only [hg]
    simp [Dict.get?]
  · rw [getj9dict]
    simp only [Which.useWos, Which.useManual, if_true, db_place' _ _ _ hn, ho, List.length_nil, hu]
    rw [getj9dict]
    simp only [Which.useWos, Which.useManual, if_true, db_place' _ _ _ hn, h2, dbOpen, h4, Option.getD_some]
    rw [if_neg (by simpa using hne)]
    simp

/-- `getj9dict` for another name whose database is missing or empty never gives a result: it updates the database of the default name, finds the
named one as empty as before and starts again. -/
theorem C106_named_wrong (net : Net) (pkg dbname manualDB : Str) (which : Which) (hw : which ≠ .manual) (hn : Name dbname)
    (hne : dbname ≠ abrevDBname) (st : St) (he : (st.dbs (walk st.cwd pkg ++ [dbname])).getD [] = []) (fuel : Nat) (st' : St)
    (d : Dict Str (List Str)) : getj9dict net pkg dbname manualDB which fuel st ≠ some (st', .ok d) := by
  have hna : Name abrevDBname := ⟨by decide, by decide⟩
  have hu : which.useWos = true := by cases which <;> first | rfl | exact absurd rfl hw
  induction fuel generalizing st with
  | zero => simp [getj9dict]
  | succ fuel ih =>
    rw [getj9dict]
    simp only [hu, if_true, db_place' _ _ _ hn]
    cases ho : dbOpen (walk st.cwd pkg ++ [dbname]) st with
    | none => simp
    | some r =>
      obtain ⟨db, st1⟩ := r
      have hdb : db = [] ∧ st1.cwd = st.cwd ∧ (st1.dbs (walk st.cwd pkg ++ [dbname])).getD [] = [] := by
        unfold dbOpen at ho
        split at ho
        · rename_i x hx
          cases ho
          rw [hx] at he
          exact ⟨he, rfl, by rw [hx]; exact he⟩
        · split at ho
          · cases ho; exact ⟨rfl, rfl, by simp⟩
          · cases ho
      obtain ⟨rfl, hc, he1⟩ := hdb
      simp only [List.length_nil, if_true]
      obtain ⟨-, u2, u3⟩ := updateDB_st net pkg abrevDBname st1
      have hkeep := u3 (walk st.cwd pkg ++ [dbname]) (by
        rw [db_place _ _ _ hna, hc]
        intro h
        exact hne (List.cons.inj (List.append_cancel_left h)).1)
      generalize updateDB net pkg abrevDBname st1 = r at u2 hkeep
      obtain ⟨st2, e⟩ := r
      cases e with
      | some e => simp
      | none =>
        dsimp only at u2 hkeep ⊢
        refine ih st2 ?_
        rw [u2, hc, hkeep]
        exact he1

/-- And when every page always comes and can be read, it goes on for ever. -/
theorem C106_named_forever (net : Net) (pkg dbname manualDB : Str) (which : Which) (hw : which ≠ .manual) (hn : Name dbname)
    (hne : dbname ≠ abrevDBname) (page : Str) (d0 : Dict Str (List Str)) (hnet : ∀ n u, net n u = some page)
    (hpage : getDict (Str.split ['\n'] page) = .ok d0) (st : St) (hd : st.fs.dir (walk st.cwd pkg) = true)
    (he : (st.dbs (walk st.cwd pkg ++ [dbname])).getD [] = []) (fuel : Nat) : getj9dict net pkg dbname manualDB which fuel st = none := by
  have hna : Name abrevDBname := ⟨by decide, by decide⟩
  have hu : which.useWos = true := by cases which <;> first | rfl | exact absurd rfl hw
  obtain ⟨j9, hj9, -⟩ := Verif.Props.JournalPage.C60_pages ((List.replicate urls.length page).map (Str.split ['\n'])) (List.replicate urls.length d0)
    (by simp [hpage])
  induction fuel generalizing st with
  | zero => rfl
  | succ fuel ih =>
    rw [getj9dict]
    simp only [hu, if_true, db_place' _ _ _ hn]
    have hopen : ∃ st1 : St, dbOpen (walk st.cwd pkg ++ [dbname]) st = some ([], st1) ∧ st1.fs = st.fs ∧ st1.cwd = st.cwd ∧
        (st1.dbs (walk st.cwd pkg ++ [dbname])).getD [] = [] := by
      unfold dbOpen
      cases hdb : st.dbs (walk st.cwd pkg ++ [dbname]) with
      | none =>
        rw [List.dropLast_concat]
        simp only [hd, if_true]
        exact ⟨_, rfl, rfl, rfl, by simp⟩
      | some db =>
        rw [hdb] at he
        simp only [Option.getD_some] at he
        subst he
        exact ⟨st, rfl, rfl, rfl, by rw [hdb]; rfl⟩
    obtain ⟨st1, ho, h1, h2, h3⟩ := hopen
    rw [ho]
    simp only [List.length_nil, if_true]
    rw [updateDB_of net pkg abrevDBname st1 (walk st.cwd pkg ++ [abrevDBname]) (by rw [h2, db_place _ _ _ hna])
      (by rw [h1, List.dropLast_concat]; exact hd) (List.replicate urls.length page) j9 (by simp)
      (fun i hi => by rw [hnet, List.getElem?_replicate, if_pos hi]) hj9]
    dsimp only
    refine ih _ ?_ ?_
    · dsimp only; rw [h1, h2]; exact hd
    · dsimp only
      rw [h2, if_neg]
      · exact h3
      · intro h
        exact hne (List.cons.inj (List.append_cancel_left h)).1

/-- `getj9dict` for databases that are there, of any names: no request is sent, nothing is changed, and an abbreviation has the names of the manual
database, else those of the other, as far as the choice of databases goes. -/
theorem C106_lookup (net : Net) (pkg dbname manualDB : Str) (which : Which) (hn : Name dbname) (hm : Name manualDB) (st : St)
    (wos man : Dict Str Str) (hw : st.dbs (walk st.cwd pkg ++ [dbname]) = some wos) (hwm : (st.dbs (walk st.cwd pkg ++ [manualDB])).getD [] = man)
    (h1 : which ≠ .manual → wos ≠ []) (h2 : which = .manual → (st.dbs (walk st.cwd pkg ++ [manualDB])).isSome = true)
    (hwf : Dict.WF wos ∧ Dict.WF man) (fuel : Nat) :
    ∃ d, getj9dict net pkg dbname manualDB which (fuel + 1) st = some (st, .ok d) ∧ ∀ j, d.get? j =
      (match which with
        | .both => (man.get? j).or (wos.get? j)
        | .wos => wos.get? j
        | .manual => man.get? j).map Verif.Spec.JournalDB.namesIn := by
  have hg := Verif.Props.JournalDB.get?_loadInto
  cases which with
  | wos =>
    refine ⟨loadInto [] wos, ?_, fun j => by rw [hg _ hwf.1]; simp [Dict.get?]⟩
    rw [getj9dict]
    simp only [Which.useWos, Which.useManual, if_true, db_place' _ _ _ hn, dbOpen, hw]
    rw [if_neg (by simpa using h1 (by simp))]
    simp
  | manual =>
    refine ⟨loadInto [] man, ?_, fun j => by rw [hg _ hwf.2]; simp [Dict.get?]⟩
    obtain ⟨m, hmm⟩ := Option.isSome_iff_exists.1 (h2 rfl)
    rw [hmm] at hwm
    simp only [Option.getD_some] at hwm
    subst hwm
    rw [getj9dict]
    simp only [db_place' _ _ _ hm]
    simp [Which.useWos, Which.useManual, hmm]
  | both =>
    have hone : getj9dict net pkg dbname manualDB .both (fuel + 1) st = some (st, .ok (loadInto (loadInto [] wos) man)) := by
      rw [getj9dict]
      simp only [Which.useWos, Which.useManual, if_true, db_place' _ _ _ hn, db_place' _ _ _ hm, dbOpen, hw]
      rw [if_neg (by simpa using h1 (by simp))]
      cases hmm : st.dbs (walk st.cwd pkg ++ [manualDB]) with
      | none =>
        rw [hmm] at hwm
        simp only [Option.getD_none] at hwm
        subst hwm
        simp [loadInto]
      | some m =>
        rw [hmm] at hwm
        simp only [Option.getD_some] at hwm
        subst hwm
        rfl
    refine ⟨_, hone, fun j => ?_⟩
    rw [hg _ hwf.2, hg _ hwf.1]
    cases man.get? j <;> cases wos.get? j <;> simp [Dict.get?]

/-- A missing manual database that alone is asked for is made too, of any name, from the pages; no other database is touched. -/
theorem C106_missing_manual (net : Net) (pkg dbname manualDB : Str) (hm : Name manualDB) (st : St) (fuel : Nat)
    (hd : st.fs.dir (walk st.cwd pkg) = true) (he : st.dbs (walk st.cwd pkg ++ [manualDB]) = none)
    (pages : List Str) (j9 : Dict Str (List Str)) (hl : pages.length = urls.length)
    (hp : ∀ i (hi : i < urls.length), net (st.asked.length + i) urls[i] = pages[i]?) (hg : getCurrent (pages.map (Str.split ['\n'])) [] = .ok j9) :
    ∃ st' d, getj9dict net pkg dbname manualDB .manual (fuel + 2) st = some (st', .ok d) ∧
      (∀ j, d.get? j = (afterUpdate [] pages j).map Verif.Spec.JournalDB.namesIn) ∧
      ∀ l, l ≠ walk st.cwd pkg ++ [manualDB] → st'.dbs l = st.dbs l := by
  have hw := Verif.Props.JournalDB.WF_getCurrent _ _ _ Dict.WF_nil hg
  have hu := updateDB_of net pkg manualDB st (walk st.cwd pkg ++ [manualDB]) (by rw [db_place _ _ _ hm])
    (by rw [List.dropLast_concat]; exact hd) pages j9 hl hp hg
  refine ⟨(updateDB net pkg manualDB st).1, loadInto [] (storeNew [] j9), ?_, ?_, ?_⟩
  · rw [getj9dict]
    simp only [Which.useWos, Which.useManual, if_true, db_place' _ _ _ hm, he, hu]
    rw [getj9dict]
    simp only [db_place' _ _ _ hm]
    simp [Which.useWos, Which.useManual, he]
  · intro j
    rw [Verif.Props.JournalDB.get?_loadInto _ (Verif.Props.JournalDB.WF_storeNew _ _ Dict.WF_nil), Verif.Props.JournalDB.get?_storeNew _ hw]
    unfold afterUpdate Verif.Spec.JournalDB.downloaded
    simp only [hg]
    simp [Dict.get?]
  · intro l hl
    rw [hu]
    simp [hl]

/-! ## The hypotheses can be met -/

/-- A small page. -/
def onePage : Str := "<HTML>\n<DL>\n<A NAME=\"A\"></A><DT>ACTA ONE\n<B><DD>\tACTA\n</B></DL>".toList

example : (getDict (Str.split ['\n'] onePage)).toOption = some [("ACTA".toList, ["ACTA ONE".toList])] := by decide +kernel

/-- A package in `/lib/mk`, a caller in `/home`, no database yet. -/
def start : St :=
  { fs := { file := fun l => if l = ["home".toList, "mine".toList] then some "x".toList else none,
            dir := fun l => l = [] ∨ l = ["lib".toList] ∨ l = ["lib".toList, "mk".toList] ∨ l = ["home".toList] },
    cwd := ["home".toList], dbs := fun _ => none, asked := [] }

theorem start_ready : Ready start.fs "/lib/mk".toList ["lib".toList, "mk".toList] "2026-11-16".toList := by
  refine ⟨rfl, by decide +kernel, by decide +kernel, by decide, by decide +kernel, by decide +kernel, ?_⟩
  intro id hid
  simp only [start, dayOf, rawsOf, decide_eq_false_iff_not]
  intro hc
  rcases hc with hc | hc | hc | hc <;> (have := congrArg List.length hc; simp at this)

example : Name "j9Abbreviations".toList := ⟨by decide, by decide⟩

set_option maxRecDepth 20000 in
/-- The call ends well, the page is saved, the database is made, and the process is elsewhere. -/
example :
    let r := update (fun _ _ => some onePage) "/lib/mk".toList "2026-11-16".toList abrevDBname true start
    r.2 = none ∧ r.1.fs.file ["lib".toList, "mk".toList, "j9Raws".toList, "2026-11-16_J9_AbbreviationDocs".toList, "Q_abrvjt.html".toList] = some onePage ∧
    r.1.dbs ["lib".toList, "mk".toList, abrevDBname] = some [("ACTA".toList, "ACTA ONE".toList)] ∧
    r.1.cwd = ["lib".toList, "mk".toList, "j9Raws".toList, "2026-11-16_J9_AbbreviationDocs".toList] := by decide +kernel

theorem start_room : Room start.fs ["lib".toList, "mk".toList] "2026-11-16".toList := start_ready.room

/-- The same with a caller in `/lib` and the path `mk` of the package. -/
example :
    let st := { start with cwd := ["lib".toList] }
    let D := dayOf ["lib".toList, "mk".toList] "2026-11-16".toList
    walk st.cwd "mk".toList = ["lib".toList, "mk".toList] ∧ st.fs.dir (walk D "mk".toList) = false ∧ (walk D "mk".toList).length > D.length ∧
    st.dbs (walk D "mk".toList ++ [abrevDBname]) = none := by decide +kernel

/-- An empty database of another name. -/
example : Name "mine".toList ∧ "mine".toList ≠ abrevDBname ∧ start.fs.dir (walk start.cwd "/lib/mk".toList) = true ∧
    (start.dbs (walk start.cwd "/lib/mk".toList ++ ["mine".toList])).getD [] = [] :=
  ⟨⟨by decide, by decide⟩, by decide, by decide +kernel, rfl⟩

/-- Both databases are there. -/
example :
    let st := { start with dbs := fun l =>
      if l = ["lib".toList, "mk".toList, abrevDBname] then some [("A".toList, "ACTA".toList)]
      else if l = ["lib".toList, "mk".toList, manualDBname] then some [("A".toList, "ALPHA|AKTA".toList)] else none }
    st.dbs (walk st.cwd "/lib/mk".toList ++ [abrevDBname]) = some [("A".toList, "ACTA".toList)] ∧
    ((getj9dict (fun _ _ => none) "/lib/mk".toList abrevDBname manualDBname .both 1 st).map (fun r => r.2.toOption)) =
      some (some [("A".toList, ["ALPHA".toList, "AKTA".toList])]) := by decide +kernel

end Verif.Props.J9Files
