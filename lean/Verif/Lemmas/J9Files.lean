import Verif.Spec.J9Files
import Verif.Lemmas.Paths
import Verif.Props.JournalPage

set_option autoImplicit false
set_option linter.unusedSimpArgs false
namespace Verif.Lemmas.J9Files
open Verif.Py Verif.Spec.Paths Verif.Spec.J9Files Verif.Model.J9Files
open Verif.Model.JournalDB (getDict getCurrent storeNew loadInto Which)

theorem walk_slash (cwd : Loc) (p : Str) (h : p ≠ []) : walk cwd (p ++ ['/']) = walk cwd p := by
  unfold walk
  rw [Verif.Lemmas.Paths.head_append p _ h, Verif.Lemmas.Paths.split_append, Verif.Lemmas.Paths.split_nil, List.foldl_append]
  simp [walkStep]

theorem walk_child (cwd : Loc) (p x : Str) (h : p ≠ []) (hx : Name x) : walk cwd (p ++ ['/'] ++ x) = walk cwd p ++ [x] := by
  rw [Verif.Lemmas.Paths.walk_inDir (dir := p ++ ['/']) (x := x) ⟨rfl, Or.inr ⟨p, rfl⟩, hx.noSlash, hx.name⟩, walk_slash _ _ h]

theorem walk_name (cwd : Loc) (x : Str) (hx : Name x) : walk cwd x = cwd ++ [x] := by
  rw [Verif.Lemmas.Paths.walk_inDir (path := x) (dir := []) (x := x) ⟨rfl, Or.inl rfl, hx.noSlash, hx.name⟩]
  simp [walk, Verif.Lemmas.Paths.split_nil, walkStep]

theorem walk_absolute (cwd : Loc) (p : Str) (h : p.head? = some '/') : walk cwd p = walk [] p := by
  unfold walk; rw [if_pos h, if_pos h]

theorem normpath_ne (p : Str) : Path.normpath p ≠ [] := by
  unfold Path.normpath
  dsimp only
  split
  · simp
  · assumption

theorem join_child (cwd : Loc) (p x : Str) (hx : Name x) (hp : p ≠ []) : walk cwd (Path.join p x) = walk cwd p ++ [x] := by
  unfold Path.join
  have h1 : x.head? ≠ some '/' := by
    intro hc
    have := hx.noSlash
    cases x with
    | nil => simp at hc
    | cons y x => simp at hc; subst hc; simp at this
  rw [if_neg h1]
  split
  · rename_i h
    rcases h with h | h
    · exact absurd h hp
    · have : p = p.dropLast ++ ['/'] := by
        have := List.dropLast_append_getLast? '/' (by simpa using h)
        exact this.symm
      exact Verif.Lemmas.Paths.walk_inDir (dir := p) (x := x) ⟨rfl, Or.inr ⟨p.dropLast, this⟩, hx.noSlash, hx.name⟩
  · rw [show p ++ '/' :: x = p ++ ['/'] ++ x from by simp]
    exact walk_child cwd p x hp hx

/-- The place of a database. -/
theorem db_place (cwd : Loc) (pkg x : Str) (hx : Name x) : walk cwd (Path.join (Path.normpath pkg) x) = walk cwd pkg ++ [x] := by
  rw [join_child _ _ _ hx (normpath_ne _), Verif.Lemmas.Paths.walk_normpath]

theorem db_place' (cwd : Loc) (pkg x : Str) (hx : Name x) : walk cwd (Path.normpath pkg ++ ['/'] ++ x) = walk cwd pkg ++ [x] := by
  rw [walk_child _ _ _ (normpath_ne _) hx, Verif.Lemmas.Paths.walk_normpath]

/-! ## The pages -/

theorem pageName_mem (id : Str) : PageName id ↔ id ∈ urlDict.map Prod.fst := by
  have hl : ∀ c : Char, ('A' ≤ c ∧ c ≤ 'Z') ↔ c ∈ upper := by
    intro c
    constructor
    · rintro ⟨h1, h2⟩
      have h1' : 65 ≤ c.toNat := h1
      have h2' : c.toNat ≤ 90 := h2
      have : c = Char.ofNat c.toNat := (Char.ofNat_toNat c).symm
      rw [this]
      generalize c.toNat = n at h1' h2'
      have hall : ∀ n, n < 91 → 65 ≤ n → Char.ofNat n ∈ upper := by decide
      exact hall n (by omega) h1'
    · intro h
      have : ∀ c ∈ upper, 'A' ≤ c ∧ c ≤ 'Z' := by decide
      exact this c h
  unfold PageName urlDict
  simp only [List.map_cons, List.map_map, List.mem_cons, List.mem_map, Function.comp]
  constructor
  · rintro (h | ⟨c, h1, h2, h3⟩)
    · exact Or.inl h
    · exact Or.inr ⟨c, (hl c).1 ⟨h1, h2⟩, h3.symm⟩
  · rintro (h | ⟨c, h1, h3⟩)
    · exact Or.inl h
    · exact Or.inr ⟨c, ((hl c).2 h1).1, ((hl c).2 h1).2, h3.symm⟩

theorem urlDict_snd : urlDict.map Prod.snd = urls := by decide +kernel
theorem urlDict_pair : ∀ p ∈ urlDict, p.2 = address p.1 := by decide +kernel
theorem urlDict_nodup : (urlDict.map Prod.fst).Nodup := by decide +kernel
theorem urlDict_noSlash : ∀ p ∈ urlDict, '/' ∉ p.1 := by decide +kernel

theorem page_name {id : Str} (h : PageName id) : Name (pageFile id) := by
  have h1 := (pageName_mem id).1 h
  have : ∀ id ∈ urlDict.map Prod.fst, '/' ∉ pageFile id ∧ pageFile id ≠ [] ∧ pageFile id ≠ ['.'] ∧ pageFile id ≠ ['.', '.'] := by decide +kernel
  exact ⟨(this id h1).1, (this id h1).2⟩

theorem pageFile_inj {a b : Str} (h : pageFile a = pageFile b) : a = b := by
  unfold pageFile at h; exact List.append_cancel_right h

/-- What the loop over the pages does: the pages before the first that fails are saved, that one is emptied, the others are left alone. -/
theorem saveLoop_spec (net : Net) (D : Loc) (items : List (Str × Str)) (st : St) (hcwd : st.cwd = D) (hD : st.fs.dir D = true)
    (hn : (items.map Prod.fst).Nodup) (hp : ∀ p ∈ items, Name (pageFile p.1) ∧ st.fs.dir (D ++ [pageFile p.1]) = false) :
    ∃ k ≤ items.length, ∃ st', (∀ i (h : i < items.length), i < k → ∃ t, net (st.asked.length + i) items[i].2 = some t ∧
        st'.fs.file (D ++ [pageFile items[i].1]) = some t) ∧
      (∀ i (h : i < items.length), k < i → st'.fs.file (D ++ [pageFile items[i].1]) = st.fs.file (D ++ [pageFile items[i].1])) ∧
      (∀ l, (∀ p ∈ items, l ≠ D ++ [pageFile p.1]) → st'.fs.file l = st.fs.file l) ∧
      st'.fs.dir = st.fs.dir ∧ st'.cwd = D ∧ st'.dbs = st.dbs ∧
      ((k = items.length ∧ saveLoop net items st = (st', none) ∧ st'.asked = st.asked ++ items.map Prod.snd) ∨
       (∃ h : k < items.length, net (st.asked.length + k) items[k].2 = none ∧ st'.fs.file (D ++ [pageFile items[k].1]) = some [] ∧
         saveLoop net items st = (st', some .url))) := by
  induction items generalizing st with
  | nil =>
    exact ⟨0, Nat.le_refl _, st, fun i h => absurd h (by simp), fun i h => absurd h (by simp), fun l _ => rfl, rfl, hcwd, rfl,
      Or.inl ⟨rfl, rfl, by simp⟩⟩
  | cons p items ih =>
    obtain ⟨id, url⟩ := p
    have hl : walk st.cwd (pageFile id) = D ++ [pageFile id] := by
      rw [walk_name _ _ (hp _ (List.mem_cons_self ..)).1, hcwd]
    have hnd : st.fs.dir (D ++ [pageFile id]) = false := (hp _ (List.mem_cons_self ..)).2
    have hgo : ¬(st.fs.dir (D ++ [pageFile id]) = true ∨ st.fs.dir (D ++ [pageFile id]).dropLast = false) := by
      rw [hnd]; simp [hD]
    simp only [List.map_cons, List.nodup_cons] at hn
    cases hnet : net st.asked.length url with
    | none =>
      refine ⟨0, Nat.zero_le _, { st with fs := write st.fs (D ++ [pageFile id]) [], asked := st.asked ++ [url] }, fun i _ h => absurd h (by omega),
        ?_, ?_, rfl, hcwd, rfl, Or.inr ⟨by simp, ?_, ?_, ?_⟩⟩
      · intro i h hi
        obtain ⟨i, rfl⟩ : ∃ j, i = j + 1 := ⟨i - 1, by omega⟩
        simp only [List.getElem_cons_succ, write]
        rw [if_neg]
        intro hc
        have hc := pageFile_inj (List.cons.inj (List.append_cancel_left hc)).1
        exact hn.1 (by rw [← hc]; exact List.mem_map_of_mem (List.getElem_mem _))
      · intro l h
        simp only [write]
        rw [if_neg (h _ (List.mem_cons_self ..))]
      · simpa using hnet
      · simp [write]
      · rw [saveLoop]; rw [hl, if_neg hgo, hnet]
    | some page =>
      have hs : saveLoop net ((id, url) :: items) st =
          saveLoop net items { st with fs := write (write st.fs (D ++ [pageFile id]) []) (D ++ [pageFile id]) page, asked := st.asked ++ [url] } := by
        rw [saveLoop]; rw [hl, if_neg hgo, hnet]
      obtain ⟨k, hk, st', h1, h2, h3, h4, h5, h6, h7⟩ := ih
        { st with fs := write (write st.fs (D ++ [pageFile id]) []) (D ++ [pageFile id]) page, asked := st.asked ++ [url] } hcwd hD hn.2
        (fun q hq => hp q (List.mem_cons_of_mem _ hq))
      have hfirst : ∀ q ∈ items, D ++ [pageFile id] ≠ D ++ [pageFile q.1] := by
        intro q hq hc
        have hc := pageFile_inj (List.cons.inj (List.append_cancel_left hc)).1
        exact hn.1 (by rw [hc]; exact List.mem_map_of_mem hq)
      have hlen : (st.asked ++ [url]).length = st.asked.length + 1 := by simp
      refine ⟨k + 1, by simpa using hk, st', ?_, ?_, ?_, h4, h5, h6, ?_⟩
      · intro i h hi
        cases i with
        | zero =>
          refine ⟨page, by simpa using hnet, ?_⟩
          simp only [List.getElem_cons_zero]
          rw [h3 _ hfirst]
          simp [write]
        | succ i =>
          obtain ⟨t, ht, hf⟩ := h1 i (by simpa using h) (by omega)
          refine ⟨t, ?_, by simpa using hf⟩
          rw [hlen] at ht
          rw [← ht]
          simp only [List.getElem_cons_succ]
          congr 1; omega
      · intro i h hi
        obtain ⟨i, rfl⟩ : ∃ j, i = j + 1 := ⟨i - 1, by omega⟩
        simp only [List.getElem_cons_succ]
        rw [h2 i (by simpa using h) (by omega)]
        simp only [write]
        have hne := hfirst (items[i]'(by simpa using h)) (List.getElem_mem _)
        rw [if_neg (Ne.symm hne), if_neg (Ne.symm hne)]
      · intro l h
        rw [h3 l (fun q hq => h q (List.mem_cons_of_mem _ hq))]
        simp only [write]
        rw [if_neg (h _ (List.mem_cons_self ..)), if_neg (h _ (List.mem_cons_self ..))]
      · rcases h7 with ⟨e, hr, ha⟩ | ⟨hlt, hnone, he, hr⟩
        · exact Or.inl ⟨by simp [e], by rw [hs, hr], by rw [ha]; simp⟩
        · refine Or.inr ⟨by simpa using hlt, ?_, by simpa using he, by rw [hs, hr]⟩
          rw [hlen] at hnone
          rw [← hnone]
          simp only [List.getElem_cons_succ]
          congr 1; omega

/-! ## The downloads -/

theorem fetch_st (net : Net) (us : List Str) (d : Dict Str (List Str)) (st : St) :
    (fetch net us d st).1.fs = st.fs ∧ (fetch net us d st).1.cwd = st.cwd ∧ (fetch net us d st).1.dbs = st.dbs := by
  induction us generalizing d st with
  | nil => exact ⟨rfl, rfl, rfl⟩
  | cons u us ih =>
    rw [fetch]
    split
    · exact ⟨rfl, rfl, rfl⟩
    · split
      · exact ⟨rfl, rfl, rfl⟩
      · split
        · exact ⟨rfl, rfl, rfl⟩
        · exact ih _ _

/-- All pages come and can be read. -/
theorem fetch_ok (net : Net) (us : List Str) (d j9 : Dict Str (List Str)) (st : St) (h : (fetch net us d st).2 = .ok j9) :
    ∃ pages : List Str, pages.length = us.length ∧ (∀ i (hi : i < us.length), net (st.asked.length + i) us[i] = pages[i]?) ∧
      getCurrent (pages.map (Str.split ['\n'])) d = .ok j9 := by
  induction us generalizing d st with
  | nil => exact ⟨[], rfl, fun i hi => absurd hi (by simp), by simpa [fetch, getCurrent] using h⟩
  | cons u us ih =>
    rw [fetch] at h
    cases hn : net st.asked.length u with
    | none => rw [hn] at h; simp at h
    | some page =>
      rw [hn] at h
      dsimp only at h
      cases hg : getDict (Str.split ['\n'] page) with
      | error e => rw [hg] at h; simp at h
      | ok e =>
        rw [hg] at h
        dsimp only at h
        split at h
        · simp at h
        · rename_i hne
          obtain ⟨pages, h1, h2, h3⟩ := ih _ _ h
          refine ⟨page :: pages, by simp [h1], ?_, ?_⟩
          · intro i hi
            cases i with
            | zero => simpa using hn
            | succ i =>
              have := h2 i (by simpa using hi)
              simp only [List.length_append, List.length_singleton] at this
              rw [List.getElem?_cons_succ, ← this]
              simp only [List.getElem_cons_succ]
              congr 1; omega
          · rw [List.map_cons, getCurrent, hg]
            dsimp only
            rw [if_neg hne, h3]

/-- Conversely, if all pages come, the reading of them decides. -/
theorem fetch_of (net : Net) (us : List Str) (d j9 : Dict Str (List Str)) (st : St) (pages : List Str) (hl : pages.length = us.length)
    (hp : ∀ i (hi : i < us.length), net (st.asked.length + i) us[i] = pages[i]?) (hg : getCurrent (pages.map (Str.split ['\n'])) d = .ok j9) :
    fetch net us d st = ({ st with asked := st.asked ++ us }, .ok j9) := by
  induction us generalizing d st pages with
  | nil =>
    obtain rfl : pages = [] := by simpa using hl
    simp only [List.map_nil, getCurrent] at hg
    cases hg
    simp [fetch]
  | cons u us ih =>
    cases pages with
    | nil => simp at hl
    | cons page pages =>
      have h0 := hp 0 (by simp)
      simp only [Nat.add_zero, List.getElem_cons_zero, List.getElem?_cons_zero] at h0
      rw [List.map_cons, getCurrent] at hg
      rw [fetch]
      rw [h0]
      dsimp only
      cases he : getDict (Str.split ['\n'] page) with
      | error e => rw [he] at hg; simp at hg
      | ok e =>
        rw [he] at hg
        dsimp only at hg ⊢
        split at hg
        · simp at hg
        · rename_i hne
          rw [if_neg hne]
          rw [ih (d.update e) { st with asked := st.asked ++ [u] } pages (by simpa using hl) ?_ hg]
          · simp
          · intro i hi
            have := hp (i + 1) (by simpa using hi)
            simp only [List.getElem_cons_succ, List.getElem?_cons_succ] at this
            rw [← this]
            simp only [List.length_append, List.length_singleton]
            congr 1; omega

theorem updateDB_st (net : Net) (pkg dbname : Str) (st : St) :
    (updateDB net pkg dbname st).1.fs = st.fs ∧ (updateDB net pkg dbname st).1.cwd = st.cwd ∧
      ∀ l, l ≠ walk st.cwd (Path.join (Path.normpath pkg) dbname) → (updateDB net pkg dbname st).1.dbs l = st.dbs l := by
  unfold updateDB
  dsimp only
  generalize walk st.cwd (Path.join (Path.normpath pkg) dbname) = L
  cases ho : dbOpen L st with
  | none => exact ⟨rfl, rfl, fun _ _ => rfl⟩
  | some r =>
    obtain ⟨db, st1⟩ := r
    have h1 : st1.fs = st.fs ∧ st1.cwd = st.cwd ∧ ∀ l, l ≠ L → st1.dbs l = st.dbs l := by
      unfold dbOpen at ho
      split at ho
      · cases ho; exact ⟨rfl, rfl, fun _ _ => rfl⟩
      · split at ho
        · cases ho; exact ⟨rfl, rfl, fun l hl => if_neg hl⟩
        · cases ho
    have h2 := fetch_st net urls [] st1
    dsimp only
    generalize fetch net urls [] st1 = r at h2
    obtain ⟨st2, e⟩ := r
    dsimp only at h2
    have h3 : st2.fs = st.fs ∧ st2.cwd = st.cwd ∧ ∀ l, l ≠ L → st2.dbs l = st.dbs l :=
      ⟨h2.1.trans h1.1, h2.2.1.trans h1.2.1, fun l hl => by rw [h2.2.2]; exact h1.2.2 l hl⟩
    cases e with
    | error e => cases e <;> exact h3
    | ok j9 => exact ⟨h3.1, h3.2.1, fun l hl => by simp only [dbPut]; rw [if_neg hl]; exact h3.2.2 l hl⟩

/-- What comes behind the making of the directories. -/
def rest (net : Net) (pkg dbname : Str) (st : St) : St × Option Err :=
  match saveLoop net urlDict st with
  | (st2, some e) => (st2, some e)
  | (st2, none) => updateDB net pkg dbname st2

/-- The directories are made and the working directory is changed. -/
theorem update_save (net : Net) (pkg day dbname : Str) (src : Loc) (st : St) (hpne : pkg ≠ []) (hsrc : walk st.cwd pkg = src) (h : Room st.fs src day) :
    ∃ fs' : FS, fs'.file = st.fs.file ∧
      (∀ l, fs'.dir l = (st.fs.dir l || decide (l = rawsOf src) || decide (l = dayOf src day))) ∧
      update net pkg day dbname true st = rest net pkg dbname { st with fs := fs', cwd := dayOf src day } := by
  obtain ⟨hthere, hdate, hraws, hday, hpages⟩ := h
  have hR : walk st.cwd (pkg ++ "/j9Raws".toList) = rawsOf src := by
    rw [show pkg ++ "/j9Raws".toList = pkg ++ ['/'] ++ "j9Raws".toList from by simp,
      walk_child _ _ _ hpne ⟨by decide, by decide⟩, hsrc]
    rfl
  have hdn : Name (day ++ "_J9_AbbreviationDocs".toList) := by
    refine ⟨?_, ?_, ?_, ?_⟩
    · rw [List.mem_append]; rintro (hc | hc)
      · exact hdate hc
      · exact absurd hc (by decide)
    all_goals
      intro hc
      have := congrArg List.length hc
      simp at this
  have hD : ∀ cwd, cwd = st.cwd → walk cwd (Path.normpath (pkg ++ "/j9Raws".toList ++ ['/'] ++ (day ++ "_J9_AbbreviationDocs".toList))) = dayOf src day := by
    rintro _ rfl
    rw [Verif.Lemmas.Paths.walk_normpath, walk_child _ _ _ (by simp) hdn, hR]
    rfl
  have hRl : (rawsOf src).dropLast = src := by simp [rawsOf]
  have hDl : (dayOf src day).dropLast = rawsOf src := by simp [dayOf]
  have hne : dayOf src day ≠ rawsOf src := by
    intro hc; have := congrArg List.length hc; simp [dayOf] at this
  -- the directory `j9Raws`
  have step1 : ∃ fs1 : FS, fs1.file = st.fs.file ∧ (∀ l, fs1.dir l = (st.fs.dir l || decide (l = rawsOf src))) ∧
      (if isdir st (pkg ++ "/j9Raws".toList) then (st, none) else mkdir (pkg ++ "/j9Raws".toList) st) = ({ st with fs := fs1 }, none) := by
    by_cases hd : st.fs.dir (rawsOf src) = true
    · refine ⟨st.fs, rfl, ?_, ?_⟩
      · intro l
        by_cases hl : l = rawsOf src
        · subst hl; simp [hd]
        · simp [hl]
      · unfold isdir; rw [hR, if_pos hd]
    · refine ⟨addDir st.fs (rawsOf src), rfl, ?_, ?_⟩
      · intro l
        by_cases hl : l = rawsOf src
        · subst hl; simp [addDir]
        · simp [addDir, hl]
      · unfold isdir mkdir
        rw [hR, if_neg hd]
        dsimp only
        rw [if_neg]
        rw [hraws, hRl, hthere]
        simpa using hd
  obtain ⟨fs1, hf1, hd1, he1⟩ := step1
  have hR1 : fs1.dir (rawsOf src) = true := by rw [hd1]; simp
  have fin : ∀ (fs2 : FS), fs2.dir (dayOf src day) = true → chdir (Path.normpath (pkg ++ "/j9Raws".toList ++ ['/'] ++ (day ++ "_J9_AbbreviationDocs".toList)))
      { st with fs := fs2 } = ({ st with fs := fs2, cwd := dayOf src day }, none) := by
    intro fs2 h2
    unfold chdir isdir
    dsimp only
    rw [hD st.cwd rfl, if_pos h2]
  have step2 : ∃ fs2 : FS, fs2.file = st.fs.file ∧ (∀ l, fs2.dir l = (st.fs.dir l || decide (l = rawsOf src) || decide (l = dayOf src day))) ∧
      saveCurrent net day (pkg ++ "/j9Raws".toList) { st with fs := fs1 } = saveLoop net urlDict { st with fs := fs2, cwd := dayOf src day } := by
    by_cases hd : fs1.dir (dayOf src day) = true
    · refine ⟨fs1, hf1, ?_, ?_⟩
      · intro l
        rw [← hd1]
        by_cases hl : l = dayOf src day
        · subst hl; simp [hd]
        · simp [hl]
      · unfold saveCurrent
        dsimp only
        rw [if_pos (by unfold isdir; dsimp only; rw [hD st.cwd rfl]; exact hd), fin fs1 hd]
    · refine ⟨addDir fs1 (dayOf src day), hf1, ?_, ?_⟩
      · intro l
        rw [← hd1]
        by_cases hl : l = dayOf src day
        · subst hl; simp [addDir]
        · simp [addDir, hl]
      · unfold saveCurrent
        dsimp only
        rw [if_neg (by unfold isdir; dsimp only; rw [hD st.cwd rfl]; exact hd)]
        have hm : mkdir (Path.normpath (pkg ++ "/j9Raws".toList ++ ['/'] ++ (day ++ "_J9_AbbreviationDocs".toList))) { st with fs := fs1 } =
            ({ st with fs := addDir fs1 (dayOf src day) }, none) := by
          unfold mkdir
          dsimp only
          rw [hD st.cwd rfl, if_neg]
          rw [hf1, hday, hDl, hR1]
          simpa using hd
        rw [hm]
        dsimp only
        rw [fin _ (by simp [addDir])]
  obtain ⟨fs2, hf2, hd2, he2⟩ := step2
  refine ⟨fs2, hf2, hd2, ?_⟩
  unfold update rest
  rw [if_pos rfl]
  dsimp only
  rw [he1]
  dsimp only
  rw [he2]
  generalize saveLoop net urlDict { st with fs := fs2, cwd := dayOf src day } = r
  obtain ⟨_, _ | _⟩ := r <;> rfl

theorem Ready.ne {fs : FS} {pkg day : Str} {src : Loc} (h : Ready fs pkg src day) : pkg ≠ [] := by
  rintro rfl; have := h.absolute; simp at this

theorem Ready.at {fs : FS} {pkg day : Str} {src : Loc} (h : Ready fs pkg src day) (cwd : Loc) : walk cwd pkg = src := by
  rw [walk_absolute _ _ h.absolute, h.place]

/-- The state the saving of the pages starts from is good for it. -/
theorem ready_loop {st : St} {day : Str} {src : Loc} (h : Room st.fs src day) {fs' : FS}
    (hd : ∀ l, fs'.dir l = (st.fs.dir l || decide (l = rawsOf src) || decide (l = dayOf src day))) :
    ∀ p ∈ urlDict, Name (pageFile p.1) ∧ fs'.dir (dayOf src day ++ [pageFile p.1]) = false := by
  intro p hp
  have hn : PageName p.1 := (pageName_mem _).2 (List.mem_map_of_mem hp)
  refine ⟨page_name hn, ?_⟩
  have h1 : dayOf src day ++ [pageFile p.1] ≠ rawsOf src := by
    intro hc; have := congrArg List.length hc; simp [dayOf] at this
  have h2 : dayOf src day ++ [pageFile p.1] ≠ dayOf src day := by
    intro hc; have := congrArg List.length hc; simp at this
  rw [hd, show pageFile p.1 = fileOf p.1 from rfl, h.pages _ hn]
  rw [show pageFile p.1 = fileOf p.1 from rfl] at h1 h2
  simp [h1, h2]

/-- The update of a database that can be opened, with all pages. -/
theorem updateDB_ok (net : Net) (pkg dbname : Str) (st : St) (h : (updateDB net pkg dbname st).2 = none) :
    ∃ pages : List Str, ∃ j9, pages.length = urls.length ∧ (∀ i (hi : i < urls.length), net (st.asked.length + i) urls[i] = pages[i]?) ∧
      getCurrent (pages.map (Str.split ['\n'])) [] = .ok j9 ∧
      (updateDB net pkg dbname st).1.dbs (walk st.cwd (Path.join (Path.normpath pkg) dbname)) =
        some (storeNew ((st.dbs (walk st.cwd (Path.join (Path.normpath pkg) dbname))).getD []) j9) := by
  unfold updateDB at h ⊢
  dsimp only at h ⊢
  generalize walk st.cwd (Path.join (Path.normpath pkg) dbname) = L at h ⊢
  cases ho : dbOpen L st with
  | none => rw [ho] at h; simp at h
  | some r =>
    obtain ⟨db, st1⟩ := r
    have h1 : db = (st.dbs L).getD [] ∧ st1.asked = st.asked := by
      unfold dbOpen at ho
      split at ho
      · rename_i hs; cases ho; rw [hs]; exact ⟨rfl, rfl⟩
      · rename_i hs
        split at ho
        · cases ho; rw [hs]; exact ⟨rfl, rfl⟩
        · cases ho
    rw [ho] at h
    dsimp only at h ⊢
    cases hf : fetch net urls [] st1 with
    | mk st2 e =>
      rw [hf] at h
      cases e with
      | error e => cases e <;> simp at h
      | ok j9 =>
        obtain ⟨pages, h2, h3, h4⟩ := fetch_ok net urls [] j9 st1 (by rw [hf])
        refine ⟨pages, j9, h2, fun i hi => by rw [← h1.2]; exact h3 i hi, h4, ?_⟩
        simp [dbPut, h1.1]

/-- The first pages come and can be read: what is left is the reading of the others. -/
theorem fetch_prefix (net : Net) (us : List Str) (d j9 : Dict Str (List Str)) (st : St) (pages : List Str) (hl : pages.length ≤ us.length)
    (hp : ∀ i (hi : i < us.length), i < pages.length → net (st.asked.length + i) us[i] = pages[i]?)
    (hg : getCurrent (pages.map (Str.split ['\n'])) d = .ok j9) :
    fetch net us d st = fetch net (us.drop pages.length) j9 { st with asked := st.asked ++ us.take pages.length } := by
  induction us generalizing d st pages with
  | nil =>
    obtain rfl : pages = [] := by simpa using hl
    simp only [List.map_nil, getCurrent] at hg
    cases hg
    simp
  | cons u us ih =>
    cases pages with
    | nil =>
      simp only [List.map_nil, getCurrent] at hg
      cases hg
      simp
    | cons page pages =>
      have h0 := hp 0 (by simp) (by simp)
      simp only [Nat.add_zero, List.getElem_cons_zero, List.getElem?_cons_zero] at h0
      rw [List.map_cons, getCurrent] at hg
      rw [fetch]
      rw [h0]
      dsimp only
      cases he : getDict (Str.split ['\n'] page) with
      | error e => rw [he] at hg; simp at hg
      | ok e =>
        rw [he] at hg
        dsimp only at hg ⊢
        split at hg
        · simp at hg
        · rename_i hne
          rw [if_neg hne]
          rw [ih (d.update e) { st with asked := st.asked ++ [u] } pages (by simpa using hl) ?_ hg]
          · simp
          · intro i hi hi2
            have := hp (i + 1) (by simpa using hi) (by simpa using hi2)
            simp only [List.getElem_cons_succ, List.getElem?_cons_succ] at this
            rw [← this]
            simp only [List.length_append, List.length_singleton]
            congr 1; omega

theorem drop_cons {α : Type} (l : List α) (n : Nat) (h : n < l.length) : l.drop n = l[n] :: l.drop (n + 1) := by
  rw [List.drop_eq_getElem_cons h]

/-- The next page does not come. -/
theorem fetch_url (net : Net) (us : List Str) (d j9 : Dict Str (List Str)) (st : St) (pages : List Str) (hl : pages.length < us.length)
    (hp : ∀ i (hi : i < us.length), i < pages.length → net (st.asked.length + i) us[i] = pages[i]?)
    (hg : getCurrent (pages.map (Str.split ['\n'])) d = .ok j9) (hf : net (st.asked.length + pages.length) us[pages.length] = none) :
    (fetch net us d st).2 = .error .url := by
  rw [fetch_prefix net us d j9 st pages (by omega) hp hg, drop_cons _ _ hl, fetch]
  have : (st.asked ++ List.take pages.length us).length = st.asked.length + pages.length := by
    rw [List.length_append, List.length_take]; omega
  dsimp only
  rw [this, hf]

/-- The next page comes and has no list in it. -/
theorem fetch_index (net : Net) (us : List Str) (d j9 : Dict Str (List Str)) (st : St) (pages : List Str) (hl : pages.length < us.length)
    (hp : ∀ i (hi : i < us.length), i < pages.length → net (st.asked.length + i) us[i] = pages[i]?)
    (hg : getCurrent (pages.map (Str.split ['\n'])) d = .ok j9) (page : Str) (hf : net (st.asked.length + pages.length) us[pages.length] = some page)
    (hpage : "<DL>".toList ∉ Str.split ['\n'] page) :
    (fetch net us d st).2 = .error .index := by
  rw [fetch_prefix net us d j9 st pages (by omega) hp hg, drop_cons _ _ hl, fetch]
  have : (st.asked ++ List.take pages.length us).length = st.asked.length + pages.length := by
    rw [List.length_append, List.length_take]; omega
  dsimp only
  rw [this, hf]
  dsimp only
  have hgd : getDict (Str.split ['\n'] page) = .error .indexError := by
    unfold getDict
    rw [← List.append_nil (Str.split ['\n'] page), List.dropWhile_append_of_pos]
    · rfl
    · intro x hx
      simp only [ne_eq, decide_not, Bool.not_eq_true', decide_eq_false_iff_not]
      rintro rfl; exact hpage hx
  rw [hgd]

theorem set_ne {κ ν : Type} [DecidableEq κ] (d : Dict κ ν) (k : κ) (v : ν) : Dict.set d k v ≠ [] := by
  intro hc
  have := Dict.get?_set_self d k v
  rw [hc] at this; cases this

theorem update_ne {κ ν : Type} [DecidableEq κ] (e d : Dict κ ν) (h : d ≠ []) : Dict.update d e ≠ [] := by
  induction e generalizing d with
  | nil => exact h
  | cons kv e ih => rw [Dict.update_cons]; exact ih _ (set_ne _ _ _)

theorem current_ne (pages : List (List Str)) (d e : Dict Str (List Str)) (h : d ≠ [] ∨ pages ≠ []) (he : getCurrent pages d = .ok e) : e ≠ [] := by
  induction pages generalizing d with
  | nil => cases he; simpa using h
  | cons p ps ih =>
    unfold getCurrent at he
    split at he
    · cases he
    · rename_i x hx
      split at he
      · cases he
      · rename_i hl
        refine ih _ (Or.inl ?_) he
        cases x with
        | nil => simp at hl
        | cons kv x => rw [Dict.update_cons]; exact update_ne _ _ (set_ne _ _ _)

theorem store_ne (j : Dict Str (List Str)) (hj : Dict.WF j) (hn : j ≠ []) : storeNew [] j ≠ [] := by
  intro hc
  cases j with
  | nil => exact hn rfl
  | cons kv r =>
    have := Verif.Props.JournalDB.get?_storeNew (kv :: r) hj [] kv.1
    rw [hc, Dict.get?] at this
    simp [Dict.get?] at this

/-- The update of a database in a directory that is there, when all pages come and can be read. -/
theorem updateDB_of (net : Net) (pkg dbname : Str) (st : St) (L : Loc) (hL : walk st.cwd (Path.join (Path.normpath pkg) dbname) = L)
    (hd : st.fs.dir L.dropLast = true) (pages : List Str) (j9 : Dict Str (List Str)) (hl : pages.length = urls.length)
    (hp : ∀ i (hi : i < urls.length), net (st.asked.length + i) urls[i] = pages[i]?) (hg : getCurrent (pages.map (Str.split ['\n'])) [] = .ok j9) :
    updateDB net pkg dbname st = ({ st with
      dbs := fun m => if m = L then some (storeNew ((st.dbs L).getD []) j9) else st.dbs m, asked := st.asked ++ urls }, none) := by
  unfold updateDB
  dsimp only
  rw [hL]
  unfold dbOpen
  cases hdb : st.dbs L with
  | some db =>
    dsimp only
    rw [fetch_of net urls [] j9 st pages hl hp hg]
    simp only [dbPut, Option.getD_some]
  | none =>
    simp only [hd, if_true]
    rw [fetch_of net urls [] j9 { st with dbs := fun m => if m = L then some [] else st.dbs m } pages hl hp hg]
    simp only [dbPut, Option.getD_none]
    congr 2
    funext m
    split <;> rfl

/-- The update of a database in a directory that is there, when the reading of the pages fails. -/
theorem updateDB_err (net : Net) (pkg dbname : Str) (st : St) (L : Loc) (hL : walk st.cwd (Path.join (Path.normpath pkg) dbname) = L)
    (hd : st.fs.dir L.dropLast = true) (e : Err) (hf : ∀ st1 : St, st1.asked = st.asked → (fetch net urls [] st1).2 = .error e) :
    (updateDB net pkg dbname st).2 = some (if e = .url then .journalDataBase else e) ∧
    (updateDB net pkg dbname st).1.dbs L = some ((st.dbs L).getD []) := by
  unfold updateDB
  dsimp only
  rw [hL]
  unfold dbOpen
  have fin : ∀ (db : Dict Str Str) (st1 : St), st1.asked = st.asked → st1.dbs L = some ((st.dbs L).getD []) →
      (match fetch net urls [] st1 with
        | (st2, .error .url) => (st2, some Err.journalDataBase)
        | (st2, .error e) => (st2, some e)
        | (st2, .ok j9) => (dbPut L (storeNew db j9) st2, none)).2 = some (if e = .url then .journalDataBase else e) ∧
      (match fetch net urls [] st1 with
        | (st2, .error .url) => (st2, some Err.journalDataBase)
        | (st2, .error e) => (st2, some e)
        | (st2, .ok j9) => (dbPut L (storeNew db j9) st2, none)).1.dbs L = some ((st.dbs L).getD []) := by
    intro db st1 ha hdb
    have h1 := hf st1 ha
    have h2 := (fetch_st net urls [] st1).2.2
    generalize fetch net urls [] st1 = r at h1 h2
    obtain ⟨st2, x⟩ := r
    dsimp only at h1 h2
    subst h1
    rw [← h2] at hdb
    cases e <;> exact ⟨rfl, hdb⟩
  cases hdb : st.dbs L with
  | some db => have := fin db st rfl (by rw [hdb]; rfl); rw [hdb] at this; exact this
  | none =>
    simp only [hd, if_true]
    have := fin [] { st with dbs := fun m => if m = L then some [] else st.dbs m } rfl (by simp [hdb])
    rw [hdb] at this
    exact this

end Verif.Lemmas.J9Files
