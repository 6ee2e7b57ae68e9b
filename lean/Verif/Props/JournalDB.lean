import Verif.Spec.JournalDB
import Mathlib.Tactic.Linarith

/-!
# C44: journal databases
-/
set_option autoImplicit false
set_option linter.unusedSimpArgs false
namespace Verif.Props.JournalDB
open Verif.Py Verif.Model.JournalDB Verif.Spec.JournalDB

/-! ## Lemmas -/

theorem get?_loadInto (db : Dict Str Str) (hw : Dict.WF db) (ret : Dict Str (List Str)) (j : Str) :
    (loadInto ret db).get? j = ((db.get? j).map namesIn).or (ret.get? j) := by
  induction db generalizing ret with
  | nil => simp [loadInto]
  | cons kv rest ih =>
    obtain ⟨k, v⟩ := kv
    unfold Dict.WF Dict.keys at hw
    simp only [List.map_cons, List.nodup_cons] at hw
    rw [loadInto, ih hw.2, Dict.get?_set, Dict.get?]
    by_cases h : k = j
    · subst h
      have : Dict.get? rest k = none := (Dict.get?_eq_none_iff _ _).2 hw.1
      simp [this, namesIn]
    · simp [h]

theorem WF_loadInto (db : Dict Str Str) (ret : Dict Str (List Str)) (h : Dict.WF ret) : Dict.WF (loadInto ret db) := by
  induction db generalizing ret with
  | nil => exact h
  | cons kv rest ih => exact ih _ (Dict.WF_set h _ _)

theorem writeAll_spec (kvs : List (PyV × PyV)) (db : Dict Str Str) :
    (writeAll db kvs).1 = (stringPairs kvs).foldl (fun d kv => d.set kv.1 kv.2) db := by
  induction kvs generalizing db with
  | nil => rfl
  | cons kv rest ih =>
    obtain ⟨k, v⟩ := kv
    cases k <;> cases v <;> simp [writeAll, stringPairs, ih]

theorem get?_foldl_set (l : List (Str × Str)) (db : Dict Str Str) (j : Str) :
    Dict.get? (l.foldl (fun d kv => d.set kv.1 kv.2) db) j = ((l.reverse.find? (fun kv => kv.1 = j)).map Prod.snd).or (db.get? j) := by
  induction l generalizing db with
  | nil => simp
  | cons kv l ih =>
    rw [List.foldl_cons, ih, Dict.get?_set]
    simp only [List.reverse_cons, List.find?_append]
    cases hf : List.find? (fun kv => decide (kv.1 = j)) l.reverse with
    | some x => simp
    | none =>
      by_cases h : kv.1 = j
      · simp [h]
      · simp [h]

theorem WF_foldl_set (l : List (Str × Str)) (db : Dict Str Str) (h : Dict.WF db) :
    Dict.WF (l.foldl (fun d kv => d.set kv.1 kv.2) db) := by
  induction l generalizing db with
  | nil => exact h
  | cons kv l ih => exact ih _ (Dict.WF_set h _ _)

theorem stringPairs_map (l : List PyV) : stringPairs (l.map (fun k => (k, PyV.str []))) = (strings l).map (fun k => (k, [])) := by
  induction l with
  | nil => rfl
  | cons a l ih => cases a <;> simp [stringPairs, strings, ih]

theorem find_const (l : List Str) (j : Str) :
    ((l.map (fun k => (k, ([] : Str)))).reverse.find? (fun kv => kv.1 = j)).map Prod.snd = if j ∈ l then some [] else none := by
  rw [← List.map_reverse]
  by_cases h : j ∈ l
  · rw [if_pos h]
    cases hf : List.find? (fun kv : Str × Str => decide (kv.1 = j)) (l.reverse.map (fun k => (k, ([] : Str)))) with
    | none =>
      rw [List.find?_eq_none] at hf
      exact absurd (hf (j, []) (by simpa using h)) (by simp)
    | some x =>
      have := List.mem_of_find?_eq_some hf
      simp only [List.mem_map, List.mem_reverse] at this
      obtain ⟨a, _, rfl⟩ := this
      rfl
  · rw [if_neg h]
    have : List.find? (fun kv : Str × Str => decide (kv.1 = j)) (l.reverse.map (fun k => (k, ([] : Str)))) = none := by
      rw [List.find?_eq_none]
      rintro ⟨a, b⟩ hm
      simp only [List.mem_map, List.mem_reverse, Prod.mk.injEq] at hm
      obtain ⟨c, hc, rfl, _⟩ := hm
      simp only [decide_eq_true_eq]
      rintro rfl
      exact h hc
    rw [this]; rfl

theorem manual_step (s : DBs) (o : Op) (j : Str) :
    Dict.get? ((step s o).manual.getD []) j = (written j o).or (Dict.get? (s.manual.getD []) j) := by
  cases o with
  | update web => simp [step, written]
  | add a =>
    cases a with
    | str a =>
      simp only [step, addToDB, written, Option.getD_some, Dict.get?_set]
      by_cases h : a = j
      · subst h; simp
      · simp [h]
    | dict kvs => simp only [step, addToDB, written, Option.getD_some, writeAll_spec, get?_foldl_set]
    | list l => simp [step, addToDB, written]
    | none => simp [step, addToDB, written]
    | other => simp [step, addToDB, written]
  | exclude a =>
    cases a with
    | str a =>
      simp only [step, excludeFromDB, written, Option.getD_some, Dict.get?_set]
      by_cases h : a = j
      · subst h; simp
      · simp [h]
    | list l =>
      simp only [step, excludeFromDB, written, Option.getD_some, writeAll_spec, get?_foldl_set, stringPairs_map, find_const]
    | dict kvs => simp [step, excludeFromDB, written]
    | none => simp [step, excludeFromDB, written]
    | other => simp [step, excludeFromDB, written]

theorem manual_run (h : List Op) (s : DBs) (j : Str) :
    Dict.get? ((run h s).manual.getD []) j = manualEntry s h j := by
  induction h generalizing s with
  | nil => simp [run, manualEntry, lastWritten]
  | cons o h ih =>
    rw [run, List.foldl_cons, ← run, ih]
    unfold manualEntry lastWritten
    rw [manual_step, List.reverse_cons, List.findSome?_append]
    simp only [List.findSome?_cons, List.findSome?_nil]
    cases List.findSome? (written j) h.reverse <;> cases written j o <;> simp

theorem WF_addName {d : Dict Str (List Str)} (h : Dict.WF d) (t n : Str) : Dict.WF (addName d t n) := by
  unfold addName; split <;> exact Dict.WF_set h _ _

theorem WF_getDictLoop (lines : List Str) (n t : Str) (d : Dict Str (List Str)) (h : Dict.WF d) : Dict.WF (getDictLoop n t d lines) := by
  fun_induction getDictLoop n t d lines with
  | case1 _ _ _ _ _ _ _ _ _ _ ih => exact ih (WF_addName h _ _)
  | case2 => exact WF_addName h _ _
  | case3 => exact WF_addName h _ _

theorem WF_getCurrent (pages : List (List Str)) (d e : Dict Str (List Str)) (h : Dict.WF d) (he : getCurrent pages d = .ok e) : Dict.WF e := by
  induction pages generalizing d with
  | nil => cases he; exact h
  | cons p ps ih =>
    unfold getCurrent at he
    split at he
    · cases he
    · split at he
      · cases he
      · exact ih _ (Dict.WF_update h _) he

theorem get?_storeNew (d : Dict Str (List Str)) (hd : Dict.WF d) (db : Dict Str Str) (j : Str) :
    (storeNew db d).get? j = (db.get? j).or ((d.get? j).map (Str.join ['|'])) := by
  induction d generalizing db with
  | nil => simp [storeNew]
  | cons kv rest ih =>
    obtain ⟨k, v⟩ := kv
    unfold Dict.WF Dict.keys at hd
    simp only [List.map_cons, List.nodup_cons] at hd
    have hn : Dict.get? rest k = none := (Dict.get?_eq_none_iff _ _).2 hd.1
    unfold storeNew Dict.has
    by_cases h : k = j
    · subst h
      split
      · rename_i hs
        obtain ⟨w, hw⟩ := Option.isSome_iff_exists.1 hs
        rw [ih hd.2, hw]; rfl
      · rename_i hs
        have : db.get? k = none := by simpa using hs
        rw [ih hd.2, this, hn, Dict.get?_set_self, Dict.get?]; simp
    · split
      · rw [ih hd.2, Dict.get?]; simp [h]
      · rw [ih hd.2, Dict.get?_set_ne _ _ h, Dict.get?]; simp [h]

theorem WF_storeNew (d : Dict Str (List Str)) (db : Dict Str Str) (h : Dict.WF db) : Dict.WF (storeNew db d) := by
  induction d generalizing db with
  | nil => exact h
  | cons kv rest ih =>
    obtain ⟨k, v⟩ := kv
    unfold storeNew
    split
    · exact ih _ h
    · exact ih _ (Dict.WF_set h _ _)

theorem wos_step (s : DBs) (o : Op) (j : Str) : Dict.get? (step s o).wos j = (s.wos.get? j).or (downloaded j o) := by
  cases o with
  | add a => simp [step, downloaded]
  | exclude a => simp [step, downloaded]
  | update web =>
    cases web with
    | none => simp [step, downloaded, updatej9]
    | some pages =>
      simp only [step, downloaded, updatej9]
      cases hc : getCurrent pages [] with
      | error e => simp
      | ok d => simp only; rw [get?_storeNew d (WF_getCurrent _ _ _ Dict.WF_nil hc)]

theorem wos_run (h : List Op) (s : DBs) (j : Str) : Dict.get? (run h s).wos j = wosEntry s h j := by
  induction h generalizing s with
  | nil => simp [run, wosEntry]
  | cons o h ih =>
    rw [run, List.foldl_cons, ← run, ih]
    unfold wosEntry
    rw [wos_step, List.findSome?_cons]
    cases s.wos.get? j <;> cases downloaded j o <;> simp

theorem valid_step (s : DBs) (o : Op) (h : Valid s) : Valid (step s o) := by
  obtain ⟨hw, hm⟩ := h
  cases o with
  | add a =>
    refine ⟨hw, ?_⟩
    cases a with
    | str a => exact Dict.WF_set hm _ _
    | dict kvs => simp only [step, addToDB, Option.getD_some, writeAll_spec]; exact WF_foldl_set _ _ hm
    | list l => exact hm
    | none => exact hm
    | other => exact hm
  | exclude a =>
    refine ⟨hw, ?_⟩
    cases a with
    | str a => exact Dict.WF_set hm _ _
    | list l => simp only [step, excludeFromDB, Option.getD_some, writeAll_spec]; exact WF_foldl_set _ _ hm
    | dict kvs => exact hm
    | none => exact hm
    | other => exact hm
  | update web =>
    refine ⟨?_, hm⟩
    cases web with
    | none => exact hw
    | some pages =>
      simp only [step, updatej9]
      split
      · exact hw
      · exact WF_storeNew _ _ hw

theorem valid_run (h : List Op) (s : DBs) (hs : Valid s) : Valid (run h s) := by
  induction h generalizing s with
  | nil => exact hs
  | cons o h ih => exact ih _ (valid_step _ _ hs)

theorem wos_ne (h : List Op) (s : DBs) (hs : s.wos ≠ []) : (run h s).wos ≠ [] := by
  cases hw : s.wos with
  | nil => exact absurd hw hs
  | cons kv rest =>
    intro hn
    have := wos_run h s kv.1
    rw [hn, wosEntry, hw] at this
    simp [Dict.get?] at this

theorem getj9_ok (web : Option (List (List Str))) (which : Which) (fuel : Nat) (s : DBs)
    (h1 : which.useWos = true → s.wos ≠ []) (h2 : which = .manual → s.manual.isSome = true) :
    getj9 web which (fuel + 1) s =
      (.ok (if which.useManual then loadInto (if which.useWos then loadInto [] s.wos else []) (s.manual.getD [])
        else (if which.useWos then loadInto [] s.wos else [])), s) := by
  have hl : (which.useWos && s.wos.length == 0) = false := by
    cases hu : which.useWos
    · rfl
    · have := h1 hu
      cases hw : s.wos with
      | nil => exact absurd hw this
      | cons a l => rfl
  rw [getj9.eq_def]
  simp only [hl, Bool.false_eq_true, if_false]
  cases hu : which.useManual
  · simp
  · simp only [if_true]
    cases hm : s.manual with
    | some m => simp
    | none =>
      have : which ≠ .manual := by
        intro hc; have := h2 hc; rw [hm] at this; cases this
      simp [this, loadInto]

/-! ## C44 -/

/-- **C44**. After any history of `addToDB`, `excludeFromDB` and `updatej9DB` calls, failed ones included, `getj9dict` gives for
each abbreviation the names last written for it in the manual database, else those of the manual database before, else those of the WOS
database before, else those of the first download that has it; `'WOS'` and `'manual'` restrict this to one database. -/
theorem C44_lookup (web : Option (List (List Str))) (which : Which) (fuel : Nat) (s : DBs) (hs : Valid s) (h : List Op)
    (h1 : which ≠ .manual → s.wos ≠ []) (h2 : which = .manual → (run h s).manual.isSome = true) :
    ∃ d, getj9 web which (fuel + 1) (run h s) = (.ok d, run h s) ∧ ∀ j, d.get? j = (entry which s h j).map namesIn := by
  have hv := valid_run h s hs
  rw [getj9_ok web which fuel _ (fun hu => wos_ne h s (h1 (by rintro rfl; cases hu))) h2]
  refine ⟨_, rfl, fun j => ?_⟩
  cases which with
  | both =>
    simp only [Which.useManual, Which.useWos, if_true, entry]
    rw [get?_loadInto _ hv.2, get?_loadInto _ hv.1, manual_run, wos_run]
    cases manualEntry s h j <;> cases wosEntry s h j <;> simp
  | wos =>
    simp only [Which.useManual, Which.useWos, if_true, Bool.false_eq_true, if_false, entry]
    rw [get?_loadInto _ hv.1, wos_run]; simp
  | manual =>
    simp only [Which.useManual, Which.useWos, if_true, Bool.false_eq_true, if_false, entry]
    rw [get?_loadInto _ hv.2, manual_run]; simp

/-- Reading a history backwards: writes after the last one that concern other abbreviations do not matter. -/
theorem lastWritten_append (j : Str) (h1 h2 : List Op) (o : Op) (v : Str) (ho : written j o = some v) (h : ∀ p ∈ h2, written j p = none) :
    lastWritten j (h1 ++ o :: h2) = some v := by
  unfold lastWritten
  rw [List.reverse_append, List.reverse_cons, List.append_assoc, List.findSome?_append]
  have : List.findSome? (written j) h2.reverse = none := by
    rw [List.findSome?_eq_none_iff]; intro p hp; exact h p (List.mem_reverse.1 hp)
  rw [this]; simp [ho]

/-- **C44**, adding. Names added for an abbreviation are the ones looked up, whatever happened before and whatever was done to other abbreviations
since. -/
theorem C44_added (web : Option (List (List Str))) (fuel : Nat) (s : DBs) (hs : Valid s) (hw : s.wos ≠ []) (h1 h2 : List Op) (j : Str)
    (names : List Str) (hn : names ≠ []) (hp : ∀ n ∈ names, '|' ∉ n) (h : ∀ p ∈ h2, written j p = none) :
    ∃ d, (getj9 web .both (fuel + 1) (run (h1 ++ .add (.dict [(.str j, .str (Str.join ['|'] names))]) :: h2) s)).1 = .ok d ∧ d.get? j = some names := by
  obtain ⟨d, hd, hg⟩ := C44_lookup web .both fuel s hs (h1 ++ .add (.dict [(.str j, .str (Str.join ['|'] names))]) :: h2) (fun _ => hw)
    (by intro hc; cases hc)
  refine ⟨d, by rw [hd], ?_⟩
  rw [hg, entry, manualEntry, lastWritten_append j h1 h2 _ (Str.join ['|'] names) (by simp [written, stringPairs]) h]
  simp [namesIn, Str.split_join_char _ _ hn hp]

/-- **C44**, adding an abbreviation alone makes it its own name. -/
theorem C44_added_alone (web : Option (List (List Str))) (fuel : Nat) (s : DBs) (hs : Valid s) (hw : s.wos ≠ []) (h1 h2 : List Op) (j : Str)
    (hp : '|' ∉ j) (h : ∀ p ∈ h2, written j p = none) :
    ∃ d, (getj9 web .both (fuel + 1) (run (h1 ++ .add (.str j) :: h2) s)).1 = .ok d ∧ d.get? j = some [j] := by
  obtain ⟨d, hd, hg⟩ := C44_lookup web .both fuel s hs (h1 ++ .add (.str j) :: h2) (fun _ => hw) (by intro hc; cases hc)
  refine ⟨d, by rw [hd], ?_⟩
  rw [hg, entry, manualEntry, lastWritten_append j h1 h2 _ j (by simp [written]) h]
  simp only [Option.some_or, Option.map_some, namesIn]
  rw [show j = Str.join ['|'] [j] from rfl, Str.split_join_char _ _ (by simp) (by simpa using hp)]
  rfl

theorem get?_mapVal {α β : Type} (f : α → β) (d : Dict Str α) (j : Str) : Dict.get? (d.map (fun kv => (kv.1, f kv.2))) j = (Dict.get? d j).map f := by
  induction d with
  | nil => rfl
  | cons kv d ih =>
    simp only [List.map_cons, Dict.get?]
    split
    · rfl
    · exact ih

theorem ensure_fresh (web : Option (List (List Str))) (s : DBs) (hs : Valid s) (h : List Op) (hw : s.wos ≠ []) :
    ∃ d : Dict Str Names, ensure web ⟨run h s, none⟩ = (.ok d, ⟨run h s, some d⟩) ∧ ∀ j, d.get? j = ((entry .both s h j).map namesIn).map Names.list := by
  obtain ⟨d, hd, hg⟩ := C44_lookup web .both 1 s hs h (fun _ => hw) (by intro hc; cases hc)
  refine ⟨d.map (fun kv => (kv.1, Names.list kv.2)), ?_, fun j => ?_⟩
  · unfold ensure; simp only [hd]
  · rw [get?_mapVal, hg]

theorem first_names (e : Str) : (Names.list (namesIn e)).first = .ok ((namesIn e).headD []) := by
  cases h : namesIn e with
  | nil => exact absurd h (Str.split_ne_nil _ _)
  | cons a l => rfl

/-- **C44**, asking. In a session that has not loaded the abbreviations yet, `isJournal()` and `FullJournalName()` give the first name of the entry the user should see
and `isJournal(checkIfExcluded = True)` says whether that entry has an empty first name. -/
theorem C44_isJournal_partial (web : Option (List (List Str))) (s : DBs) (hs : Valid s) (h : List Op) (hw : s.wos ≠ []) (j : Str) (hj : j ≠ []) :
    (isJournal web (some (some j)) ⟨run h s, none⟩).1 = .ok (reported (entry .both s h j)) ∧
    (fullName web (some (some j)) ⟨run h s, none⟩).1 = .ok (reported (entry .both s h j)) ∧
    (isJournalExcluded web (some (some j)) ⟨run h s, none⟩).1 =
      .ok (decide (∃ e, entry .both s h j = some e ∧ (namesIn e).headD [] = [])) := by
  obtain ⟨d, hd, hg⟩ := ensure_fresh web s hs h hw
  unfold isJournal fullName isJournalExcluded
  rw [hd]
  simp only [journalName, isExcluded, firstName, if_neg hj, hg]
  cases he : entry .both s h j with
  | none => simp [reported]
  | some e =>
    simp only [Option.map_some, first_names, reported]
    by_cases h0 : (namesIn e).headD [] = []
    · simp only [if_pos h0, true_and]
      simpa using h0
    · simp only [if_neg h0, Except.map, true_and]
      simpa using h0

/-- **C44**, excluding. An excluded abbreviation is no journal and is reported as excluded, whatever happened before and whatever was done to others since. -/
theorem C44_excluded_partial (web : Option (List (List Str))) (s : DBs) (hs : Valid s) (hw : s.wos ≠ []) (h1 h2 : List Op) (j : Str) (hj : j ≠ [])
    (o : Op) (ho : o = .exclude (.str j) ∨ (∃ l, o = .exclude (.list l) ∧ j ∈ strings l) ∨ o = .add (.dict [(.str j, .str [])]))
    (h : ∀ p ∈ h2, written j p = none) :
    (isJournal web (some (some j)) ⟨run (h1 ++ o :: h2) s, none⟩).1 = .ok none ∧
    (isJournalExcluded web (some (some j)) ⟨run (h1 ++ o :: h2) s, none⟩).1 = .ok true := by
  obtain ⟨a, _, b⟩ := C44_isJournal_partial web s hs (h1 ++ o :: h2) hw j hj
  have ho : written j o = some [] := by
    rcases ho with rfl | ⟨l, rfl, hl⟩ | rfl
    · simp [written]
    · simp [written, hl]
    · simp [written, stringPairs]
  have he : entry .both s (h1 ++ o :: h2) j = some [] := by
    rw [entry, manualEntry, lastWritten_append j h1 h2 o [] ho h]; rfl
  have hn : namesIn [] = [[]] := by decide
  rw [a, b, he]
  simp [reported, hn]

/-- **C44**. No abbreviation is ever reported both as a journal and as excluded, in any state of a session. -/
theorem C44_exclusive (d : Dict Str Names) (journal : Option (Option Str)) (h : isExcluded d journal = .ok true) : journalName d journal = .ok none := by
  rcases journal with _ | _ | j
  · rfl
  · rfl
  · unfold isExcluded at h
    unfold journalName
    by_cases hj : j = []
    · simp [hj]
    · simp only [if_neg hj] at h ⊢
      cases hv : d.get? j with
      | none => rfl
      | some v =>
        simp only [hv] at h
        cases hf : v.first with
        | error e => simp [hf] at h
        | ok a =>
          simp only [hf] at h
          have : a = [] := by simpa using h
          simp [hf, this]

/-- **C44**, getting the databases ends: with any pages to download, two rounds are enough, and the answer is the same however many are allowed. -/
theorem C44_terminates (web : Option (List (List Str))) (hweb : web ≠ some []) (which : Which) (fuel : Nat) (s : DBs) :
    getj9 web which (fuel + 2) s = getj9 web which 2 s ∧
    ((getj9 web which 2 s).1 = .error .runtimeError → ∃ pages, web = some pages ∧ getCurrent pages [] = .error .runtimeError) := by
  have hne : ∀ lines n t (d : Dict Str (List Str)), getDictLoop n t d lines ≠ [] := by
    intro lines n t d
    have ha : ∀ (d : Dict Str (List Str)) t n, addName d t n ≠ [] := by
      intro d t n hc
      have : Dict.get? (addName d t n) t = none := by rw [hc]; rfl
      unfold addName at this
      split at this <;> rw [Dict.get?_set_self] at this <;> cases this
    fun_induction getDictLoop n t d lines with
    | case1 _ _ _ _ _ _ _ _ _ _ ih => exact ih
    | case2 => exact ha _ _ _
    | case3 => exact ha _ _ _
  have hstore : ∀ (j : Dict Str (List Str)), Dict.WF j → j ≠ [] → storeNew [] j ≠ [] := by
    intro j hj hn hc
    cases j with
    | nil => exact hn rfl
    | cons kv r =>
      have := get?_storeNew (kv :: r) hj [] kv.1
      rw [hc, Dict.get?] at this
      simp [Dict.get?] at this
  have hset : ∀ (d : Dict Str (List Str)) k v, Dict.set d k v ≠ [] := by
    intro d k v hc
    have := Dict.get?_set_self d k v
    rw [hc] at this; cases this
  have hupd : ∀ (e d : Dict Str (List Str)), d ≠ [] → Dict.update d e ≠ [] := by
    intro e
    induction e with
    | nil => intro d h; exact h
    | cons kv e ih => intro d h; rw [Dict.update_cons]; exact ih _ (hset _ _ _)
  have hcur : ∀ pages (d e : Dict Str (List Str)), (d ≠ [] ∨ pages ≠ []) → getCurrent pages d = .ok e → e ≠ [] := by
    intro pages
    induction pages with
    | nil => intro d e h he; cases he; simpa using h
    | cons p ps ih =>
      intro d e _ he
      unfold getCurrent at he
      split at he
      · cases he
      · rename_i x hx
        split at he
        · cases he
        · rename_i hl
          refine ih _ _ (Or.inl ?_) he
          cases x with
          | nil => simp at hl
          | cons kv x => rw [Dict.update_cons]; exact hupd _ _ (hset _ _ _)
  have hupdne : ∀ db, updatej9 web [] = (db, none) → db ≠ [] := by
    intro db h
    unfold updatej9 at h
    split at h
    · cases h
    · rename_i pages
      split at h
      · cases h
      · rename_i j9 hj
        cases h
        exact hstore _ (WF_getCurrent _ _ _ Dict.WF_nil hj) (hcur _ _ _ (Or.inr (by rintro rfl; exact hweb rfl)) hj)
  have herr : ∀ db, updatej9 web [] = (db, some .runtimeError) → ∃ pages, web = some pages ∧ getCurrent pages [] = .error .runtimeError := by
    intro db h
    unfold updatej9 at h
    split at h
    · cases h
    · rename_i pages
      split at h
      · rename_i e he
        injection h with _ h
        injection h with h
        subst h
        exact ⟨pages, rfl, he⟩
      · cases h
  -- one round from a state with all it needs
  by_cases hb : (which.useWos && s.wos.length == 0) = true
  · have hw : s.wos = [] := by simp at hb; exact hb.2
    have hu : which ≠ .manual := by rintro rfl; simp [Which.useWos] at hb
    have e2 : ∀ n, getj9 web which (n + 2) s = match updatej9 web s.wos with
      | (db, some e) => (.error e, { s with wos := db })
      | (db, none) => getj9 web which (n + 1) { s with wos := db } := by
      intro n; rw [getj9.eq_def]; simp only [hb, if_true]
      rcases updatej9 web s.wos with ⟨db, _ | e⟩ <;> rfl
    rw [e2, show (2 : Nat) = 0 + 2 from rfl, e2, hw]
    cases hud : updatej9 web [] with
    | mk db e =>
      cases e with
      | some e =>
        refine ⟨rfl, fun h => ?_⟩
        simp only at h
        injection h with h
        subst h
        exact herr db hud
      | none =>
        have hdb := hupdne db hud
        simp only
        rw [getj9_ok web which fuel { s with wos := db } (fun _ => hdb) (fun h => absurd h hu),
          getj9_ok web which 0 { s with wos := db } (fun _ => hdb) (fun h => absurd h hu)]
        exact ⟨rfl, fun h => by cases h⟩
  · by_cases hm : which = .manual ∧ s.manual = none
    · obtain ⟨rfl, hm⟩ := hm
      have e2 : ∀ n, getj9 web .manual (n + 2) s = match updatej9 web [] with
        | (db, some e) => (.error e, { s with manual := some db })
        | (db, none) => getj9 web .manual (n + 1) { s with manual := some db } := by
        intro n; rw [getj9.eq_def]; simp only [Which.useWos, Which.useManual, hm, Bool.false_and, Bool.false_eq_true, if_false, if_true]
        rcases updatej9 web [] with ⟨db, _ | e⟩ <;> rfl
      rw [e2, show (2 : Nat) = 0 + 2 from rfl, e2]
      cases hud : updatej9 web [] with
      | mk db e =>
        cases e with
        | some e =>
          refine ⟨rfl, fun h => ?_⟩
          simp only at h
          injection h with h
          subst h
          exact herr db hud
        | none =>
          simp only
          rw [getj9_ok web .manual fuel { s with manual := some db } (fun h => by cases h) (fun _ => rfl),
            getj9_ok web .manual 0 { s with manual := some db } (fun h => by cases h) (fun _ => rfl)]
          exact ⟨rfl, fun h => by cases h⟩
    · have hx1 : which.useWos = true → s.wos ≠ [] := by
        intro hu hc; simp [hu, hc] at hb
      have hx2 : which = .manual → s.manual.isSome = true := by
        intro hu
        cases hs : s.manual with
        | none => exact absurd ⟨hu, hs⟩ hm
        | some _ => rfl
      rw [show fuel + 2 = (fuel + 1) + 1 from rfl, getj9_ok web which (fuel + 1) s hx1 hx2, show (2 : Nat) = 1 + 1 from rfl, getj9_ok web which 1 s hx1 hx2]
      exact ⟨rfl, fun h => by cases h⟩

/-! ## Where the code disagrees -/

/-- What a program can do in a session: the two functions that change the database, and the methods of a citation. -/
inductive Act where
  | add (abbr : Abbr)
  | exclude (abbr : Abbr)
  | isJournal (journal : Option (Option Str))
  | isExcluded (journal : Option (Option Str))
  | fullName (journal : Option (Option Str))
  | citeAdd (journal : Option (Option Str)) (manualName : Option Str) (invert : Bool)

/-- The session after it. -/
def act (web : Option (List (List Str))) (s : Sess) : Act → Sess
  | .add a => (sessAdd a s).2
  | .exclude a => (sessExclude a s).2
  | .isJournal j => (Verif.Model.JournalDB.isJournal web j s).2
  | .isExcluded j => (isJournalExcluded web j s).2
  | .fullName j => (Verif.Model.JournalDB.fullName web j s).2
  | .citeAdd j n i => (Verif.Model.JournalDB.citeAdd j n i s).2

/-- What it writes to the database. A citation writes its journal with the name given to it, its own name, or no name when it is to be excluded. -/
def Act.writes : Act → List Op
  | .add a => [.add a]
  | .exclude a => [.exclude a]
  | .citeAdd (some (some j)) n i => [.add (.dict [(.str j, .str (if i then [] else n.getD j))])]
  | .citeAdd (some none) n i => [.add (.dict [(.other 0, if i then .str [] else match n with | none => .other 0 | some n => .str n)])]
  | _ => []

/-- What it changes of the loaded abbreviations: only `addToDB` of a citation changes any. -/
def Act.learns (d : Dict Str Names) : Act → Dict Str Names
  | .citeAdd (some (some j)) n i => d.set j (.str (if i then [] else n.getD j))
  | _ => d

/-- In a session that has loaded the abbreviations they are never loaded again: after any sequence of calls they are those loaded first with what citations added themselves,
whatever was written to the database. -/
theorem C44_stale (web : Option (List (List Str))) (s : DBs) (d : Dict Str Names) (h : List Act) :
    h.foldl (act web) ⟨s, some d⟩ = ⟨run (h.flatMap Act.writes) s, some (h.foldl Act.learns d)⟩ := by
  induction h generalizing s d with
  | nil => rfl
  | cons a h ih =>
    have hrun : ∀ l : List Op, run (l ++ h.flatMap Act.writes) s = run (h.flatMap Act.writes) (run l s) := by
      intro l; unfold run; rw [List.foldl_append]
    rw [List.foldl_cons, List.foldl_cons, List.flatMap_cons, hrun]
    rw [← ih]
    congr 1
    cases a with
    | add a => rfl
    | exclude a => rfl
    | isJournal j => rfl
    | isExcluded j => rfl
    | fullName j =>
      simp only [act, fullName, ensure, Act.writes, Act.learns]
      cases journalName d j with
      | error e => rfl
      | ok o => cases o <;> rfl
    | citeAdd j n i =>
      cases j with
      | none => rfl
      | some j =>
        cases j with
        | none => rfl
        | some j => rfl

/-- So `addToDB` and `excludeFromDB` change no answer of such a session. -/
theorem C44_stale_answers (web : Option (List (List Str))) (s : DBs) (d : Dict Str Names) (h : List Act) (hh : ∀ a ∈ h, ∀ j n i, a ≠ .citeAdd j n i) (journal : Option (Option Str)) :
    let t := h.foldl (act web) ⟨s, some d⟩
    (isJournal web journal t).1 = (isJournal web journal ⟨s, some d⟩).1 ∧
    (fullName web journal t).1 = (fullName web journal ⟨s, some d⟩).1 ∧
    (isJournalExcluded web journal t).1 = (isJournalExcluded web journal ⟨s, some d⟩).1 := by
  have hd : h.foldl Act.learns d = d := by
    clear s
    induction h generalizing d with
    | nil => rfl
    | cons a h ih =>
      rw [List.foldl_cons]
      have : Act.learns d a = d := by
        cases a with
        | citeAdd j n i => exact absurd rfl (hh _ (by simp) j n i)
        | _ => rfl
      rw [this]
      exact ih d (fun b hb => hh b (by simp [hb]))
  intro t
  have ht : t = ⟨run (h.flatMap Act.writes) s, some d⟩ := (C44_stale web s d h).trans (by rw [hd])
  rw [ht]
  refine ⟨rfl, ?_, rfl⟩
  simp only [fullName, ensure]
  split <;> rfl

/-- The first question of a session loads the abbreviations, and answers as a session that has loaded them; if they cannot be loaded every question ends with that exception. -/
theorem C44_first (web : Option (List (List Str))) (s s' : DBs) (journal : Option (Option Str)) :
    (∀ d, getj9 web .both 2 s = (.ok d, s') →
      let t : Sess := ⟨s', some (d.map (fun kv => (kv.1, Names.list kv.2)))⟩
      isJournal web journal ⟨s, none⟩ = isJournal web journal t ∧ isJournalExcluded web journal ⟨s, none⟩ = isJournalExcluded web journal t ∧
        fullName web journal ⟨s, none⟩ = fullName web journal t) ∧
    (∀ e, getj9 web .both 2 s = (.error e, s') →
      isJournal web journal ⟨s, none⟩ = (.error e, ⟨s', none⟩) ∧ isJournalExcluded web journal ⟨s, none⟩ = (.error e, ⟨s', none⟩) ∧
        fullName web journal ⟨s, none⟩ = (.error e, ⟨s', none⟩)) := by
  constructor
  · intro d h
    simp [isJournal, isJournalExcluded, fullName, ensure, h]
  · intro e h
    simp [isJournal, isJournalExcluded, fullName, ensure, h]

/-- `Citation.addToDB` in a session that has loaded the abbreviations: the journal is then recognised, but only the first character of its name is given. -/
theorem C44_cite_add (web : Option (List (List Str))) (dbs : DBs) (d : Dict Str Names) (j : Str) (hj : j ≠ []) (name : Option Str) (c : Char) (cs : Str)
    (hn : name.getD j = c :: cs) :
    let s := (citeAdd (some (some j)) name false ⟨dbs, some d⟩)
    s.1 = none ∧ (isJournal web (some (some j)) s.2).1 = .ok (some [c]) ∧ (fullName web (some (some j)) s.2).1 = .ok (some [c]) := by
  simp [citeAdd, sessAdd, isJournal, fullName, ensure, journalName, firstName, hj, Dict.get?_set_self, hn, Names.first, Except.map]

/-- `Citation.addToDB(invert = True)` in a session that has loaded the abbreviations: asking whether it is a journal then raises `IndexError`, and it is reported as not
excluded. -/
theorem C44_cite_invert (web : Option (List (List Str))) (dbs : DBs) (d : Dict Str Names) (j : Str) (hj : j ≠ []) (name : Option Str) :
    let s := (citeAdd (some (some j)) name true ⟨dbs, some d⟩)
    s.1 = none ∧ (isJournal web (some (some j)) s.2).1 = .error .indexError ∧ (isJournalExcluded web (some (some j)) s.2).1 = .ok false := by
  simp [citeAdd, sessAdd, isJournal, isJournalExcluded, ensure, journalName, isExcluded, hj, Dict.get?_set_self, Names.first]

/-- `Citation.addToDB` in a session that has not loaded the abbreviations raises `AttributeError`, but the database is written: it holds the name. -/
theorem C44_cite_unloaded (dbs : DBs) (j : Str) (name : Option Str) (invert : Bool) :
    let s := (citeAdd (some (some j)) name invert ⟨dbs, none⟩)
    s.1 = some .attributeError ∧ s.2.cache = none ∧
      s.2.dbs = run [.add (.dict [(.str j, .str (if invert then [] else name.getD j))])] dbs := by
  simp [citeAdd, sessAdd, run, step]

/-- `addToDB` and `excludeFromDB` of a session write the manual database as they do without one, and leave the loaded abbreviations as they were. -/
theorem C44_session (abbr : Abbr) (s : Sess) :
    (sessAdd abbr s).2 = { s with dbs := run [.add abbr] s.dbs } ∧ (sessExclude abbr s).2 = { s with dbs := run [.exclude abbr] s.dbs } := by
  constructor <;> simp [sessAdd, sessExclude, run, step]

/-- `getj9dict(returnDict = 'manual')` without a manual database fills it with the downloaded WOS names, which then override the WOS database. -/
theorem C44_manual_missing (pages : List (List Str)) (j9 : Dict Str (List Str)) (hp : getCurrent pages [] = .ok j9) (s : DBs) (hm : s.manual = none) (fuel : Nat) :
    ∃ d m, getj9 (some pages) .manual (fuel + 2) s = (.ok d, { s with manual := some m }) ∧
      ∀ j, Dict.get? m j = (j9.get? j).map (Str.join ['|']) := by
  refine ⟨loadInto [] (storeNew [] j9), storeNew [] j9, ?_, fun j => ?_⟩
  · rw [getj9.eq_def]
    simp only [Which.useWos, Which.useManual, Bool.false_and, Bool.false_eq_true, if_false, if_true, hm, updatej9, hp]
    rw [getj9_ok _ _ _ _ (fun h => by cases h) (fun _ => rfl)]
    simp [Which.useWos, Which.useManual]
  · rw [get?_storeNew j9 (WF_getCurrent _ _ _ Dict.WF_nil hp)]; rfl

/-- **C44**, asking with a choice of database. In a session that has not loaded the abbreviations yet, `isJournal(returnDict = …)` goes by the entry of the chosen
database. The session then has the abbreviations of that database loaded. -/
theorem C44_choice_partial (web : Option (List (List Str))) (which : Which) (s : DBs) (hs : Valid s) (h : List Op) (h1 : which ≠ .manual → s.wos ≠ [])
    (h2 : which = .manual → (run h s).manual.isSome = true) (j : Str) (hj : j ≠ []) :
    (isJournalOf web which (some (some j)) ⟨run h s, none⟩).1 = .ok (reported (entry which s h j)) ∧
    ∃ d, (isJournalOf web which (some (some j)) ⟨run h s, none⟩).2 = ⟨run h s, some d⟩ ∧
      ∀ k, k ≠ [] → journalName d (some (some k)) = .ok (reported (entry which s h k)) := by
  obtain ⟨d, hd, hg⟩ := C44_lookup web which 1 s hs h h1 h2
  have hname : ∀ k, k ≠ [] → journalName (d.map (fun kv => (kv.1, Names.list kv.2))) (some (some k)) = .ok (reported (entry which s h k)) := by
    intro k hk
    simp only [journalName, if_neg hk, get?_mapVal, hg]
    cases he : entry which s h k with
    | none => simp [reported]
    | some e => simp only [Option.map_some, first_names, reported]
  unfold isJournalOf
  simp only [hd]
  exact ⟨hname j hj, _, rfl, hname⟩

/-- Once the abbreviations are loaded the choice of database is ignored: every choice answers as none does, from what was loaded first. -/
theorem C44_choice_ignored (web : Option (List (List Str))) (which : Which) (journal : Option (Option Str)) (dbs : DBs) (d : Dict Str Names) :
    isJournalOf web which journal ⟨dbs, some d⟩ = isJournal web journal ⟨dbs, some d⟩ := rfl

/-- So a first question to the manual database decides all later ones: a journal that is only in the WOS database is then no journal for the rest of the session, also when
both databases or the WOS one are asked for. -/
theorem C44_choice_sticks (web : Option (List (List Str))) (s : DBs) (hs : Valid s) (m : Dict Str Str) (hm : s.manual = some m) (j k : Str) (hj : j ≠ []) (hk : k ≠ [])
    (hkm : m.get? k = none) (which : Which) :
    let t := (isJournalOf web .manual (some (some j)) ⟨s, none⟩).2
    (isJournalOf web which (some (some k)) t).1 = .ok none ∧ (isJournal web (some (some k)) t).1 = .ok none := by
  obtain ⟨_, d, hd, hg⟩ := C44_choice_partial web .manual s hs [] (fun h => absurd rfl h) (fun _ => by simp [run, hm]) j hj
  have he : entry .manual s [] k = none := by simp [entry, manualEntry, lastWritten, hm, hkm]
  have := hg k hk
  rw [he] at this
  simp only [run, List.foldl_nil] at hd
  intro t
  rw [show t = ⟨s, some d⟩ from hd]
  exact ⟨this, this⟩

/-! ## The hypotheses can be met -/

/-- A WOS database with two entries and a manual one that overrides one of them. -/
def exDB : DBs := ⟨[("NATURE".toList, "Nature|Nat".toList), ("CELL".toList, "Cell".toList)], some [("CELL".toList, "The Cell".toList)]⟩

example : Valid exDB ∧ exDB.wos ≠ [] := by
  refine ⟨⟨?_, ?_⟩, ?_⟩ <;> decide +kernel
example : (isJournal none (some (some "CELL".toList)) ⟨exDB, none⟩).1 = .ok (some "The Cell".toList) := by decide +kernel
example : (isJournal none (some (some "NATURE".toList)) ⟨run [.add (.str "X".toList), .exclude (.list [.str "NATURE".toList, .other 0, .str "CELL".toList])] exDB, none⟩).1 = .ok none := by
  decide +kernel
example : (isJournal none (some (some "CELL".toList)) ⟨run [.exclude (.list [.str "NATURE".toList, .other 0, .str "CELL".toList]), .add (.str "X".toList)] exDB, none⟩).1 =
    .ok (some "The Cell".toList) := by decide +kernel
example : written "CELL".toList (.add (.str "X".toList)) = none ∧ written "NATURE".toList (.exclude (.list [.str "NATURE".toList])) = some [] := by
  decide +kernel
example : (([.isJournal (some (some "CELL".toList)), .exclude (.str "CELL".toList), .citeAdd (some (some "X".toList)) none false, .fullName (some (some "X".toList))] : List Act).foldl
    (act none) ⟨exDB, none⟩).cache.map Dict.keys = some ["NATURE".toList, "CELL".toList, "X".toList] := by decide +kernel
example : exDB.manual = some [("CELL".toList, "The Cell".toList)] ∧ (isJournalOf none .wos (some (some "CELL".toList)) ⟨exDB, none⟩).1 = .ok (some "Cell".toList) ∧
    (isJournalOf none .manual (some (some "CELL".toList)) ⟨exDB, none⟩).1 = .ok (some "The Cell".toList) ∧
    (isJournalOf none .wos (some (some "NATURE".toList)) (isJournalOf none .manual (some (some "CELL".toList)) ⟨exDB, none⟩).2).1 = .ok none := by
  refine ⟨rfl, ?_, ?_, ?_⟩ <;> decide +kernel
/-- A page with two abbreviations, one of them for two names. -/
def exPage : List Str :=
  ["<html>".toList, "<DL>".toList, "<A NAME=\"A\"></A><DT>ACTA ONE".toList, "<B><DD>\tACTA".toList, "</B><DT>BOOK".toList, "<B><DD>\tBK".toList, "</B><DT>ACTA TWO".toList,
    "<B><DD>\tACTA".toList, "</B></DL>".toList]
example : getCurrent [exPage] [] = .ok [("ACTA".toList, ["ACTA ONE".toList, "ACTA TWO".toList]), ("BK".toList, ["BOOK".toList])] := by decide +kernel
example : (getj9 (some [exPage]) .both 2 ⟨[], none⟩).1 = .ok [("ACTA".toList, ["ACTA ONE".toList, "ACTA TWO".toList]), ("BK".toList, ["BOOK".toList])] := by
  decide +kernel

end Verif.Props.JournalDB
