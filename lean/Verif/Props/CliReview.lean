import Verif.Spec.CliReview
import Verif.Props.CliRun
import Verif.Props.JournalDB

/-!
# C88: going over the citations with the command line tool
-/
set_option autoImplicit false
set_option linter.unusedSimpArgs false
namespace Verif.Props.CliReview
open Verif.Py Verif.Model.CliRun Verif.Spec.CliRun Verif.Spec.CliReview Verif.Spec.JournalDB Verif.Props.CliRun
open Verif.Model.JournalDB (Sess DBs Err Names ensure citeAdd sessAdd journalName isExcluded isJournal isJournalExcluded)

theorem askYes_cases (upper : Str → Str) (lines : List Str) :
    (∃ b t rest, askYes upper lines = .ok (b, rest) ∧ lines = t ++ rest ∧ Answered upper b t) ∨
    (∃ e, askYes upper lines = .error e) ∧ ∀ l ∈ lines, ¬ Means upper true l ∧ ¬ Means upper false l := by
  induction lines with
  | nil => exact .inr ⟨⟨_, rfl⟩, by simp⟩
  | cons l ls ih =>
    unfold askYes
    cases hy : Verif.Model.Cli.yes? upper l with
    | some b => exact .inl ⟨b, [l], ls, rfl, rfl, (answered_one upper b b l [] hy).2 ⟨rfl, rfl⟩⟩
    | none =>
      rcases ih with ⟨b, t, rest, h1, rfl, h3⟩ | ⟨⟨e, he⟩, h⟩
      · exact .inl ⟨b, l :: t, rest, h1, rfl, (answered_cons upper b l t hy).2 h3⟩
      · refine .inr ⟨⟨e, he⟩, ?_⟩
        intro y hy'
        rcases List.mem_cons.1 hy' with rfl | hy'
        · exact (means_none upper y).1 hy
        · exact h y hy'

def known (d : Dict Str Names) (j : Str) : Prop := d.get? j ≠ none
def broken (d : Dict Str Names) (j : Str) : Prop := d.get? j = some (.str []) ∨ d.get? j = some (.list [])

theorem trace_nil (upper : Str → Str) (same : Bool) (kn : Str → Prop) (cs : List (Option (Option Str))) (lines : List Str) (r : RState) :
    Trace upper same kn cs lines [] [] lines r r := by
  refine ⟨by simp, by simp, by simp, .nil, by simp, rfl, ?_, ?_⟩ <;> intro j <;> simp [updated]

theorem trace_skip {upper : Str → Str} {same : Bool} {kn : Str → Prop} {cs : List (Option (Option Str))} {lines : List Str}
    {asked : List (Option Str × Bool)} {typed : List (List Str)} {rest : List Str} {r r' : RState} (c : Option (Option Str))
    (h : Trace upper same kn cs lines asked typed rest r r') : Trace upper same kn (c :: cs) lines asked typed rest r r' :=
  ⟨h.once, h.order.cons c, h.new, h.answers, h.lines, h.wos, h.named, h.dflt⟩

theorem ended_skip {upper : Str → Str} {kn br : Str → Prop} {cs : List (Option (Option Str))}
    {asked : List (Option Str × Bool)} {rest : List Str} {o : REnd} (c : Option (Option Str)) (hc : c ≠ some none)
    (hk : ∀ j, c = some (some j) → kn j ∧ ¬ br j) (hnew : ∀ j b, (some j, b) ∈ asked → ¬ kn j)
    (h : Ended upper kn br cs asked rest o) : Ended upper kn br (c :: cs) asked rest o := by
  cases o with
  | done =>
    obtain ⟨h1, h2, h3⟩ := h
    refine ⟨?_, ?_, ?_⟩
    · intro j hj
      rcases List.mem_cons.1 hj with e | hj
      · exact ⟨(hk j e.symm).2, .inl (hk j e.symm).1⟩
      · exact h1 j hj
    · intro j hj
      rw [List.count_cons_of_ne (by intro e; exact hnew j _ hj (hk j e).1)]
      exact h2 j hj
    · intro hm
      rcases List.mem_cons.1 hm with e | hm
      · exact hc e.symm
      · exact h3 hm
  | eof =>
    obtain ⟨h1, j, hj, h2⟩ := h
    exact ⟨h1, j, by simp [hj], h2⟩
  | raised e =>
    rcases h with ⟨rfl, h1, h2⟩ | ⟨rfl, j, h1, h2⟩
    · exact .inl ⟨rfl, by simp [h1], h2⟩
    · refine .inr ⟨rfl, j, by simp [h1], ?_⟩
      rcases h2 with h2 | ⟨h2, h3⟩
      · exact .inl h2
      · exact .inr ⟨h2, h3.trans List.count_le_count_cons⟩

/-- The effect of an answer on the databases and the loaded abbreviations. -/
theorem answer_spec (same b : Bool) (j : Str) (dbs : DBs) (d : Dict Str Names) (dflt : Option (Dict Str Str)) :
    ∃ dbs' dflt', (if b then addJournal (some j) ⟨⟨dbs, some d⟩, dflt⟩ else skipJournal same (some j) ⟨⟨dbs, some d⟩, dflt⟩) =
        (none, ⟨⟨dbs', some (d.set j (.str (if b then j else [])))⟩, dflt'⟩) ∧ dbs'.wos = dbs.wos ∧
      (∀ k, held dbs'.manual k = updated true same [(some j, b)] (held dbs.manual k) k) ∧
      (∀ k, held dflt' k = updated false (!same) [(some j, b)] (held dflt k) k) := by
  cases b
  · cases same
    · refine ⟨dbs, some ((dflt.getD []).set j []), rfl, rfl, ?_, ?_⟩
      · intro k; simp [updated]
      · intro k
        by_cases hk : j = k
        · subst hk; simp [updated, held, Dict.get?_set]
        · simp [updated, held, Dict.get?_set, hk, Ne.symm hk]
    · refine ⟨{ dbs with manual := some ((dbs.manual.getD []).set j []) }, dflt, rfl, rfl, ?_, ?_⟩
      · intro k
        by_cases hk : j = k
        · subst hk; simp [updated, held, Dict.get?_set]
        · simp [updated, held, Dict.get?_set, hk, Ne.symm hk]
      · intro k; simp [updated]
  · refine ⟨{ dbs with manual := some ((dbs.manual.getD []).set j j) }, dflt, rfl, rfl, ?_, ?_⟩
    · intro k
      by_cases hk : j = k
      · subst hk; simp [updated, held, Dict.get?_set]
      · simp [updated, held, Dict.get?_set, hk, Ne.symm hk]
    · intro k; simp [updated]

theorem answer_none (same b : Bool) (dbs : DBs) (d : Dict Str Names) (dflt : Option (Dict Str Str)) :
    ∃ r', (if b then addJournal none ⟨⟨dbs, some d⟩, dflt⟩ else skipJournal same none ⟨⟨dbs, some d⟩, dflt⟩) = (some .typeError, r') ∧
      r'.sess.dbs.wos = dbs.wos ∧ (∀ k, held r'.sess.dbs.manual k = held dbs.manual k) ∧ (∀ k, held r'.dflt k = held dflt k) := by
  cases b
  · cases same
    · exact ⟨_, rfl, rfl, fun _ => rfl, fun _ => rfl⟩
    · exact ⟨_, rfl, rfl, fun _ => rfl, fun _ => rfl⟩
  · exact ⟨_, rfl, rfl, fun _ => rfl, fun _ => rfl⟩

theorem updated_cons (yes no : Bool) (q : Option Str × Bool) (asked : List (Option Str × Bool)) (old : Option Str) (j : Str)
    (h : ∀ b, q.1 = some j → (some j, b) ∉ asked) : updated yes no asked (updated yes no [q] old j) j = updated yes no (q :: asked) old j := by
  obtain ⟨k, b⟩ := q
  unfold updated
  by_cases hk : k = some j
  · have h1 := h true hk
    have h2 := h false hk
    subst hk
    cases b <;> simp [h1, h2]
  · simp [Ne.symm hk]

theorem first_broken (d : Dict Str Names) (j : Str) (v : Names) (h : d.get? j = some v) :
    (v.first = .error .indexError ∧ broken d j) ∨ (∃ a, v.first = .ok a) ∧ ¬ broken d j := by
  unfold broken
  rw [h]
  cases v with
  | list l =>
    cases l with
    | nil => exact .inl ⟨rfl, .inr rfl⟩
    | cons a l => exact .inr ⟨⟨_, rfl⟩, by simp⟩
  | str s =>
    cases s with
    | nil => exact .inl ⟨rfl, .inl rfl⟩
    | cons a l => exact .inr ⟨⟨_, rfl⟩, by simp⟩

theorem review_loaded (web : Option (List (List Str))) (upper : Str → Str) (same : Bool) (cs : List (Option (Option Str))) (hne : some (some []) ∉ cs) (lines : List Str)
    (dbs : DBs) (d : Dict Str Names) (dflt : Option (Dict Str Str)) :
    ∃ o asked r typed rest, review web upper same cs lines ⟨⟨dbs, some d⟩, dflt⟩ = (o, asked, r) ∧
      Trace upper same (known d) cs lines asked typed rest ⟨⟨dbs, some d⟩, dflt⟩ r ∧ Ended upper (known d) (broken d) cs asked rest o := by
  induction cs generalizing lines dbs d dflt with
  | nil => exact ⟨.done, [], _, [], lines, rfl, trace_nil _ _ _ _ _ _, by simp [Ended]⟩
  | cons c cs ih =>
    have hne' : some (some []) ∉ cs := fun h => hne (by simp [h])
    rcases c with _ | _ | j
    · obtain ⟨o, asked, r, typed, rest, h1, h2, h3⟩ := ih hne' lines dbs d dflt
      exact ⟨o, asked, r, typed, rest, h1, trace_skip _ h2, ended_skip _ (by simp) (by simp) h2.new h3⟩
    · unfold review
      simp only [isJournal, isJournalExcluded, ensure, journalName, isExcluded]
      rcases askYes_cases upper lines with ⟨b, t, rest, h1, h2, h3⟩ | ⟨⟨e, he⟩, h⟩
      · rw [h1]
        obtain ⟨r', e, hw, hm, hd⟩ := answer_none same b dbs d dflt
        simp only [e]
        refine ⟨_, _, _, [t], rest, rfl, ⟨by simp, by simp, by simp, by simpa using h3, by simpa using h2, hw, ?_, ?_⟩, .inl ⟨rfl, by simp, b, rfl⟩⟩
        · intro k; rw [hm]; simp [updated]
        · intro k; rw [hd]; simp [updated]
      · rw [he]
        exact ⟨_, _, _, [], lines, rfl, trace_nil _ _ _ _ _ _, h, none, by simp, by simp, by simp⟩
    · have hj : j ≠ [] := by rintro rfl; exact hne (by simp)
      unfold review
      simp only [isJournal, isJournalExcluded, ensure, journalName, isExcluded, if_neg hj]
      cases hg : d.get? j with
      | some v =>
        simp only [hg]
        rcases first_broken d j v hg with ⟨hf, hb⟩ | ⟨⟨a, ha⟩, hb⟩
        · simp only [hf]
          exact ⟨_, _, _, [], lines, rfl, trace_nil _ _ _ _ _ _, .inr ⟨rfl, j, by simp, .inl hb⟩⟩
        · simp only [ha]
          obtain ⟨o, asked, r, typed, rest, h1, h2, h3⟩ := ih hne' lines dbs d dflt
          refine ⟨o, asked, r, typed, rest, ?_, trace_skip _ h2, ended_skip _ (by simp) ?_ h2.new h3⟩
          · by_cases hae : a = []
            · simp only [hg, ha, hae, if_true, decide_true]; exact h1
            · simp only [hae, if_false]; exact h1
          · intro k hk
            cases hk
            exact ⟨by unfold known; rw [hg]; simp, hb⟩
      | none =>
        simp only [hg]
        have hkn : ¬ known d j := by unfold known; rw [hg]; simp
        rcases askYes_cases upper lines with ⟨b, t, rest, h1, h2, h3⟩ | ⟨⟨e, he⟩, h⟩
        · rw [h1]
          obtain ⟨dbs', dflt', e, hw, hm, hd⟩ := answer_spec same b j dbs d dflt
          simp only [e]
          obtain ⟨o, asked, r, typed, rest', g1, g2, g3⟩ := ih hne' rest dbs' (d.set j (.str (if b then j else []))) dflt'
          rw [g1]
          have hkd : ∀ k, known (d.set j (.str (if b then j else []))) k ↔ k = j ∨ known d k := by
            intro k
            unfold known
            rw [Dict.get?_set]
            by_cases hk : j = k
            · simp [hk]
            · simp [hk, Ne.symm hk]
          have hbd : ∀ k, broken (d.set j (.str (if b then j else []))) k ↔ k = j ∧ b = false ∨ broken d k := by
            intro k
            unfold broken
            rw [Dict.get?_set]
            by_cases hk : j = k
            · subst hk
              cases b <;> simp [hg, hj]
            · simp [hk, Ne.symm hk]
          have hnj : ∀ b', (some j, b') ∉ asked := fun b' h => g2.new j b' h ((hkd j).2 (.inl rfl))
          refine ⟨o, _, r, t :: typed, rest', rfl, ⟨?_, ?_, ?_, .cons h3 g2.answers, ?_, g2.wos.trans hw, ?_, ?_⟩, ?_⟩
          · rw [List.map_cons, List.nodup_cons]
            refine ⟨?_, g2.once⟩
            intro hm'
            obtain ⟨⟨k, b'⟩, hk, rfl⟩ := List.mem_map.1 hm'
            exact hnj b' hk
          · exact g2.order.cons₂ _
          · intro k b' hk
            rcases List.mem_cons.1 hk with e | hk
            · cases e; exact hkn
            · exact fun h => g2.new k b' hk ((hkd k).2 (.inr h))
          · rw [List.flatten_cons, List.append_assoc, ← g2.lines, h2]
          · intro k
            rw [g2.named, hm]
            exact updated_cons _ _ _ _ _ _ (by rintro b' hk; cases hk; exact hnj b')
          · intro k
            rw [g2.dflt, hd]
            exact updated_cons _ _ _ _ _ _ (by rintro b' hk; cases hk; exact hnj b')
          · cases o with
            | done =>
              obtain ⟨k1, k2, k3⟩ := g3
              refine ⟨?_, ?_, by simp [k3]⟩
              · intro k hk
                rcases List.mem_cons.1 hk with e | hk
                · cases e
                  exact ⟨by unfold broken; rw [hg]; simp, .inr ⟨b, by simp⟩⟩
                · obtain ⟨m1, m2⟩ := k1 k hk
                  refine ⟨fun h => m1 ((hbd k).2 (.inr h)), ?_⟩
                  rcases m2 with m2 | ⟨b', m2⟩
                  · rcases (hkd k).1 m2 with rfl | m2
                    · exact .inr ⟨b, by simp⟩
                    · exact .inl m2
                  · exact .inr ⟨b', by simp [m2]⟩
              · intro k hk
                rcases List.mem_cons.1 hk with e | hk
                · cases e
                  rw [List.count_cons_self, List.count_eq_zero_of_not_mem]
                  intro hm'
                  exact (k1 j hm').1 ((hbd j).2 (.inl ⟨rfl, rfl⟩))
                · rw [List.count_cons_of_ne (by rintro e; cases e; exact hnj _ hk)]
                  exact k2 k hk
            | eof =>
              obtain ⟨k1, k, hk, k2, k3⟩ := g3
              refine ⟨k1, k, by simp [hk], ?_, ?_⟩
              · intro x hx h
                exact k2 x hx ((hkd x).2 (.inr h))
              · intro b' hb'
                rcases List.mem_cons.1 hb' with e | hb'
                · cases e; exact k2 j rfl ((hkd j).2 (.inl rfl))
                · exact k3 b' hb'
            | raised e =>
              rcases g3 with ⟨rfl, k1, b', k2⟩ | ⟨rfl, k, k1, k2⟩
              · refine .inl ⟨rfl, by simp [k1], b', ?_⟩
                rw [List.getLast?_cons, k2]; rfl
              · refine .inr ⟨rfl, k, by simp [k1], ?_⟩
                rcases k2 with k2 | ⟨k2, k3⟩
                · rcases (hbd k).1 k2 with ⟨rfl, rfl⟩ | k2
                  · refine .inr ⟨by simp, ?_⟩
                    rw [List.count_cons_self]
                    have := List.count_pos_iff.2 k1
                    omega
                  · exact .inl k2
                · exact .inr ⟨by simp [k2], k3.trans List.count_le_count_cons⟩
        · rw [he]
          exact ⟨_, _, _, [], lines, rfl, trace_nil _ _ _ _ _ _, h, some j, by simp, by rintro k hk; cases hk; exact hkn, by simp⟩

/-- Loading the abbreviations first changes nothing but what is loaded. -/
theorem review_fresh (web : Option (List (List Str))) (upper : Str → Str) (same : Bool) (cs : List (Option (Option Str))) (lines : List Str)
    (dbs : DBs) (d : Dict Str Names) (dflt : Option (Dict Str Str)) (hd : ensure web ⟨dbs, none⟩ = (.ok d, ⟨dbs, some d⟩)) :
    let p := review web upper same cs lines ⟨⟨dbs, none⟩, dflt⟩
    let q := review web upper same cs lines ⟨⟨dbs, some d⟩, dflt⟩
    p.1 = q.1 ∧ p.2.1 = q.2.1 ∧ p.2.2.sess.dbs = q.2.2.sess.dbs ∧ p.2.2.dflt = q.2.2.dflt := by
  induction cs with
  | nil => exact ⟨rfl, rfl, rfl, rfl⟩
  | cons c cs ih =>
    cases c with
    | none => exact ih
    | some j =>
      have h1 : isJournal web (some j) ⟨dbs, none⟩ = isJournal web (some j) ⟨dbs, some d⟩ := by
        unfold isJournal; rw [hd]; rfl
      have : review web upper same (some j :: cs) lines ⟨⟨dbs, none⟩, dflt⟩ = review web upper same (some j :: cs) lines ⟨⟨dbs, some d⟩, dflt⟩ := by
        conv_lhs => unfold review
        conv_rhs => unfold review
        dsimp only
        rw [h1]
      rw [this]
      exact ⟨rfl, rfl, rfl, rfl⟩

/-- **C88**, except for what an exception ends. Going over the citations in a session that has not looked up journals yet, from any databases. Each cited journal that has no entry in
them, manual or WOS, is asked for once and in the order of the citations, and no other; each takes the answer typed for it. Afterwards the named database has the journals that were
added, and the default database those to be skipped, in addition to what they had. -/
theorem C88_review_partial (web : Option (List (List Str))) (upper : Str → Str) (same : Bool) (s : DBs) (hs : Valid s) (hw : s.wos ≠ []) (dflt : Option (Dict Str Str))
    (cites : List (Option (Option Str))) (hc : some (some []) ∉ cites) (lines : List Str) (o : REnd) (asked : List (Option Str × Bool)) (r : RState)
    (h : review web upper same cites lines ⟨⟨s, none⟩, dflt⟩ = (o, asked, r)) :
    ∃ typed rest, Trace upper same (fun j => held s.manual j ≠ none ∨ s.wos.get? j ≠ none) cites lines asked typed rest ⟨⟨s, none⟩, dflt⟩ r ∧
      Ended upper (fun j => held s.manual j ≠ none ∨ s.wos.get? j ≠ none) (fun _ => False) cites asked rest o := by
  obtain ⟨d, hd, hg⟩ := Verif.Props.JournalDB.ensure_fresh web s hs [] hw
  have hf := review_fresh web upper same cites lines s d dflt hd
  obtain ⟨o', asked', r', typed, rest, h1, h2, h3⟩ := review_loaded web upper same cites hc lines s d dflt
  simp only [h, h1] at hf
  obtain ⟨rfl, rfl, hf1, hf2⟩ := hf
  have hk : known d = (fun j => held s.manual j ≠ none ∨ s.wos.get? j ≠ none) := by
    funext j
    unfold known held
    rw [hg]
    simp only [entry, manualEntry, wosEntry, lastWritten, List.reverse_nil, List.findSome?_nil, Option.none_or, Option.or_none]
    cases Dict.get? (s.manual.getD []) j <;> cases s.wos.get? j <;> simp
  have hb : broken d = (fun _ => False) := by
    funext j
    unfold broken
    rw [hg]
    simp only [eq_iff_iff, iff_false]
    rintro (h | h)
    · cases he : entry .both s [] j <;> rw [he] at h <;> simp at h
    · cases he : entry .both s [] j with
      | none => rw [he] at h; simp at h
      | some e =>
        rw [he] at h
        simp only [Option.map_some, Option.some.injEq, Names.list.injEq] at h
        exact Str.split_ne_nil _ _ h
  rw [hk, hb] at h3
  rw [hk] at h2
  exact ⟨typed, rest, ⟨h2.once, h2.order, h2.new, h2.answers, h2.lines, by rw [hf1]; exact h2.wos, by rw [hf1]; exact h2.named, by rw [hf2]; exact h2.dflt⟩, h3⟩

/-! ## Where the tool does not do what it says -/

/-- When the user names another database than the default, no answer *no* reaches it: what it has for the journal to be skipped is what it had, nothing, and the journal is in the default
database instead. The next review of the same citations with the same database asks again. -/
theorem C88_other_database (web : Option (List (List Str))) (upper : Str → Str) (s : DBs) (hs : Valid s) (hw : s.wos ≠ []) (dflt : Option (Dict Str Str))
    (cites : List (Option (Option Str))) (hc : some (some []) ∉ cites) (lines : List Str) (o : REnd) (asked : List (Option Str × Bool)) (r : RState)
    (h : review web upper false cites lines ⟨⟨s, none⟩, dflt⟩ = (o, asked, r)) (j : Str) (hj : (some j, false) ∈ asked) :
    held r.sess.dbs.manual j = none ∧ r.sess.dbs.wos.get? j = none ∧ held r.dflt j = some [] := by
  obtain ⟨typed, rest, t, -⟩ := C88_review_partial web upper false s hs hw dflt cites hc lines o asked r h
  have hn := t.new j false hj
  rw [not_or, not_not, not_not] at hn
  have hno : (some j, true) ∉ asked := by
    intro h'
    have := t.once
    rw [List.nodup_map_iff_inj_on (List.Nodup.of_map _ this)] at this
    have := this _ hj _ h' rfl
    cases this
  refine ⟨?_, ?_, ?_⟩
  · rw [t.named]; simp [updated, hno, hn.1]
  · rw [t.wos]; exact hn.2
  · rw [t.dflt]; simp [updated, hj]

/-- A journal to be skipped that is cited again ends the review with an exception or before that, not normally; so does a citation whose journal is `None`, as those without a journal
have. -/
theorem C88_not_over (web : Option (List (List Str))) (upper : Str → Str) (same : Bool) (s : DBs) (hs : Valid s) (hw : s.wos ≠ []) (dflt : Option (Dict Str Str))
    (cites : List (Option (Option Str))) (hc : some (some []) ∉ cites) (lines : List Str) (o : REnd) (asked : List (Option Str × Bool)) (r : RState)
    (h : review web upper same cites lines ⟨⟨s, none⟩, dflt⟩ = (o, asked, r))
    (hb : some none ∈ cites ∨ ∃ j, (some j, false) ∈ asked ∧ 2 ≤ cites.count (some (some j))) : o ≠ .done := by
  rintro rfl
  obtain ⟨typed, rest, t, e1, e2, e3⟩ := C88_review_partial web upper same s hs hw dflt cites hc lines _ asked r h
  rcases hb with hb | ⟨j, hj, hb⟩
  · exact e3 hb
  · have := e2 j hj
    omega

/-! ## Reviews -/

def db1 : DBs := ⟨[("NATURE".toList, "Nature".toList)], some [("CELL".toList, [])]⟩
def cj (s : String) : Option (Option Str) := some (some s.toList)

example : Valid db1 ∧ db1.wos ≠ [] := by
  refine ⟨⟨?_, ?_⟩, ?_⟩ <;> decide +kernel
example : (review none up1 true [cj "CELL", none, cj "A", cj "NATURE", cj "B", cj "A"] (["huh", "y", "n"].map String.toList) ⟨⟨db1, none⟩, none⟩).1 = .done := by decide +kernel
example : (review none up1 true [cj "CELL", none, cj "A", cj "NATURE", cj "B", cj "A"] (["huh", "y", "n"].map String.toList) ⟨⟨db1, none⟩, none⟩).2.1 =
    [(some "A".toList, true), (some "B".toList, false)] := by decide +kernel
example : (review none up1 true [cj "A", cj "B", cj "B"] (["y", "n"].map String.toList) ⟨⟨db1, none⟩, none⟩).1 = .raised .indexError := by decide +kernel
example : (review none up1 false [cj "A", some none, cj "B"] (["n", "n"].map String.toList) ⟨⟨db1, none⟩, none⟩).1 = .raised .typeError := by decide +kernel
example : (review none up1 false [cj "A", cj "B"] (["n"].map String.toList) ⟨⟨db1, none⟩, none⟩).1 = .eof := by decide +kernel

end Verif.Props.CliReview
