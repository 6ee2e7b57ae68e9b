import Verif.Model.ProQuestFile
import Verif.Spec.ProQuestFile
import Verif.Props.ProQuest

/-! # C73: whole ProQuest files -/
set_option autoImplicit false
set_option linter.unusedSimpArgs false
namespace Verif.Props.ProQuestFile
open Verif.Py Verif.Model.ProQuestFile Verif.Spec.ProQuestFile
open Verif.Model.ProQuest hiding separator
open Verif.Spec.ProQuest (separator)

variable {ws : Char → Bool} {toInt : Str → Option Int}

/-! ## Cutting lines -/

theorem cut_self (sep l : Str) (hs : sep ≠ []) : Cut sep l ((Str.split sep l).headD []) (Str.join sep (Str.split sep l).tail) := by
  by_cases h : sep <:+: l
  · obtain ⟨p, t, e, hp⟩ := Verif.Props.ProQuestRecords.first_occ sep l hs h
    left
    have : Str.split sep l = p :: Str.split sep t := by
      rw [e]
      unfold Str.split
      rw [Str.splitGo_append _ hs [] p t hp]
      rfl
    rw [this, List.tail_cons, Str.join_split _ _ hs]
    exact ⟨e, hp⟩
  · right
    rw [Str.split_none _ _ h]
    exact ⟨h, rfl, rfl⟩

theorem cut_unique (sep l a b : Str) (hs : sep ≠ []) (h : Cut sep l a b) : a = (Str.split sep l).headD [] ∧ b = Str.join sep (Str.split sep l).tail := by
  rcases h with ⟨e, hp⟩ | ⟨h, e, e2⟩
  · have : Str.split sep l = a :: Str.split sep b := by
      rw [e]
      unfold Str.split
      rw [Str.splitGo_append _ hs [] a b hp]
      rfl
    rw [this, List.tail_cons, Str.join_split _ _ hs]
    exact ⟨rfl, rfl⟩
  · rw [Str.split_none _ _ h, e2]
    exact ⟨e, rfl⟩

theorem indexLine_iff (l : Str) (n : Int) (t : Str) : IndexLine toInt l n t ↔
    l ≠ bibliography ∧ toInt ((Str.split ". ".toList l).headD []) = some n ∧ t = (Str.join ". ".toList (Str.split ". ".toList l).tail).dropLast := by
  constructor
  · rintro ⟨h0, a, b, hc, h1, h2⟩
    obtain ⟨rfl, rfl⟩ := cut_unique _ _ _ _ (by simp) hc
    exact ⟨h0, h1, h2⟩
  · rintro ⟨h0, h1, h2⟩
    exact ⟨h0, _, _, cut_self _ _ (by simp), h1, h2⟩

theorem documentLine_iff (l : Str) (n : Int) : DocumentLine toInt l n ↔
    "Document ".toList.isPrefixOf l = true ∧ toInt ((Str.split " of ".toList (l.drop 9)).headD []) = some n := by
  constructor
  · rintro ⟨a, b, s, rfl, hc, h1⟩
    obtain ⟨rfl, rfl⟩ := cut_unique _ _ _ _ (by simp) hc
    refine ⟨?_, ?_⟩
    · rw [List.isPrefixOf_iff_prefix]; exact List.prefix_append _ _
    · rw [show List.drop 9 ("Document ".toList ++ s) = s from rfl]; exact h1
  · rintro ⟨h0, h1⟩
    rw [List.isPrefixOf_iff_prefix] at h0
    obtain ⟨s, rfl⟩ := h0
    rw [show List.drop 9 ("Document ".toList ++ s) = s from rfl] at h1
    exact ⟨_, _, s, rfl, cut_self _ _ (by simp), h1⟩

/-! ## The table of contents -/

/-- The dictionary of the titles read. -/
def namesOf (d : Dict Int Str) (index : List (Int × Str)) : Dict Int Str := Dict.update d index

theorem get_names (d : Dict Int Str) (index : List (Int × Str)) (n : Int) :
    (namesOf d index).get? n = (titleIn index n).or (d.get? n) := by
  unfold namesOf titleIn
  induction index generalizing d with
  | nil => simp [Dict.update]
  | cons p index ih =>
    rw [show Dict.update d (p :: index) = Dict.update (Dict.set d p.1 p.2) index from rfl, ih, List.reverse_cons, List.find?_append, Dict.get?_set]
    cases h : index.reverse.find? (fun q => decide (q.1 = n)) with
    | some q => simp
    | none =>
      simp only [Option.map_none, Option.none_or, List.find?_singleton]
      by_cases hp : p.1 = n
      · simp [hp]
      · have : ¬ n = p.1 := fun h => hp h.symm
        simp [hp, this]

theorem index_ok (d : Dict Int Str) (ls : List Str) (names : Dict Int Str) (rest : List Str) :
    indexFrom toInt d ls = some (names, rest) ↔ ∃ (entries : List (Str × Str)) (blank : Str) (gap : List Str) (index : List (Int × Str)), gap.length = 3 ∧
      ls = entries.flatMap (fun e => [e.1, e.2]) ++ [blank, "Bibliography\n".toList] ++ gap ++ rest ∧
      List.Forall₂ (fun e p => IndexLine toInt e.2 p.1 p.2) entries index ∧ names = namesOf d index := by
  constructor
  · intro h
    fun_induction indexFrom toInt d ls with
    | case1 d b ls h3 => simp at h
    | case2 d b ls h3 =>
      have h' := Prod.mk.inj (Option.some.inj h)
      refine ⟨[], b, ls.take 3, [], by rw [List.length_take]; omega, ?_, .nil, h'.1.symm⟩
      rw [← h'.2, List.flatMap_nil, List.nil_append, List.append_assoc, List.take_append_drop]
      rfl
    | case3 d b l ls hl s hn => cases h
    | case4 d b l ls hl s n hn ih =>
      obtain ⟨entries, blank, gap, index, h1, h2, h3, h4⟩ := ih h
      refine ⟨(b, l) :: entries, blank, gap, (n, _) :: index, h1, ?_, .cons ((indexLine_iff l n _).2 ⟨hl, hn, rfl⟩) h3, ?_⟩
      · rw [h2]; simp
      · rw [h4]; rfl
    | case5 => cases h
  · rintro ⟨entries, blank, gap, index, h1, rfl, h3, rfl⟩
    induction h3 generalizing d with
    | nil =>
      rw [List.flatMap_nil, List.nil_append]
      show indexFrom toInt d (blank :: "Bibliography\n".toList :: (gap ++ rest)) = _
      rw [indexFrom, if_pos (show "Bibliography\n".toList = bibliography from rfl), if_neg (by simp; omega), List.drop_append_of_le_length (by omega), List.drop_of_length_le (by omega)]
      rfl
    | cons hp hps ih =>
      rename_i e p entries index
      obtain ⟨h0, h4, h5⟩ := (indexLine_iff _ _ _).1 hp
      show indexFrom toInt d (e.1 :: e.2 :: (entries.flatMap (fun e => [e.1, e.2]) ++ [blank, "Bibliography\n".toList] ++ gap ++ rest)) = _
      rw [indexFrom, if_neg h0]
      dsimp only
      rw [h4]
      dsimp only
      rw [ih, ← h5]
      rfl

/-! ## The documents -/

theorem reads_iff (ls rest : List Str) (fs : Fields) :
    recordParser ws ls = (.ok fs, rest) ↔ ∃ body, ls = body ++ separator :: rest ∧ Reads ws body fs := by
  constructor
  · intro h
    have hsep : separator ∈ ls := by
      by_contra hn
      exact (Verif.Props.ProQuestRecords.C34_stops (ws := ws) ls [] hn fs).2 (by rw [h])
    obtain ⟨body, rest', rfl, hb⟩ := List.eq_append_cons_of_mem hsep
    have h1 := (Verif.Props.ProQuestRecords.C34_reads (ws := ws) body rest' hb fs).1 (by rw [h])
    have h2 := (Verif.Props.ProQuestRecords.C34_stops (ws := ws) body rest' hb fs).1 (by rw [h])
    rw [h] at h2
    dsimp only at h2
    subst h2
    exact ⟨body, rfl, hb, h1⟩
  · rintro ⟨body, rfl, hb, h1⟩
    have h2 := (Verif.Props.ProQuestRecords.C34_reads (ws := ws) body rest hb fs).2 h1
    have h3 := (Verif.Props.ProQuestRecords.C34_stops (ws := ws) body rest hb fs).1 h2
    exact Prod.ext h2 h3

theorem titleOf_iff (fs : Fields) (t : Str) : titleOf fs = some t ↔ ∃ more, Dict.get? fs "Title".toList = some (t :: more) := by
  unfold titleOf
  split
  · rename_i v more h
    constructor
    · intro e; cases e; exact ⟨more, h⟩
    · rintro ⟨m, e⟩; rw [h] at e; cases e; rfl
  · rename_i h
    constructor
    · intro e; cases e
    · rintro ⟨m, e⟩; exact absurd e (h t m)

/-- Where reading stops with an error. -/
inductive StopsAt (ws : Char → Bool) (toInt : Str → Option Int) (index : List (Int × Str)) : List Str → Bad → List Rec → Prop where
  /-- the file ends in front of a document -/
  | ended : StopsAt ws toInt index [] .caught []
  /-- a line that belongs to no document -/
  | separators (l : Str) (ls : List Str) : l ≠ "Bibliography\n".toList → ¬ "Document ".toList <+: l → StopsAt ws toInt index (l :: ls) .separators []
  /-- a document without number -/
  | number (l : Str) (ls : List Str) : "Document ".toList <+: l → (∀ n, ¬ DocumentLine toInt l n) → StopsAt ws toInt index (l :: ls) .caught []
  /-- a document that does not end -/
  | cut (l : Str) (ls : List Str) (n : Int) : DocumentLine toInt l n → separator ∉ ls → ¬ Stray ls → StopsAt ws toInt index (l :: ls) .caught []
  /-- a document whose title is missing or not that of the table of contents -/
  | titles (l : Str) (body rest : List Str) (n : Int) (fs : Fields) (t : Str) : DocumentLine toInt l n → Reads ws body fs → titleIn index n = some t →
      (∀ more, fs.get? "Title".toList ≠ some (t :: more)) → StopsAt ws toInt index (l :: body ++ separator :: rest) .titles []
  /-- a good document at the very end of the file; it is read -/
  | last (l : Str) (body : List Str) (fs : Fields) : Document.Good ws toInt index ⟨l, body, []⟩ fs →
      StopsAt ws toInt index (l :: body ++ [separator]) .caught [mkRec fs]

/-- Where reading raises `KeyError`. -/
inductive RaisesAt (ws : Char → Bool) (toInt : Str → Option Int) (index : List (Int × Str)) : List Str → Prop where
  /-- the number is not in the table of contents -/
  | number (l : Str) (body rest : List Str) (n : Int) (fs : Fields) : DocumentLine toInt l n → Reads ws body fs → titleIn index n = none →
      RaisesAt ws toInt index (l :: body ++ separator :: rest)
  /-- the record has a line that continues nothing -/
  | record (l : Str) (ls : List Str) (n : Int) : DocumentLine toInt l n → Stray ls → RaisesAt ws toInt index (l :: ls)

theorem bib_not_document : ¬ "Document ".toList <+: "Bibliography\n".toList := by decide

theorem parse_stop_sep (cur : Cur) (d : Fields) (ls : List Str) (h : (parseFrom ws cur d ls).1 = .error .stop) : separator ∉ ls := by
  induction ls generalizing cur d with
  | nil => simp
  | cons l ls ih =>
    rw [parseFrom.eq_def, Verif.Props.ProQuestRecords.separator_eq] at h
    dsimp only at h
    split at h
    · cases h
    · rename_i hl
      have hc : ∀ cur d, (parseFrom ws cur d ls).1 = .error .stop → separator ∉ l :: ls := by
        intro cur d hh
        simp only [List.mem_cons, not_or]
        exact ⟨fun e => hl e.symm, ih cur d hh⟩
      split at h
      · exact hc _ _ h
      · split at h
        · exact hc _ _ h
        · split at h
          · exact hc _ _ h
          · split at h
            · exact hc _ _ h
            · split at h
              · split at h
                · exact hc _ _ h
                · cases h
              · cases h

section stray
open Verif.Spec.ProQuest Verif.Props.ProQuestRecords

theorem go_key_prefix (cur : Cur) (d : Fields) (pre post : List Str) (hs : separator ∉ pre) (h : go ws cur d (pre.filter (fun l => l ≠ ['\n'])) = .error .key) :
    (parseFrom ws cur d (pre ++ post)).1 = .error .key := by
  induction pre generalizing cur d with
  | nil => simp [go] at h
  | cons l pre ih =>
    simp only [List.mem_cons, not_or] at hs
    rw [List.cons_append, parseFrom.eq_def, Verif.Props.ProQuestRecords.separator_eq]
    dsimp only
    rw [if_neg (Ne.symm hs.1)]
    by_cases hb : l = ['\n']
    · rw [if_pos hb]
      rw [List.filter_cons_of_neg (by simpa using hb)] at h
      exact ih _ _ hs.2 h
    · rw [if_neg hb]
      rw [List.filter_cons_of_pos (by simpa using hb), go_step] at h
      split
      · rename_i hc; rw [if_pos hc] at h; exact ih _ _ hs.2 h
      · rename_i hc
        rw [if_neg hc] at h
        split
        · rename_i hc; rw [if_pos hc] at h; exact ih _ _ hs.2 h
        · rename_i hc
          rw [if_neg hc] at h
          split
          · rename_i hc; rw [if_pos hc] at h; exact ih _ _ hs.2 h
          · rename_i hc
            rw [if_neg hc] at h
            cases cur with
            | key k =>
              dsimp only at h ⊢
              cases hg : Dict.get? d k with
              | none => rfl
              | some vs => rw [hg] at h; exact ih _ _ hs.2 h
            | name => rfl
            | url => rfl
            | none => rfl

/-- The end of an open part: the last author and a line that starts nothing. -/
def AfterAuthor (ls : List Str) : Prop :=
  ∃ (es : List Entry) (line url stray : Str), ls = es.flatMap Entry.lines ++ [line, url, stray] ∧ (∀ e ∈ es, e.Ok) ∧ (Entry.author line url).Ok ∧ ¬ Starts stray

def OpenStray (ls : List Str) : Prop := AfterAuthor ls ∨ ∃ s, ls = [s] ∧ ¬ Starts s

/-- What is still to come when `KeyError` will be raised. -/
def Todo (cur : Cur) (ls : List Str) : Prop :=
  match cur with
  | .name => ∃ l ls', ls = l :: ls' ∧ OpenStray ls'
  | .url => ∃ l ls', ls = l :: ls' ∧ OpenStray ls'
  | .none => OpenStray ls
  | .key _ => ∃ more ls', ls = more ++ ls' ∧ (∀ l ∈ more, ¬ Starts l) ∧ AfterAuthor ls'

theorem afterAuthor_start (l : Str) (hl : Starts l) (ls : List Str)
    (h : Todo (if keyOf l = "Author".toList then .url else .key (keyOf l)) ls) : AfterAuthor (l :: ls) := by
  by_cases hk : keyOf l = "Author".toList
  · rw [if_pos hk] at h
    have hok : ∀ u, (Entry.author l u).Ok := fun u => ⟨hl, valOf l, by rw [← hk]; exact labelled_self l⟩
    obtain ⟨u, ls', rfl, ⟨es, line, url, stray, rfl, h2, h3, h4⟩ | ⟨s, rfl, h2⟩⟩ := h
    · refine ⟨.author l u :: es, line, url, stray, rfl, ?_, h3, h4⟩
      intro e he
      rcases List.mem_cons.1 he with rfl | he
      · exact hok u
      · exact h2 e he
    · exact ⟨[], l, u, s, rfl, by simp, hok u, h2⟩
  · rw [if_neg hk] at h
    obtain ⟨more, ls', rfl, hm, es, line, url, stray, rfl, h2, h3, h4⟩ := h
    refine ⟨.plain l more :: es, line, url, stray, by simp [Entry.lines], ?_, h3, h4⟩
    intro e he
    rcases List.mem_cons.1 he with rfl | he
    · refine ⟨hl, ?_, hm⟩
      intro k v hkv
      rw [(labelled_unique _ _ _ hkv).1]; exact hk
    · exact h2 e he

theorem parse_key (cur : Cur) (d : Fields) (hd : ∀ k, cur = .key k → Dict.get? d k ≠ none) (ls : List Str) (h : (parseFrom ws cur d ls).1 = .error .key) :
    ∃ pre post, ls = pre ++ post ∧ separator ∉ pre ∧ Todo cur (pre.filter (fun l => l ≠ ['\n'])) := by
  induction ls generalizing cur d with
  | nil => simp [parseFrom] at h
  | cons l ls ih =>
    rw [parseFrom.eq_def, Verif.Props.ProQuestRecords.separator_eq] at h
    dsimp only at h
    split at h
    · cases h
    · rename_i hl
      have hsep : ∀ pre : List Str, separator ∉ pre → separator ∉ l :: pre := by
        intro pre hp
        simp only [List.mem_cons, not_or]
        exact ⟨fun e => hl e.symm, hp⟩
      split at h
      · rename_i hb
        obtain ⟨pre, post, rfl, h2, h3⟩ := ih cur d hd h
        refine ⟨l :: pre, post, rfl, hsep _ h2, ?_⟩
        rw [List.filter_cons_of_neg (by simpa using hb)]
        exact h3
      · rename_i hb
        have hfil : ∀ pre : List Str, (l :: pre).filter (fun l => l ≠ ['\n']) = l :: pre.filter (fun l => l ≠ ['\n']) :=
          fun pre => List.filter_cons_of_pos (by simpa using hb)
        split at h
        · rename_i hc
          subst hc
          obtain ⟨pre, post, rfl, h2, h3⟩ := ih _ _ (by simp) h
          exact ⟨l :: pre, post, rfl, hsep _ h2, by rw [hfil]; exact ⟨_, _, rfl, h3⟩⟩
        · rename_i hc1
          split at h
          · rename_i hc
            subst hc
            obtain ⟨pre, post, rfl, h2, h3⟩ := ih _ _ (by simp) h
            exact ⟨l :: pre, post, rfl, hsep _ h2, by rw [hfil]; exact ⟨_, _, rfl, h3⟩⟩
          · rename_i hc2
            split at h
            · rename_i hst
              rw [starts_iff] at hst
              obtain ⟨pre, post, rfl, h2, h3⟩ := ih _ _ (by
                intro k hk
                split at hk
                · cases hk
                · cases hk; rw [Dict.get?_set, if_pos rfl]; simp) h
              have := afterAuthor_start l hst _ h3
              refine ⟨l :: pre, post, rfl, hsep _ h2, ?_⟩
              rw [hfil]
              cases cur with
              | name => exact absurd rfl hc1
              | url => exact absurd rfl hc2
              | none => exact Or.inl this
              | key k => exact ⟨[], _, rfl, by simp, this⟩
            · rename_i hst
              rw [starts_iff] at hst
              cases cur with
              | name => exact absurd rfl hc1
              | url => exact absurd rfl hc2
              | none =>
                refine ⟨[l], ls, rfl, hsep [] (by simp), ?_⟩
                rw [hfil]
                exact Or.inr ⟨l, rfl, hst⟩
              | key k =>
                dsimp only at h
                cases hg : Dict.get? d k with
                | none => exact absurd hg (hd k rfl)
                | some vs =>
                  rw [hg] at h
                  obtain ⟨pre, post, rfl, h2, more, ls', h4, h5, h6⟩ := ih (.key k) _ (by
                    intro k' hk'; cases hk'; rw [Dict.get?_set, if_pos rfl]; simp) h
                  refine ⟨l :: pre, post, rfl, hsep _ h2, ?_⟩
                  rw [hfil]
                  refine ⟨l :: more, ls', by rw [h4]; rfl, ?_, h6⟩
                  intro x hx
                  rcases List.mem_cons.1 hx with rfl | hx
                  · exact hst
                  · exact h5 x hx

theorem stray_iff (ls : List Str) : (recordParser ws ls).1 = .error .key ↔ Stray ls := by
  constructor
  · intro h
    obtain ⟨pre, post, rfl, h2, name, ls', h3, h4⟩ := parse_key .name [] (by simp) ls h
    rcases h4 with ⟨es, line, url, stray, rfl, h5, h6, h7⟩ | ⟨s, rfl, h5⟩
    · refine ⟨pre, post, name, stray, es ++ [.author line url], rfl, h2, ?_, ?_, ?_, h7⟩
      · refine h3.trans ?_
        simp [Entry.lines]
      · intro e he
        rcases List.mem_append.1 he with he | he
        · exact h5 e he
        · simp only [List.mem_singleton] at he; subst he; exact h6
      · intro e he
        simp at he
        exact ⟨line, url, he.symm⟩
    · exact ⟨pre, post, name, s, [], rfl, h2, h3, by simp, by simp, h5⟩
  · rintro ⟨read, rest, name, stray, es, rfl, h2, h3, h4, h5, h6⟩
    refine go_key_prefix .name [] read rest h2 ?_
    have h3' : read.filter (fun l => l ≠ ['\n']) = name :: (es.flatMap Entry.lines ++ [stray]) := h3
    rw [h3', go_step, if_pos rfl]
    have hlast : ∀ d, go ws .none d [stray] = .error .key := by
      intro d
      rw [go_step, if_neg (by simp), if_neg (by simp), if_neg (by rw [starts_iff]; exact h6)]
    rcases List.eq_nil_or_concat es with rfl | ⟨es', e, rfl⟩
    · exact hlast _
    · obtain ⟨line, url, rfl⟩ := h5 e (by simp)
      have hall : ∀ es : List Entry, (∀ e ∈ es, e.Ok) → ∃ facts, List.Forall₂ (Entry.Says ws) es facts := by
        intro es
        induction es with
        | nil => exact fun _ => ⟨[], .nil⟩
        | cons e es ih =>
          intro he
          obtain ⟨fs, hfs⟩ := ih fun x hx => he x (List.mem_cons_of_mem _ hx)
          cases e with
          | plain first more => exact ⟨_, .cons (.plain first more _ _ (labelled_self first)) hfs⟩
          | author line url =>
            obtain ⟨_, v, hv⟩ := he (.author line url) (by simp)
            exact ⟨_, .cons (.author line url v hv) hfs⟩
      have hes' : ∀ e ∈ es', e.Ok := fun e he => h4 e (by simp [he])
      obtain ⟨facts, hf⟩ := hall es' hes'
      obtain ⟨c, hc, he⟩ := go_entries (ws := ws) .none ⟨by simp, by simp⟩ (Dict.set [] "Name".toList [Str.rstrip ws name]) es' hes' facts hf ([line, url] ++ [stray])
      rw [show (es'.concat (Entry.author line url)).flatMap Entry.lines ++ [stray] = es'.flatMap Entry.lines ++ ([line, url] ++ [stray]) by simp [Entry.lines], he]
      obtain ⟨hst, v, hv⟩ := h4 (.author line url) (by simp)
      obtain ⟨hk, _⟩ := labelled_unique _ _ _ hv
      show go ws c _ (line :: url :: [stray]) = _
      rw [go_start c hc _ line hst, if_pos hk.symm, go_step, if_neg (by simp), if_pos rfl]
      exact hlast _

end stray

theorem body_all (index : List (Int × Str)) (recs : List Rec) (ls : List Str) :
    ∃ (docs : List Document) (fss : List Fields) (rest : List Str), ls = docs.flatMap Document.lines ++ rest ∧
      List.Forall₂ (Document.Good ws toInt index) docs fss ∧
      ((∃ tail, rest = "Bibliography\n".toList :: tail ∧ bodyFrom ws toInt (namesOf [] index) recs ls = .done (recs ++ fss.map mkRec) none) ∨
       (∃ e more, StopsAt ws toInt index rest e more ∧ bodyFrom ws toInt (namesOf [] index) recs ls = .done (recs ++ fss.map mkRec ++ more) (some e)) ∨
       (RaisesAt ws toInt index rest ∧ bodyFrom ws toInt (namesOf [] index) recs ls = .raised)) := by
  have hget : ∀ n, (namesOf [] index).get? n = titleIn index n := by
    intro n; rw [get_names]; simp [Dict.get?_nil]
  fun_induction bodyFrom ws toInt (namesOf [] index) recs ls with
  | case1 recs => exact ⟨[], [], [], rfl, .nil, Or.inr (Or.inl ⟨_, _, .ended, by simp⟩)⟩
  | case2 recs ls => exact ⟨[], [], _, rfl, .nil, Or.inl ⟨_, rfl, by simp⟩⟩
  | case3 recs l ls hl hd hn =>
    refine ⟨[], [], _, rfl, .nil, Or.inr (Or.inl ⟨_, _, .number _ _ (List.isPrefixOf_iff_prefix.1 hd) ?_, by simp⟩)⟩
    intro n h
    rw [documentLine_iff, hn] at h
    cases h.2
  | case4 recs l ls hl hd n hn hp =>
    refine ⟨[], [], _, rfl, .nil, Or.inr (Or.inl ⟨_, _, .cut _ _ n ((documentLine_iff _ _).2 ⟨hd, hn⟩) ?_ ?_, by simp⟩)⟩
    · exact parse_stop_sep .name [] ls hp
    · intro hs
      rw [(stray_iff ls).2 hs] at hp
      cases hp
  | case5 recs l ls hl hd n hn hp =>
    exact ⟨[], [], _, rfl, .nil, Or.inr (Or.inr ⟨.record _ _ n ((documentLine_iff _ _).2 ⟨hd, hn⟩) ((stray_iff ls).1 hp), rfl⟩)⟩
  | case6 recs l ls hl hd n hn fs hp hg =>
    obtain ⟨body, e, hr⟩ := (reads_iff ls (recordParser ws ls).2 fs).1 (Prod.ext hp rfl)
    rw [hget] at hg
    refine ⟨[], [], _, rfl, .nil, Or.inr (Or.inr ⟨?_, rfl⟩)⟩
    rw [e]
    exact .number _ _ _ n fs ((documentLine_iff _ _).2 ⟨hd, hn⟩) hr hg
  | case7 recs l ls hl hd n hn fs hp t hg ht hr0 =>
    obtain ⟨body, e, hr⟩ := (reads_iff ls (recordParser ws ls).2 fs).1 (Prod.ext hp rfl)
    rw [hr0] at e
    rw [hget] at hg
    obtain ⟨more, hm⟩ := (titleOf_iff _ _).1 ht
    refine ⟨[], [], _, rfl, .nil, Or.inr (Or.inl ⟨.caught, [mkRec fs], ?_, by simp⟩)⟩
    rw [e]
    exact .last _ _ fs ⟨n, t, more, (documentLine_iff _ _).2 ⟨hd, hn⟩, hr, hg, hm⟩
  | case8 recs l ls hl hd n hn fs hp t hg ht hr0 ih =>
    obtain ⟨body, e, hr⟩ := (reads_iff ls (recordParser ws ls).2 fs).1 (Prod.ext hp rfl)
    rw [hget] at hg
    obtain ⟨more, hm⟩ := (titleOf_iff _ _).1 ht
    obtain ⟨docs, fss, rest', e', hgood, hout⟩ := ih
    refine ⟨⟨l, body, (recordParser ws ls).2.head hr0⟩ :: docs, fs :: fss, rest', ?_, .cons ⟨n, t, more, (documentLine_iff _ _).2 ⟨hd, hn⟩, hr, hg, hm⟩ hgood, ?_⟩
    · have h1 := List.cons_head_tail hr0
      have h2 : ls = body ++ separator :: (recordParser ws ls).2.head hr0 :: (docs.flatMap Document.lines ++ rest') := by
        rw [← e', h1]; exact e
      rw [List.flatMap_cons]
      show l :: ls = l :: ((body ++ [separator, (recordParser ws ls).2.head hr0]) ++ docs.flatMap Document.lines ++ rest')
      congr 1
      simpa using h2
    · simpa using hout
  | case9 recs l ls hl hd n hn fs hp t hg ht =>
    obtain ⟨body, e, hr⟩ := (reads_iff ls (recordParser ws ls).2 fs).1 (Prod.ext hp rfl)
    rw [hget] at hg
    refine ⟨[], [], _, rfl, .nil, Or.inr (Or.inl ⟨.titles, [], ?_, by simp⟩)⟩
    rw [e]
    refine .titles _ _ _ n fs t ((documentLine_iff _ _).2 ⟨hd, hn⟩) hr hg ?_
    intro more hm
    exact ht ((titleOf_iff _ _).2 ⟨more, hm⟩)
  | case10 recs l ls hl hd =>
    refine ⟨[], [], _, rfl, .nil, Or.inr (Or.inl ⟨_, _, .separators _ _ hl ?_, by simp⟩)⟩
    rw [← List.isPrefixOf_iff_prefix]; exact hd

theorem body_good (index : List (Int × Str)) (recs : List Rec) (docs : List Document) (fss : List Fields)
    (h : List.Forall₂ (Document.Good ws toInt index) docs fss) (rest : List Str) :
    bodyFrom ws toInt (namesOf [] index) recs (docs.flatMap Document.lines ++ rest) = bodyFrom ws toInt (namesOf [] index) (recs ++ fss.map mkRec) rest := by
  have hget : ∀ n, (namesOf [] index).get? n = titleIn index n := by
    intro n; rw [get_names]; simp [Dict.get?_nil]
  induction h generalizing recs with
  | nil => simp
  | cons hd hds ih =>
    rename_i d fs docs fss
    obtain ⟨n, t, more, h1, h2, h3, h4⟩ := hd
    obtain ⟨h5, h6⟩ := (documentLine_iff _ _).1 h1
    have hnb : d.head ≠ bibliography := by
      intro e
      rw [List.isPrefixOf_iff_prefix, e] at h5
      exact bib_not_document h5
    have hp : recordParser ws (d.body ++ separator :: d.after :: (docs.flatMap Document.lines ++ rest)) = (.ok fs, d.after :: (docs.flatMap Document.lines ++ rest)) :=
      (reads_iff _ _ _).2 ⟨_, rfl, h2⟩
    have hl : (d :: docs).flatMap Document.lines ++ rest = d.head :: (d.body ++ separator :: d.after :: (docs.flatMap Document.lines ++ rest)) := by
      simp [Document.lines]
    rw [hl, bodyFrom, if_neg hnb, if_pos h5, h6]
    dsimp only
    rw [hp]
    dsimp only
    rw [hget, h3]
    dsimp only
    rw [if_pos ((titleOf_iff _ _).2 ⟨more, h4⟩), if_neg (by simp), List.tail_cons, ih]
    simp

/-! ## The property -/

/-- C73: reading a file returns records and no error exactly when the file has the format: then the records are those of its documents, in order. -/
theorem C73_reads (lines : List Str) (recs : List Rec) :
    proQuestParser ws toInt lines = .done recs none ↔
      ∃ (front : List Str) (index : List (Int × Str)) (docs : List Document) (fss : List Fields) (tail : List Str),
        lines = front ++ docs.flatMap Document.lines ++ "Bibliography\n".toList :: tail ∧ Contents toInt front index ∧
        List.Forall₂ (Document.Good ws toInt index) docs fss ∧ recs = fss.map mkRec := by
  constructor
  · intro h
    unfold proQuestParser at h
    split at h
    · cases h
    · rename_i h12
      split at h
      · cases h
      · rename_i names ls hi
        obtain ⟨entries, blank, gap, index, h1, h2, h3, rfl⟩ := (index_ok _ _ _ _).1 hi
        obtain ⟨docs, fss, rest, e, hg, ⟨tail, rfl, ho⟩ | ⟨er, more, _, ho⟩ | ⟨_, ho⟩⟩ := body_all (ws := ws) (toInt := toInt) index [] ls
        · rw [ho] at h
          cases h
          refine ⟨lines.take 12 ++ entries.flatMap (fun e => [e.1, e.2]) ++ [blank, "Bibliography\n".toList] ++ gap, index, docs, fss, tail, ?_,
            ⟨_, entries, blank, gap, by simp; omega, h1, rfl, h3⟩, hg, by simp⟩
          conv_lhs => rw [← List.take_append_drop 12 lines, h2, e]
          simp
        · rw [ho] at h; cases h
        · rw [ho] at h; cases h
  · rintro ⟨front, index, docs, fss, tail, rfl, ⟨pre, entries, blank, gap, h1, h2, rfl, h3⟩, hg, rfl⟩
    unfold proQuestParser
    rw [if_neg (by simp only [List.length_append]; omega)]
    have hd : (pre ++ entries.flatMap (fun e => [e.1, e.2]) ++ [blank, "Bibliography\n".toList] ++ gap ++ docs.flatMap Document.lines ++ "Bibliography\n".toList :: tail).drop 12
        = entries.flatMap (fun e => [e.1, e.2]) ++ [blank, "Bibliography\n".toList] ++ gap ++ (docs.flatMap Document.lines ++ "Bibliography\n".toList :: tail) := by
      simp only [List.append_assoc]
      rw [List.drop_append_of_le_length (by omega), List.drop_of_length_le (by omega)]
      rfl
    rw [hd, (index_ok [] _ (namesOf [] index) _).2 ⟨entries, blank, gap, index, h2, rfl, h3, rfl⟩]
    dsimp only
    rw [body_good index [] docs fss hg, bodyFrom, if_pos (show "Bibliography\n".toList = bibliography from rfl)]
    simp

/-- C73: the record of a document has the fields of the document. Its id is the first line of the entry `ProQuest document ID`; without that entry the
id is the same for all records and the record is marked as bad. -/
theorem C73_record (fs : Fields) : (mkRec fs).fields = fs ∧
    (∀ v more, Dict.get? fs "ProQuest document ID".toList = some (v :: more) → (mkRec fs).id = "PROQUEST:".toList ++ v ∧ (mkRec fs).bad = false) ∧
    ((∀ v more, Dict.get? fs "ProQuest document ID".toList ≠ some (v :: more)) → (mkRec fs).id = "PROQUEST:MISSING".toList ∧ (mkRec fs).bad = true) := by
  unfold mkRec
  split
  · rename_i v more h
    refine ⟨rfl, fun w m e => ?_, fun hn => absurd h (hn _ _)⟩
    rw [h] at e
    cases e
    exact ⟨rfl, rfl⟩
  · rename_i h
    exact ⟨rfl, fun w m e => absurd e (h _ _), fun _ => ⟨rfl, rfl⟩⟩

/-- C73: what happens to any other file behind a readable table of contents: the documents in front of the first bad one are returned together with an
error, or `KeyError` is raised and nothing is returned. -/
theorem C73_rest (front : List Str) (index : List (Int × Str)) (hf : Contents toInt front index) (ls : List Str) :
    ∃ (docs : List Document) (fss : List Fields) (rest : List Str), ls = docs.flatMap Document.lines ++ rest ∧
      List.Forall₂ (Document.Good ws toInt index) docs fss ∧
      ((∃ tail, rest = "Bibliography\n".toList :: tail ∧ proQuestParser ws toInt (front ++ ls) = .done (fss.map mkRec) none) ∨
       (∃ e more, StopsAt ws toInt index rest e more ∧ proQuestParser ws toInt (front ++ ls) = .done (fss.map mkRec ++ more) (some e)) ∨
       (RaisesAt ws toInt index rest ∧ proQuestParser ws toInt (front ++ ls) = .raised)) := by
  obtain ⟨pre, entries, blank, gap, h1, h2, rfl, h3⟩ := hf
  have : proQuestParser ws toInt (pre ++ entries.flatMap (fun e => [e.1, e.2]) ++ [blank, "Bibliography\n".toList] ++ gap ++ ls) =
      bodyFrom ws toInt (namesOf [] index) [] ls := by
    unfold proQuestParser
    rw [if_neg (by simp only [List.length_append]; omega)]
    have hd : (pre ++ entries.flatMap (fun e => [e.1, e.2]) ++ [blank, "Bibliography\n".toList] ++ gap ++ ls).drop 12
        = entries.flatMap (fun e => [e.1, e.2]) ++ [blank, "Bibliography\n".toList] ++ gap ++ ls := by
      simp only [List.append_assoc]
      rw [List.drop_append_of_le_length (by omega), List.drop_of_length_le (by omega)]
      rfl
    rw [hd, (index_ok [] _ (namesOf [] index) _).2 ⟨entries, blank, gap, index, h2, rfl, h3, rfl⟩]
  rw [this]
  simpa using body_all (ws := ws) (toInt := toInt) index [] ls

/-- C73: a file whose table of contents cannot be read gives no records and an error. -/
theorem C73_no_contents (lines : List Str) (h : ∀ front ls index, lines = front ++ ls → ¬ Contents toInt front index) :
    proQuestParser ws toInt lines = .done [] (some .caught) := by
  unfold proQuestParser
  split
  · rfl
  · rename_i h12
    split
    · rfl
    · rename_i names ls hi
      obtain ⟨entries, blank, gap, index, h1, h2, h3, rfl⟩ := (index_ok _ _ _ _).1 hi
      exact absurd ⟨_, entries, blank, gap, (by simp; omega : (lines.take 12).length = 12), h1, rfl, h3⟩
        (h (lines.take 12 ++ entries.flatMap (fun e => [e.1, e.2]) ++ [blank, "Bibliography\n".toList] ++ gap) ls index (by
          conv_lhs => rw [← List.take_append_drop 12 lines, h2]
          simp))

/-! ## The set -/

/-- Two records the package takes to be the same: they have one document ID, or both have none and the same values in the same order. -/
def Same (r s : Rec) : Prop :=
  (r.bad = false ∧ s.bad = false ∧ r.id = s.id) ∨ (r.bad = true ∧ s.bad = true ∧ r.fields.map Prod.snd = s.fields.map Prod.snd)

theorem key_iff (r s : Rec) : key r = key s ↔ Same r s := by
  unfold key Same
  cases r.bad <;> cases s.bad <;> simp

theorem addRec_old (rs : List Rec) (r : Rec) (h : ∃ s ∈ rs, Same s r) : addRec rs r = rs := by
  unfold addRec
  rw [if_pos]
  obtain ⟨s, h1, h2⟩ := h
  exact List.any_eq_true.2 ⟨s, h1, by simpa using (key_iff s r).2 h2⟩

theorem addRec_new (rs : List Rec) (r : Rec) (h : ¬ ∃ s ∈ rs, Same s r) : addRec rs r = rs ++ [r] := by
  unfold addRec
  rw [if_neg]
  intro ha
  obtain ⟨s, h1, h2⟩ := List.any_eq_true.1 ha
  exact h ⟨s, h1, (key_iff s r).1 (by simpa using h2)⟩

theorem recordSet_snoc (recs : List Rec) (r : Rec) : recordSet (recs ++ [r]) = addRec (recordSet recs) r := by
  unfold recordSet; rw [List.foldl_append]; rfl

theorem recordSet_nil : recordSet [] = [] := rfl

/-- The set has, for every record that was read, the first one that is the same, and nothing else. -/
theorem recordSet_mem (recs : List Rec) (r : Rec) :
    r ∈ recordSet recs ↔ ∃ before after, recs = before ++ r :: after ∧ ∀ s ∈ before, ¬ Same s r := by
  induction recs using List.reverseRecOn with
  | nil => rw [recordSet_nil]; simp
  | append_singleton recs x ih =>
    have hcov : (∃ s ∈ recordSet recs, Same s x) ↔ ∃ s ∈ recs, Same s x := by
      clear ih
      constructor
      · rintro ⟨s, h1, h2⟩
        refine ⟨s, ?_, h2⟩
        clear h2
        induction recs using List.reverseRecOn with
        | nil => simpa [recordSet_nil] using h1
        | append_singleton recs y ih =>
          rw [recordSet_snoc] at h1
          unfold addRec at h1
          split at h1
          · exact List.mem_append_left _ (ih h1)
          · rcases List.mem_append.1 h1 with h | h
            · exact List.mem_append_left _ (ih h)
            · exact List.mem_append_right _ h
      · rintro ⟨s, h1, h2⟩
        induction recs using List.reverseRecOn with
        | nil => cases h1
        | append_singleton recs y ih =>
          rw [recordSet_snoc]
          by_cases hy : ∃ t ∈ recordSet recs, Same t y
          · rw [addRec_old _ _ hy]
            rcases List.mem_append.1 h1 with h | h
            · exact ih h
            · obtain ⟨t, t1, t2⟩ := hy
              have : s = y := by simpa using h
              subst this
              exact ⟨t, t1, (key_iff _ _).1 (((key_iff _ _).2 t2).trans ((key_iff _ _).2 h2))⟩
          · rw [addRec_new _ _ hy]
            rcases List.mem_append.1 h1 with h | h
            · obtain ⟨t, t1, t2⟩ := ih h
              exact ⟨t, List.mem_append_left _ t1, t2⟩
            · exact ⟨s, List.mem_append_right _ h, h2⟩
    have hstep : r ∈ recordSet (recs ++ [x]) ↔ r ∈ recordSet recs ∨ (r = x ∧ ∀ s ∈ recs, ¬ Same s x) := by
      rw [recordSet_snoc]
      by_cases hx : ∃ s ∈ recordSet recs, Same s x
      · rw [addRec_old _ _ hx]
        refine ⟨Or.inl, fun h => h.resolve_right fun h => ?_⟩
        obtain ⟨s, s1, s2⟩ := hcov.1 hx
        exact h.2 s s1 s2
      · rw [addRec_new _ _ hx, List.mem_append, List.mem_singleton]
        refine or_congr Iff.rfl ⟨fun h => ⟨h, fun s s1 s2 => hx (hcov.2 ⟨s, s1, s2⟩)⟩, fun h => h.1⟩
    rw [hstep, ih]
    constructor
    · rintro (⟨a, b, rfl, h⟩ | ⟨rfl, h⟩)
      · exact ⟨a, b ++ [x], by simp, h⟩
      · exact ⟨recs, [], rfl, h⟩
    · rintro ⟨a, b, e, h⟩
      rcases List.eq_nil_or_concat b with rfl | ⟨b', y, rfl⟩
      · have := List.append_inj' e rfl
        obtain ⟨rfl, e2⟩ := this
        cases e2
        exact Or.inr ⟨rfl, h⟩
      · have e' : recs ++ [x] = (a ++ r :: b') ++ [y] := by rw [e]; simp
        have := List.append_inj' e' rfl
        exact Or.inl ⟨a, b', this.1, h⟩

theorem recordSet_pairwise (recs : List Rec) : (recordSet recs).Pairwise (fun r s => ¬ Same r s) := by
  induction recs using List.reverseRecOn with
  | nil => rw [recordSet_nil]; exact List.Pairwise.nil
  | append_singleton recs x ih =>
    rw [recordSet_snoc]
    by_cases hx : ∃ s ∈ recordSet recs, Same s x
    · rw [addRec_old _ _ hx]; exact ih
    · rw [addRec_new _ _ hx]
      refine List.pairwise_append.2 ⟨ih, List.pairwise_singleton _ _, fun s hs t ht hst => hx ⟨s, hs, ?_⟩⟩
      rw [← List.mem_singleton.1 ht]; exact hst

theorem recordSet_all (recs : List Rec) (h : recs.Pairwise (fun r s => ¬ Same r s)) : recordSet recs = recs := by
  induction recs using List.reverseRecOn with
  | nil => rfl
  | append_singleton recs x ih =>
    obtain ⟨h1, -, h2⟩ := List.pairwise_append.1 h
    rw [recordSet_snoc, ih h1, addRec_new]
    rintro ⟨s, s1, s2⟩
    exact h2 s s1 x (by simp) s2

/-- **C73**: what the caller gets. If a list of records and an error is what reading gives, then the set that is returned has exactly the first
of all records that are the same, no two of its members are the same, and it has all records if no two of them are the same. -/
theorem C73_set (lines : List Str) (recs : List Rec) (e : Option Bad) (h : proQuestParser ws toInt lines = .done recs e) :
    ∃ S, proQuestSet ws toInt lines = some (S, e) ∧
      (∀ r, r ∈ S ↔ ∃ before after, recs = before ++ r :: after ∧ ∀ s ∈ before, ¬ Same s r) ∧
      S.Pairwise (fun r s => ¬ Same r s) ∧ (recs.Pairwise (fun r s => ¬ Same r s) → S = recs) := by
  refine ⟨recordSet recs, ?_, recordSet_mem recs, recordSet_pairwise recs, recordSet_all recs⟩
  unfold proQuestSet
  rw [h]

/-! ## A file with two documents -/

/-- The second loop with a bound on the number of rounds, to compute examples. -/
def bodyBound (ws : Char → Bool) (toInt : Str → Option Int) (names : Dict Int Str) : Nat → List Rec → List Str → Outcome
  | 0, _, _ => .raised
  | _ + 1, recs, [] => .done recs (some .caught)
  | k + 1, recs, l :: ls =>
    if l = bibliography then .done recs none
    else if "Document ".toList.isPrefixOf l then
      match toInt ((Str.split " of ".toList (l.drop 9)).headD []) with
      | none => .done recs (some .caught)
      | some n =>
        match (recordParser ws ls).1 with
        | .error .stop => .done recs (some .caught)
        | .error .key => .raised
        | .ok fs =>
          match Dict.get? names n with
          | none => .raised
          | some t =>
            if titleOf fs = some t then
              if (recordParser ws ls).2 = [] then .done (recs ++ [mkRec fs]) (some .caught)
              else bodyBound ws toInt names k (recs ++ [mkRec fs]) (recordParser ws ls).2.tail
            else .done recs (some .titles)
    else .done recs (some .separators)

theorem bodyBound_eq (names : Dict Int Str) (recs : List Rec) (ls : List Str) (k : Nat) (hk : ls.length < k) :
    bodyFrom ws toInt names recs ls = bodyBound ws toInt names k recs ls := by
  induction k generalizing recs ls with
  | zero => omega
  | succ k ih =>
    cases ls with
    | nil => rw [bodyFrom, bodyBound]
    | cons l ls =>
      rw [bodyFrom, bodyBound]
      have hlen := parseFrom_rest ws .name [] ls
      have hr : ∀ recs, bodyFrom ws toInt names recs (recordParser ws ls).2.tail = bodyBound ws toInt names k recs (recordParser ws ls).2.tail :=
        fun recs => ih recs (recordParser ws ls).2.tail (by simp only [List.length_cons] at hk; rw [List.length_tail]; unfold recordParser; omega)
      simp only [hr]
      congr 2

theorem parser_bound (lines : List Str) : proQuestParser ws toInt lines =
    if lines.length < 12 then .done [] (some .caught)
    else match indexFrom toInt [] (lines.drop 12) with
      | none => .done [] (some .caught)
      | some (names, ls) => bodyBound ws toInt names (ls.length + 1) [] ls := by
  unfold proQuestParser
  congr 1
  cases indexFrom toInt [] (lines.drop 12) with
  | none => rfl
  | some p => exact bodyBound_eq _ _ _ _ (by omega)

def readInt' (s : Str) : Option Int := if s.all isDig && !s.isEmpty then some (Int.ofNat (readNat s)) else none

def exFront : List Str := List.replicate 12 "x\n".toList ++ ["\n".toList, "1. On X. A study\n".toList, "\n".toList, "2. On Y\n".toList, "\n".toList, "Bibliography\n".toList,
  "a\n".toList, "b\n".toList, "c\n".toList]
def exDocs : List Document := [⟨"Document 1 of 2\n".toList, ["\n".toList, "On X\n".toList, "Title: On X. A study\n".toList, "ProQuest document ID: 77\n".toList], "\n".toList⟩,
  ⟨"Document 2 of 2\n".toList, ["On Y\n".toList, "Title: On Y\n".toList], "\n".toList⟩]

theorem ex_reads : proQuestParser (fun c => c == '\n') readInt' (exFront ++ exDocs.flatMap Document.lines ++ ["Bibliography\n".toList]) =
    .done [⟨[("Name".toList, ["On X".toList]), ("Title".toList, ["On X. A study".toList]), ("ProQuest document ID".toList, ["77".toList])], "PROQUEST:77".toList, false⟩,
      ⟨[("Name".toList, ["On Y".toList]), ("Title".toList, ["On Y".toList])], "PROQUEST:MISSING".toList, true⟩] none := by
  rw [parser_bound]; decide +kernel

/-- both records of this file are in the set -/
example : ∃ a b, proQuestSet (fun c => c == '\n') readInt' (exFront ++ exDocs.flatMap Document.lines ++ ["Bibliography\n".toList]) = some ([a, b], none) := by
  obtain ⟨S, h1, -, -, h4⟩ := C73_set _ _ _ ex_reads
  rw [h4 (by simp [Same])] at h1
  exact ⟨_, _, h1⟩

/-- **C73**: two documents with one document ID give one record, the first one, and no error. -/
theorem C73_twin_lost : proQuestSet (fun c => c == '\n') readInt'
    (exFront ++ ["Document 1 of 2\n".toList, "On X\n".toList, "Title: On X. A study\n".toList, "ProQuest document ID: 77\n".toList, separator, "\n".toList,
      "Document 2 of 2\n".toList, "On Y\n".toList, "Title: On Y\n".toList, "ProQuest document ID: 77\n".toList, separator, "\n".toList, "Bibliography\n".toList]) =
    some ([⟨[("Name".toList, ["On X".toList]), ("Title".toList, ["On X. A study".toList]), ("ProQuest document ID".toList, ["77".toList])], "PROQUEST:77".toList, false⟩], none) := by
  unfold proQuestSet; rw [parser_bound]; decide +kernel

/-- so that this file has the format of C73 -/
example : ∃ (front : List Str) (index : List (Int × Str)) (docs : List Document) (fss : List Fields) (tail : List Str),
    exFront ++ exDocs.flatMap Document.lines ++ ["Bibliography\n".toList] = front ++ docs.flatMap Document.lines ++ "Bibliography\n".toList :: tail ∧
    Contents readInt' front index ∧ List.Forall₂ (Document.Good (fun c => c == '\n') readInt' index) docs fss := by
  obtain ⟨a, b, c, d, e, h1, h2, h3, _⟩ := (C73_reads _ _).1 ex_reads
  exact ⟨a, b, c, d, e, h1, h2, h3⟩

/-- A title that ends in a blank is cut in the record but not in the table of contents: the file is refused from there on. -/
theorem C73_trailing_blank : proQuestParser (fun c => c == '\n' || c == ' ') readInt'
    (List.replicate 12 "x\n".toList ++ ["\n".toList, "1. On X \n".toList, "\n".toList, "Bibliography\n".toList, "a\n".toList, "b\n".toList, "c\n".toList,
      "Document 1 of 1\n".toList, "On X \n".toList, "Title: On X \n".toList, separator, "\n".toList, "Bibliography\n".toList]) = .done [] (some .titles) := by
  rw [parser_bound]; decide +kernel

/-- A document whose number is not in the table of contents raises `KeyError`. -/
theorem C73_number_raises : proQuestParser (fun c => c == '\n') readInt'
    (List.replicate 12 "x\n".toList ++ ["\n".toList, "1. On X\n".toList, "\n".toList, "Bibliography\n".toList, "a\n".toList, "b\n".toList, "c\n".toList,
      "Document 2 of 2\n".toList, "On X\n".toList, "Title: On X\n".toList, separator, "\n".toList, "Bibliography\n".toList]) = .raised := by
  rw [parser_bound]; decide +kernel

end Verif.Props.ProQuestFile
