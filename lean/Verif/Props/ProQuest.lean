import Verif.Model.ProQuest
import Verif.Spec.ProQuest

/-!
# C34: ProQuest records
-/
set_option autoImplicit false
set_option linter.unusedSimpArgs false
namespace Verif.Props.ProQuestRecords
open Verif.Py Verif.Spec.ProQuest
open Verif.Model.ProQuest hiding separator

/-! ## Keys and values -/

def keyOf (l : Str) : Str := (Str.split ": ".toList l).headD []
def valOf (l : Str) : Str := Str.join ": ".toList (Str.split ": ".toList l).tail

theorem first_occ (sep s : Str) (hs : sep ≠ []) (h : sep <:+: s) : ∃ p t, s = p ++ sep ++ t ∧ ¬ sep <:+: p ++ sep.dropLast := by
  induction s with
  | nil =>
    obtain ⟨a, b, e⟩ := h
    simp at e
    exact absurd e.2.1 hs
  | cons c s ih =>
    rcases List.infix_cons_iff.1 h with h | h
    · obtain ⟨t, ht⟩ := h
      refine ⟨[], t, by simp [ht], ?_⟩
      intro hi
      have := hi.length_le
      have : 0 < sep.length := List.length_pos_of_ne_nil hs
      simp at *
      omega
    · by_cases hc : sep <+: c :: s
      · obtain ⟨t, ht⟩ := hc
        refine ⟨[], t, by simp [ht], ?_⟩
        intro hi
        have := hi.length_le
        have : 0 < sep.length := List.length_pos_of_ne_nil hs
        simp at *
        omega
      · obtain ⟨p, t, e, hp⟩ := ih h
        refine ⟨c :: p, t, by rw [e]; simp, ?_⟩
        intro hi
        rw [List.cons_append] at hi
        rcases List.infix_cons_iff.1 hi with hi | hi
        · apply hc
          refine hi.trans ⟨[sep.getLast hs] ++ t, ?_⟩
          rw [e]
          have := List.dropLast_append_getLast hs
          conv_rhs => rw [← this]
          simp
        · exact hp hi

theorem labelled_self (l : Str) : Labelled l (keyOf l) (valOf l) := by
  by_cases h : ": ".toList <:+: l
  · obtain ⟨p, t, e, hp⟩ := first_occ ": ".toList l (by simp) h
    left
    have : Str.split ": ".toList l = p :: Str.split ": ".toList t := by
      rw [e]
      unfold Str.split
      rw [Str.splitGo_append _ (by simp) [] p t hp]
      rfl
    unfold keyOf valOf
    rw [this, List.tail_cons, Str.join_split _ _ (by simp)]
    exact ⟨e, hp⟩
  · right
    unfold keyOf valOf
    rw [Str.split_none _ _ h]
    exact ⟨h, rfl, rfl⟩

theorem labelled_unique (l k v : Str) (h : Labelled l k v) : k = keyOf l ∧ v = valOf l := by
  rcases h with ⟨e, hp⟩ | ⟨h, e, e2⟩
  · have : Str.split ": ".toList l = k :: Str.split ": ".toList v := by
      rw [e]
      unfold Str.split
      rw [Str.splitGo_append _ (by simp) [] k v hp]
      rfl
    unfold keyOf valOf
    rw [this, List.tail_cons, Str.join_split _ _ (by simp)]
    exact ⟨rfl, rfl⟩
  · unfold keyOf valOf
    rw [Str.split_none _ _ h, e2]
    exact ⟨e.symm, rfl⟩

/-! ## Blank lines and the separator -/

variable {ws : Char → Bool}

/-- The reader on lines which are neither blank nor the separator. -/
def go (ws : Char → Bool) (cur : Cur) (d : Fields) : List Str → Except PErr Fields
  | [] => .ok d
  | l :: ls =>
    if cur = .name then go ws .none (Dict.set d "Name".toList [Str.rstrip ws l]) ls
    else if cur = .url then go ws .none (Dict.set d "url".toList [Str.rstrip ws l]) ls
    else if ':' ∈ l ∧ ¬ "http://".toList.isPrefixOf l = true then
      go ws (if keyOf l = "Author".toList then .url else .key (keyOf l)) (Dict.set d (keyOf l) [Str.rstrip ws (valOf l)]) ls
    else match cur with
      | .key k =>
        match Dict.get? d k with
        | some vs => go ws cur (Dict.set d k (vs ++ [Str.rstrip ws l])) ls
        | none => .error .key
      | _ => .error .key

theorem go_step (cur : Cur) (d : Fields) (l : Str) (ls : List Str) : go ws cur d (l :: ls) =
    if cur = .name then go ws .none (Dict.set d "Name".toList [Str.rstrip ws l]) ls
    else if cur = .url then go ws .none (Dict.set d "url".toList [Str.rstrip ws l]) ls
    else if ':' ∈ l ∧ ¬ "http://".toList.isPrefixOf l = true then
      go ws (if keyOf l = "Author".toList then .url else .key (keyOf l)) (Dict.set d (keyOf l) [Str.rstrip ws (valOf l)]) ls
    else match cur with
      | .key k =>
        match Dict.get? d k with
        | some vs => go ws cur (Dict.set d k (vs ++ [Str.rstrip ws l])) ls
        | none => .error .key
      | _ => .error .key := by
  rw [go.eq_def]

theorem separator_eq : Verif.Model.ProQuest.separator = separator := rfl

theorem parse_go (cur : Cur) (d : Fields) (ls : List Str) (hs : separator ∉ ls) (rest : List Str) :
    (parseFrom ws cur d (ls ++ separator :: rest)).1 = go ws cur d (ls.filter (fun l => l ≠ ['\n'])) ∧
      ∀ e, (parseFrom ws cur d (ls ++ separator :: rest)).1 = .ok e → (parseFrom ws cur d (ls ++ separator :: rest)).2 = rest := by
  induction ls generalizing cur d with
  | nil => simp [parseFrom, go, separator_eq]
  | cons l ls ih =>
    simp only [List.mem_cons, not_or] at hs
    have ih' := fun cur d => ih cur d hs.2
    rw [List.cons_append, parseFrom.eq_def]
    dsimp only
    rw [separator_eq, if_neg (Ne.symm hs.1)]
    by_cases hb : l = ['\n']
    · subst hb
      rw [if_pos rfl, List.filter_cons_of_neg (by simp)]
      exact ih' cur d
    · rw [if_neg hb, List.filter_cons_of_pos (by simpa using hb), go.eq_def]
      dsimp only
      split
      · exact ih' _ _
      · split
        · exact ih' _ _
        · split
          · exact ih' _ _
          · cases cur with
            | key k =>
              simp only
              cases hg : Dict.get? d k with
              | none => simp
              | some vs => exact ih' _ _
            | name => simp
            | url => simp
            | none => simp

theorem parse_stop (cur : Cur) (d : Fields) (ls : List Str) (hs : separator ∉ ls) (e : Fields) : (parseFrom ws cur d ls).1 ≠ .ok e := by
  induction ls generalizing cur d with
  | nil => simp [parseFrom]
  | cons l ls ih =>
    simp only [List.mem_cons, not_or] at hs
    have ih' := fun cur d => ih cur d hs.2
    rw [parseFrom.eq_def]
    dsimp only
    rw [separator_eq, if_neg (Ne.symm hs.1)]
    split
    · exact ih' _ _
    · split
      · exact ih' _ _
      · split
        · exact ih' _ _
        · split
          · exact ih' _ _
          · split
            · split
              · exact ih' _ _
              · simp
            · simp

/-! ## Entries -/

theorem starts_iff (l : Str) : (':' ∈ l ∧ ¬ "http://".toList.isPrefixOf l = true) ↔ Starts l := by
  unfold Starts; rw [List.isPrefixOf_iff_prefix]

theorem set_set (d : Fields) (k : Str) (v w : List Str) : Dict.set (Dict.set d k v) k w = Dict.set d k w := by
  induction d with
  | nil => simp [Dict.set]
  | cons p d ih =>
    obtain ⟨k', v'⟩ := p
    by_cases h : k' = k
    · subst h; simp [Dict.set]
    · simp only [Dict.set, if_neg h]; rw [ih]

def Open (cur : Cur) : Prop := cur ≠ .name ∧ cur ≠ .url

theorem go_more (d : Fields) (k : Str) (vs : List Str) (more ls : List Str) (hm : ∀ l ∈ more, ¬ Starts l) :
    go ws (.key k) (Dict.set d k vs) (more ++ ls) = go ws (.key k) (Dict.set d k (vs ++ more.map (Str.rstrip ws))) ls := by
  induction more generalizing vs with
  | nil => simp
  | cons l more ih =>
    rw [List.cons_append, go_step, if_neg (by simp), if_neg (by simp), if_neg (by rw [starts_iff]; exact hm l (by simp))]
    simp only [Dict.get?_set, if_true]
    rw [set_set, ih _ (fun x hx => hm x (by simp [hx]))]
    simp

theorem go_start (cur : Cur) (hc : Open cur) (d : Fields) (l : Str) (hl : Starts l) (ls : List Str) :
    go ws cur d (l :: ls) = go ws (if keyOf l = "Author".toList then .url else .key (keyOf l)) (Dict.set d (keyOf l) [Str.rstrip ws (valOf l)]) ls := by
  rw [go_step, if_neg hc.1, if_neg hc.2, if_pos ((starts_iff l).2 hl)]

theorem go_entry (cur : Cur) (hc : Open cur) (d : Fields) (e : Entry) (he : e.Ok) (facts : List (Str × List Str)) (hf : e.Says ws facts) (ls : List Str) :
    ∃ cur', Open cur' ∧ go ws cur d (e.lines ++ ls) = go ws cur' (Dict.update d facts) ls := by
  cases hf with
  | plain first more k v h =>
    obtain ⟨h1, h2, h3⟩ := he
    obtain ⟨rfl, rfl⟩ := labelled_unique _ _ _ h
    refine ⟨.key (keyOf first), ⟨by simp, by simp⟩, ?_⟩
    simp only [Entry.lines]
    rw [List.cons_append, go_start cur hc d first h1, if_neg (h2 _ _ h), go_more d (keyOf first) _ more ls h3]
    rfl
  | author line url v h =>
    obtain ⟨h1, h2⟩ := he
    obtain ⟨hk, rfl⟩ := labelled_unique _ _ _ h
    refine ⟨.none, ⟨by simp, by simp⟩, ?_⟩
    simp only [Entry.lines]
    rw [List.cons_append, go_start cur hc d line h1, if_pos hk.symm, List.cons_append, go_step, if_neg (by simp), if_pos rfl, ← hk]
    rfl

theorem update_append (d e f : Fields) : Dict.update (Dict.update d e) f = Dict.update d (e ++ f) := by
  unfold Dict.update; rw [List.foldl_append]

theorem go_entries (cur : Cur) (hc : Open cur) (d : Fields) (es : List Entry) (he : ∀ e ∈ es, e.Ok) (facts : List (List (Str × List Str)))
    (hf : List.Forall₂ (Entry.Says ws) es facts) (ls : List Str) :
    ∃ cur', Open cur' ∧ go ws cur d (es.flatMap Entry.lines ++ ls) = go ws cur' (Dict.update d facts.flatten) ls := by
  induction hf generalizing cur d with
  | nil => exact ⟨cur, hc, rfl⟩
  | cons h1 h2 ih =>
    rename_i e fs es facts
    obtain ⟨c1, hc1, e1⟩ := go_entry cur hc d e (he e (by simp)) fs h1 (es.flatMap Entry.lines ++ ls)
    obtain ⟨c2, hc2, e2⟩ := ih c1 hc1 (Dict.update d fs) (fun x hx => he x (by simp [hx]))
    refine ⟨c2, hc2, ?_⟩
    rw [List.flatMap_cons, List.append_assoc, e1, e2, update_append, List.flatten_cons]

theorem go_record (r : Record) (hr : r.Ok) (facts : List (Str × List Str)) (hf : r.Says ws facts) : go ws .name [] r.lines = .ok (fields facts) := by
  cases hf with
  | full name entries facts h =>
    unfold Record.lines
    simp only [Option.toList_none]
    rw [List.cons_append, go_step, if_pos rfl]
    obtain ⟨c, hc, e⟩ := go_entries .none ⟨by simp, by simp⟩ (Dict.set [] "Name".toList [Str.rstrip ws name]) entries hr.1 facts h []
    rw [e, go]
    rfl
  | cut name entries facts l v h hl =>
    unfold Record.lines
    simp only [Option.toList_some]
    rw [List.cons_append, go_step, if_pos rfl]
    obtain ⟨c, hc, e⟩ := go_entries .none ⟨by simp, by simp⟩ (Dict.set [] "Name".toList [Str.rstrip ws name]) entries hr.1 facts h [l]
    obtain ⟨hk, rfl⟩ := labelled_unique _ _ _ hl
    rw [e, go_start c hc _ l (hr.2 l rfl).1, go, ← hk]
    unfold fields
    rw [List.cons_append]
    show _ = Except.ok (Dict.update (Dict.set [] "Name".toList [Str.rstrip ws name]) (facts.flatten ++ [("Author".toList, [Str.rstrip ws (valOf l)])]))
    rw [← update_append]
    rfl

/-- The other direction: what the reader accepts from an open state. -/
theorem go_ok (n : Nat) (cur : Cur) (hc : Open cur) (d : Fields) (ls : List Str) (hn : ls.length ≤ n) (e : Fields) (h : go ws cur d ls = .ok e) :
    ∃ (more : List Str) (es : List Entry) (facts : List (List (Str × List Str))) (last : Option Str) (d' : Fields),
      ls = more ++ es.flatMap Entry.lines ++ last.toList ∧ (∀ l ∈ more, ¬ Starts l) ∧ (∀ x ∈ es, x.Ok) ∧ List.Forall₂ (Entry.Says ws) es facts ∧
      (∀ l, last = some l → Starts l ∧ ∃ v, Labelled l "Author".toList v) ∧
      (match cur with
        | .key k => (more = [] ∧ d' = d) ∨ ∃ vs, Dict.get? d k = some vs ∧ d' = Dict.set d k (vs ++ more.map (Str.rstrip ws))
        | _ => more = [] ∧ d' = d) ∧
      e = Dict.update d' (facts.flatten ++ last.toList.map (fun l => (keyOf l, [Str.rstrip ws (valOf l)]))) := by
  induction n generalizing cur d ls with
  | zero =>
    have : ls = [] := List.eq_nil_of_length_eq_zero (by omega)
    subst this
    simp only [go, Except.ok.injEq] at h
    subst h
    refine ⟨[], [], [], none, d, rfl, by simp, by simp, .nil, by simp, ?_, rfl⟩
    cases cur <;> simp
  | succ n ih =>
    cases ls with
    | nil =>
      simp only [go, Except.ok.injEq] at h
      subst h
      refine ⟨[], [], [], none, d, rfl, by simp, by simp, .nil, by simp, ?_, rfl⟩
      cases cur <;> simp
    | cons l ls =>
      simp only [List.length_cons] at hn
      by_cases hl : Starts l
      · rw [go_start cur hc d l hl] at h
        by_cases hk : keyOf l = "Author".toList
        · rw [if_pos hk] at h
          cases ls with
          | nil =>
            simp only [go, Except.ok.injEq] at h
            subst h
            refine ⟨[], [], [], some l, d, rfl, by simp, by simp, .nil, ?_, ?_, rfl⟩
            · intro x hx; cases hx; exact ⟨hl, valOf l, by rw [← hk]; exact labelled_self l⟩
            · cases cur <;> simp
          | cons u ls =>
            rw [go_step, if_neg (by simp), if_pos rfl] at h
            simp only [List.length_cons] at hn
            obtain ⟨more, es, facts, last, d', i1, i2, i3, i4, i5, i6, i7⟩ := ih .none ⟨by simp, by simp⟩ _ ls (by omega) h
            obtain ⟨rfl, rfl⟩ := i6
            have hlab : Labelled l "Author".toList (valOf l) := by rw [← hk]; exact labelled_self l
            refine ⟨[], .author l u :: es, [("Author".toList, [Str.rstrip ws (valOf l)]), ("url".toList, [Str.rstrip ws u])] :: facts, last, d, ?_, by simp, ?_,
              .cons (.author l u _ hlab) i4, i5, ?_, ?_⟩
            · rw [i1]; simp [Entry.lines]
            · intro x hx
              rcases List.mem_cons.1 hx with rfl | hx
              · exact ⟨hl, _, hlab⟩
              · exact i3 x hx
            · cases cur <;> simp
            · rw [i7, hk, List.flatten_cons, List.append_assoc, ← update_append d]
              rfl
        · rw [if_neg hk] at h
          obtain ⟨more, es, facts, last, d', i1, i2, i3, i4, i5, i6, i7⟩ := ih (.key (keyOf l)) ⟨by simp, by simp⟩ _ ls (by omega) h
          have hd' : d' = Dict.set d (keyOf l) (Str.rstrip ws (valOf l) :: more.map (Str.rstrip ws)) := by
            rcases i6 with ⟨rfl, rfl⟩ | ⟨vs, h1, h2⟩
            · rfl
            · simp only [Dict.get?_set, if_true, Option.some.injEq] at h1
              subst h1
              rw [h2, set_set]
              rfl
          refine ⟨[], .plain l more :: es, [(keyOf l, Str.rstrip ws (valOf l) :: more.map (Str.rstrip ws))] :: facts, last, d, ?_, by simp, ?_,
            .cons (.plain l more _ _ (labelled_self l)) i4, i5, ?_, ?_⟩
          · rw [i1]; simp [Entry.lines]
          · intro x hx
            rcases List.mem_cons.1 hx with rfl | hx
            · refine ⟨hl, ?_, i2⟩
              intro k v hkv
              rw [(labelled_unique _ _ _ hkv).1]; exact hk
            · exact i3 x hx
          · cases cur <;> simp
          · rw [i7, hd', List.flatten_cons, List.append_assoc, ← update_append d]
            rfl
      · rw [go_step, if_neg hc.1, if_neg hc.2, if_neg (by rw [starts_iff]; exact hl)] at h
        cases cur with
        | name => simp at h
        | url => simp at h
        | none => simp at h
        | key k =>
          simp only at h
          cases hg : Dict.get? d k with
          | none => rw [hg] at h; simp at h
          | some vs =>
            rw [hg] at h
            simp only at h
            obtain ⟨more, es, facts, last, d', i1, i2, i3, i4, i5, i6, i7⟩ := ih (.key k) hc _ ls (by omega) h
            refine ⟨l :: more, es, facts, last, d', by rw [i1]; rfl, ?_, i3, i4, i5, ?_, i7⟩
            · intro x hx
              rcases List.mem_cons.1 hx with rfl | hx
              · exact hl
              · exact i2 x hx
            · right
              refine ⟨vs, hg, ?_⟩
              rcases i6 with ⟨rfl, rfl⟩ | ⟨ws', h1, h2⟩
              · simp
              · simp only [Dict.get?_set, if_true, Option.some.injEq] at h1
                subst h1
                rw [h2, set_set]
                simp

/-- C34: the fields read from the lines in front of the first separator are exactly those the format gives to them: there are no lines but blank
ones and no fields, or the lines that are not blank form a record and the fields are what it says. -/
theorem C34_reads (ls rest : List Str) (hs : separator ∉ ls) (d : Fields) :
    (recordParser ws (ls ++ separator :: rest)).1 = .ok d ↔
      ((∀ l ∈ ls, l = "\n".toList) ∧ d = []) ∨
      ∃ (r : Record) (facts : List (Str × List Str)), r.lines = ls.filter (fun l => l ≠ "\n".toList) ∧ r.Ok ∧ r.Says ws facts ∧ d = fields facts := by
  unfold recordParser
  rw [(parse_go .name [] ls hs rest).1]
  have hnl : ("\n".toList : Str) = ['\n'] := rfl
  rw [hnl]
  constructor
  · intro h
    cases hb : ls.filter (fun l => l ≠ ['\n']) with
    | nil =>
      left
      rw [hb] at h
      simp only [go, Except.ok.injEq] at h
      refine ⟨?_, h.symm⟩
      intro l hl
      have := List.filter_eq_nil_iff.1 hb l hl
      simpa using this
    | cons name ls' =>
      right
      rw [hb, go_step, if_pos rfl] at h
      obtain ⟨more, es, facts, last, d', i1, i2, i3, i4, i5, i6, i7⟩ := go_ok ls'.length .none ⟨by simp, by simp⟩ _ ls' (le_refl _) d h
      obtain ⟨rfl, rfl⟩ := i6
      cases last with
      | none =>
        refine ⟨⟨name, es, none⟩, _, ?_, ⟨i3, i5⟩, .full name es facts i4, ?_⟩
        · simp [Record.lines, i1]
        · rw [i7]
          simp only [Option.toList_none, List.map_nil, List.append_nil]
          rfl
      | some l =>
        obtain ⟨h1, v, h2⟩ := i5 l rfl
        refine ⟨⟨name, es, some l⟩, _, ?_, ⟨i3, i5⟩, .cut name es facts l v i4 h2, ?_⟩
        · simp [Record.lines, i1]
        · rw [i7]
          obtain ⟨hk, hv⟩ := labelled_unique _ _ _ h2
          simp only [Option.toList_some, List.map_cons, List.map_nil]
          rw [← hk, ← hv]
          rfl
  · rintro (⟨h, rfl⟩ | ⟨r, facts, h1, h2, h3, rfl⟩)
    · have : ls.filter (fun l => l ≠ ['\n']) = [] := by
        apply List.filter_eq_nil_iff.2
        intro l hl
        simpa using h l hl
      rw [this]
      rfl
    · rw [← h1]
      exact go_record r h2 facts h3

/-- C34: reading stops exactly at the separator: the lines behind it are left, and without one there is no record. -/
theorem C34_stops (ls rest : List Str) (hs : separator ∉ ls) (d : Fields) :
    ((recordParser ws (ls ++ separator :: rest)).1 = .ok d → (recordParser ws (ls ++ separator :: rest)).2 = rest) ∧
      (recordParser ws ls).1 ≠ .ok d :=
  ⟨(parse_go .name [] ls hs rest).2 d, parse_stop .name [] ls hs d⟩

/-! ## Non-vacuity -/

def exRecord : Record := ⟨"On X\n".toList, [.plain "Title: On: X\n".toList [], .author "Author: A, B\n".toList "https://x\n".toList,
  .plain "Abstract: First\n".toList ["second\n".toList, "http://a:b\n".toList]], none⟩

theorem exOk : exRecord.Ok := by
  have hst : ∀ l, Starts l ↔ (':' ∈ l ∧ "http://".toList.isPrefixOf l = false) := by
    intro l; rw [← starts_iff, Bool.not_eq_true]
  refine ⟨?_, by intro l h; simp [exRecord] at h⟩
  intro e he
  simp only [exRecord, List.mem_cons, List.not_mem_nil, or_false] at he
  rcases he with rfl | rfl | rfl
  · refine ⟨(hst _).2 (by decide), ?_, by simp⟩
    intro k v h
    rw [(labelled_unique _ _ _ h).1]; decide +kernel
  · exact ⟨(hst _).2 (by decide), "A, B\n".toList, Or.inl ⟨by decide, by rw [← Str.contains_iff]; decide⟩⟩
  · refine ⟨(hst _).2 (by decide), ?_, ?_⟩
    · intro k v h
      rw [(labelled_unique _ _ _ h).1]; decide +kernel
    · intro l hl
      rw [hst]
      revert l
      decide

/-- What that record is read as, with blank lines and further lines after it. -/
example : recordParser (fun c => c == '\n') (["\n".toList] ++ exRecord.lines ++ ["\n".toList, separator, "Document 2\n".toList])
    = (.ok [("Name".toList, ["On X".toList]), ("Title".toList, ["On: X".toList]), ("Author".toList, ["A, B".toList]), ("url".toList, ["https://x".toList]),
        ("Abstract".toList, ["First".toList, "second".toList, "http://a:b".toList])], ["Document 2\n".toList]) := by decide +kernel

/-- A line of text with a colon is taken for the start of an entry, so it is no part of the value it belongs to (a remark on the format). -/
theorem C34_colon_in_text : (recordParser (fun c => c == '\n') (["N\n".toList, "Abstract: We met\n".toList, "at 12:30\n".toList, separator])).1
    = .ok [("Name".toList, ["N".toList]), ("Abstract".toList, ["We met".toList]), ("at 12:30\n".toList, [[]])] := by decide +kernel

/-- A second line that starts no entry raises `KeyError`. -/
theorem C34_key_error : (recordParser (fun c => c == '\n') (["N\n".toList, "continued\n".toList, separator])).1 = .error .key := by decide +kernel

end Verif.Props.ProQuestRecords
