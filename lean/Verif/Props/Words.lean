import Verif.Model.Tables
import Verif.Spec.Words
import Verif.Props.Bib

/-!
# C27 and C57: what the cleaning options do to the words of a text
-/
set_option autoImplicit false
set_option linter.unusedSimpArgs false
namespace Verif.Props.Words
open Verif.Py Verif.Model.Tables Verif.Spec.Words

theorem spaced_eq (l : List Str) : spaced l = Str.join [' '] l := by
  induction l with
  | nil => rfl
  | cons w l ih =>
    cases l with
    | nil => rfl
    | cons v l => simp [spaced, Str.join, ih]

theorem collapse_run (space : Char → Bool) (r s : Str) (hr : ∀ c ∈ r, space c = true) :
    collapse space true (r ++ s) = collapse space true s := by
  induction r with
  | nil => rfl
  | cons c r ih =>
    rw [List.cons_append, collapse, if_pos (hr c (by simp)), if_pos rfl, ih (fun c hc => hr c (by simp [hc]))]

theorem collapse_word (space : Char → Bool) (w s : Str) (b : Bool) (hw : ∀ c ∈ w, space c = false) :
    collapse space b (w ++ s) = w ++ collapse space (if w = [] then b else false) s := by
  induction w generalizing b with
  | nil => rfl
  | cons c w ih =>
    rw [List.cons_append, collapse, if_neg (by rw [hw c (by simp)]; simp), ih false (fun c hc => hw c (by simp [hc]))]
    simp

/-- A text whose first word is not empty, or which is empty, is cut alike in a run of white space. -/
theorem collapse_flag (space : Char → Bool) (s : Str) (v : Str) (l : List Str) (h : Words space s (v :: l)) (hv : v ≠ [] ∨ l = []) (b : Bool) :
    collapse space b s = collapse space false s := by
  cases h with
  | last _ hw =>
    have := collapse_word space s [] b hw
    have h2 := collapse_word space s [] false hw
    rw [List.append_nil] at this h2
    rw [this, h2]
    simp [collapse]
  | more _ r s v' l hw hr hrs hv' hs =>
    have hne : v ≠ [] := by
      rcases hv with h | h
      · exact h
      · simp at h
    rw [List.append_assoc, collapse_word space v _ b hw, collapse_word space v _ false hw, if_neg hne, if_neg hne]

theorem collapse_words (space : Char → Bool) (s : Str) (ws : List Str) (h : Words space s ws) : collapse space false s = spaced ws := by
  induction h with
  | last w hw =>
    have := collapse_word space w [] false hw
    rw [List.append_nil] at this
    rw [this]
    simp [collapse, spaced]
  | more w r s v l hw hr hrs hv hs ih =>
    rw [List.append_assoc, collapse_word space w _ false hw]
    cases r with
    | nil => exact absurd rfl hr
    | cons c r =>
      have : (if w = [] then false else false) = false := by split <;> rfl
      rw [this, List.cons_append, collapse, if_pos (hrs c (by simp)), if_neg (by simp),
        collapse_run space r s (fun c hc => hrs c (by simp [hc])), collapse_flag space s v l hs hv, ih]
      rfl

theorem words_ne_nil (space : Char → Bool) (s : Str) (ws : List Str) (h : Words space s ws) : ws ≠ [] := by cases h <;> simp

theorem words_noSpace (space : Char → Bool) (s : Str) (ws : List Str) (h : Words space s ws) : ∀ w ∈ ws, ∀ c ∈ w, space c = false := by
  induction h with
  | last w hw => simpa using hw
  | more w r s v l hw hr hrs hv hs ih =>
    intro x hx
    rcases List.mem_cons.1 hx with rfl | hx
    · exact hw
    · exact ih x hx

/-- Every text is made of words. -/
theorem words_exist (space : Char → Bool) (s : Str) : ∃ ws, Words space s ws := by
  induction s with
  | nil => exact ⟨[[]], .last [] (by simp)⟩
  | cons c s ih =>
    obtain ⟨ws, h⟩ := ih
    by_cases hc : space c = true
    · -- a white space character in front
      cases h with
      | last w hw => exact ⟨[[], s], Words.more [] [c] s s [] (by simp) (by simp) (by simpa using hc) (Or.inr rfl) (.last s hw)⟩
      | more w r s v l hw hr hrs hv hs =>
        by_cases hne : w = []
        · subst hne
          have := Words.more [] (c :: r) s v l (by simp) (by simp) (by
            intro x hx; rcases List.mem_cons.1 hx with rfl | hx
            · exact hc
            · exact hrs x hx) hv hs
          exact ⟨_, this⟩
        · exact ⟨_, Words.more [] [c] _ w (v :: l) (by simp) (by simp) (by simpa using hc) (Or.inl hne) (.more w r s v l hw hr hrs hv hs)⟩
    · have hc : space c = false := by simpa using hc
      cases h with
      | last w hw =>
        refine ⟨[c :: s], .last (c :: s) ?_⟩
        intro x hx
        rcases List.mem_cons.1 hx with rfl | hx
        · exact hc
        · exact hw x hx
      | more w r s v l hw hr hrs hv hs =>
        refine ⟨_, Words.more (c :: w) r s v l ?_ hr hrs hv hs⟩
        intro x hx
        rcases List.mem_cons.1 hx with rfl | hx
        · exact hc
        · exact hw x hx

/-! ## Dropping words -/

theorem join_splitGo_acc (sep new : Str) (k : Nat) (acc s : Str) :
    Str.join new (Str.splitGo sep k acc s) = acc ++ Str.join new (Str.splitGo sep k [] s) := by
  induction s generalizing k acc with
  | nil => simp [Str.splitGo, Str.join]
  | cons c s ih =>
    cases k with
    | succ k => exact ih k acc
    | zero =>
      rw [Str.splitGo, Str.splitGo]
      by_cases h : sep.isPrefixOf (c :: s) = true
      · rw [if_pos h, if_pos h, Str.join_cons _ _ _ (Str.splitGo_ne_nil _ _ _ _), Str.join_cons _ _ _ (Str.splitGo_ne_nil _ _ _ _)]
        simp
      · rw [if_neg h, if_neg h, ih, ih 0 ([] ++ [c])]
        simp

theorem replace_hit (sep new s : Str) (hs : sep ≠ []) : Str.replace sep new (sep ++ s) = new ++ Str.replace sep new s := by
  unfold Str.replace Str.split
  rw [Str.splitGo_sep sep hs, Str.join_cons _ _ _ (Str.splitGo_ne_nil _ _ _ _)]
  simp

theorem replace_miss (sep new s : Str) (c : Char) (h : ¬ sep <+: c :: s) : Str.replace sep new (c :: s) = c :: Str.replace sep new s := by
  unfold Str.replace Str.split
  rw [Str.splitGo, if_neg (by rwa [List.isPrefixOf_iff_prefix]), join_splitGo_acc]
  rfl

theorem replace_nil (sep new : Str) : Str.replace sep new [] = [] := rfl

theorem replace_word (d new w s : Str) (hw : ' ' ∉ w) :
    Str.replace ([' '] ++ d ++ [' ']) new (w ++ s) = w ++ Str.replace ([' '] ++ d ++ [' ']) new s := by
  induction w with
  | nil => rfl
  | cons c w ih =>
    show Str.replace _ new (c :: (w ++ s)) = c :: (w ++ _)
    rw [replace_miss, ih (fun h => hw (by simp [h]))]
    · rintro ⟨t, ht⟩
      simp at ht
      exact hw (by simp [← ht.1])

/-- The words each followed by a space. -/
def trail (ws : List Str) : Str := ws.flatMap (fun w => w ++ [' '])

theorem word_eq {d w t u : Str} (hd : ' ' ∉ d) (hw : ' ' ∉ w) (h : d ++ ' ' :: t = w ++ ' ' :: u) : d = w ∧ t = u := by
  induction d generalizing w with
  | nil =>
    cases w with
    | nil => simpa using h
    | cons c w => simp at h; exact absurd h.1 (fun e => hw (by simp [← e]))
  | cons a d ih =>
    cases w with
    | nil => simp at h; exact absurd h.1 (fun e => hd (by simp [e]))
    | cons c w =>
      simp only [List.cons_append, List.cons.injEq] at h
      obtain ⟨e, f⟩ := ih (fun x => hd (by simp [x])) (fun x => hw (by simp [x])) h.2
      exact ⟨by rw [h.1, e], f⟩

theorem replace_trail (d : Str) (hd : ' ' ∉ d) (n : Nat) (ws : List Str) (hn : ws.length ≤ n) (hw : ∀ w ∈ ws, ' ' ∉ w) :
    Str.replace ([' '] ++ d ++ [' ']) [' '] (' ' :: trail ws) = ' ' :: trail (dropped d ws) := by
  induction n generalizing ws with
  | zero =>
    have : ws = [] := List.length_eq_zero_iff.1 (by omega)
    subst this
    rw [replace_miss]
    · rfl
    · rintro ⟨t, ht⟩
      have := congrArg List.length ht
      simp [trail] at this
  | succ n ih =>
    cases ws with
    | nil => exact ih [] (by simp) (by simp)
    | cons w r =>
      have hw1 := hw w (by simp)
      by_cases e : w = d
      · have e1 : (' ' :: trail (w :: r) : Str) = ([' '] ++ d ++ [' ']) ++ trail r := by simp [trail, e]
        rw [e1, replace_hit _ _ _ (by simp)]
        cases r with
        | nil => simp [trail, dropped, e, replace_nil]
        | cons v l =>
          have : trail (v :: l) = v ++ ' ' :: trail l := by simp [trail]
          rw [this, replace_word _ _ _ _ (hw v (by simp)), ih l (by simp at hn; omega) (fun x hx => hw x (by simp [hx]))]
          simp [dropped, e, trail]
      · have h1 : (' ' :: trail (w :: r) : Str) = ' ' :: (w ++ ' ' :: trail r) := by simp [trail]
        rw [h1, replace_miss, replace_word _ _ _ _ hw1, ih r (by simpa using hn) (fun x hx => hw x (by simp [hx]))]
        · cases r with
          | nil => simp [dropped, e, trail]
          | cons v l => simp [dropped, e, trail]
        · rintro ⟨t, ht⟩
          have : d ++ ' ' :: t = w ++ ' ' :: trail r := by simpa using ht
          exact e (word_eq hd hw1 this).1.symm

theorem dropped_sub (d : Str) (n : Nat) (ws : List Str) (hn : ws.length ≤ n) : ∀ w ∈ dropped d ws, w ∈ ws := by
  induction n generalizing ws with
  | zero =>
    have : ws = [] := List.length_eq_zero_iff.1 (by omega)
    subst this; simp [dropped]
  | succ n ih =>
    match ws, hn with
    | [], _ => simp [dropped]
    | [w], _ => unfold dropped; split <;> simp
    | w :: v :: l, hn =>
      unfold dropped
      intro x hx
      split at hx
      · rcases List.mem_cons.1 hx with rfl | hx
        · simp
        · have := ih l (by simp at hn; omega) x hx; simp [this]
      · rcases List.mem_cons.1 hx with rfl | hx
        · simp
        · have := ih (v :: l) (by simp at hn ⊢; omega) x hx
          exact List.mem_cons_of_mem _ this

theorem dropAll_trail (l : List Str) (hl : ∀ d ∈ l, ' ' ∉ d) (ws : List Str) (hw : ∀ w ∈ ws, ' ' ∉ w) :
    dropAll l (' ' :: trail ws) = ' ' :: trail (l.foldl (fun ws d => dropped d ws) ws) := by
  induction l generalizing ws with
  | nil => rfl
  | cons d l ih =>
    have hstep : (if Str.contains ([' '] ++ d ++ [' ']) (' ' :: trail ws) then Str.replace ([' '] ++ d ++ [' ']) [' '] (' ' :: trail ws)
        else (' ' :: trail ws)) = ' ' :: trail (dropped d ws) := by
      rw [← replace_trail d (hl d (by simp)) ws.length ws (Nat.le_refl _) hw]
      split
      · rfl
      · rename_i h
        unfold Str.replace
        rw [Str.split_none _ _ (fun hi => h ((Str.contains_iff _ _).2 hi))]
        rfl
    have : dropAll (d :: l) (' ' :: trail ws) = dropAll l (if Str.contains ([' '] ++ d ++ [' ']) (' ' :: trail ws) then
        Str.replace ([' '] ++ d ++ [' ']) [' '] (' ' :: trail ws) else (' ' :: trail ws)) := rfl
    rw [this, hstep, ih (fun x hx => hl x (by simp [hx])) _ (fun x hx => hw x (dropped_sub d _ ws (Nat.le_refl _) x hx))]
    rfl

theorem trail_spaced (ws : List Str) (h : ws ≠ []) : trail ws = spaced ws ++ [' '] := by
  induction ws with
  | nil => exact absurd rfl h
  | cons w l ih =>
    cases l with
    | nil => simp [trail, spaced]
    | cons v l =>
      have := ih (by simp)
      simp only [trail, List.flatMap_cons] at this ⊢
      rw [this]
      simp [spaced]

theorem trail_back (ws : List Str) : (trail ws).dropLast = spaced ws := by
  by_cases h : ws = []
  · subst h; rfl
  · rw [trail_spaced ws h, List.dropLast_concat]

theorem drop_words (l : List Str) (hl : ∀ d ∈ l, ' ' ∉ d) (ws : List Str) (hne : ws ≠ []) (hw : ∀ w ∈ ws, ' ' ∉ w) :
    ((dropAll l ([' '] ++ spaced ws ++ [' '])).drop 1).dropLast = spaced (l.foldl (fun ws d => dropped d ws) ws) := by
  have : ([' '] ++ spaced ws ++ [' '] : Str) = ' ' :: trail ws := by rw [trail_spaced ws hne]; simp
  rw [this, dropAll_trail l hl ws hw]
  simp only [List.drop_succ_cons, List.drop_zero]
  exact trail_back _

/-! ## Cleaning the words -/

/-- `lower` works word by word: this is so of `str.lower`, whose only rule that looks at neighbouring characters stops at a space. -/
def WordByWord (lower : Str → Str) : Prop :=
  (∀ a b, lower (a ++ ' ' :: b) = lower a ++ ' ' :: lower b) ∧ ∀ a, ' ' ∉ a → ' ' ∉ lower a

theorem lower_spaced (lower : Str → Str) (h : WordByWord lower) (ws : List Str) (hne : ws ≠ []) : lower (spaced ws) = spaced (ws.map lower) := by
  induction ws with
  | nil => exact absurd rfl hne
  | cons w l ih =>
    cases l with
    | nil => rfl
    | cons v l =>
      have := ih (by simp)
      simp only [spaced, List.map_cons] at this ⊢
      rw [h.1, this]

theorem dropOther_spaced (ch : Chars) (n w : Bool) (ws : List Str) (hs : ∀ x ∈ ws, ' ' ∉ x) :
    dropOther ch n w (spaced ws) = spaced (ws.map (cleaned ch.digit ch.word n w)) := by
  have hword : ∀ x : Str, ' ' ∉ x → x.filter (fun c => c == ' ' || !((n && ch.digit c) || (w && !ch.word c))) = cleaned ch.digit ch.word n w x := by
    intro x hx
    unfold cleaned
    refine List.filter_congr (fun c hc => ?_)
    have : (c == ' ') = false := by
      rw [beq_eq_false_iff_ne]; rintro rfl; exact hx hc
    rw [this, Bool.false_or, Bool.not_or]
  induction ws with
  | nil => rfl
  | cons x l ih =>
    cases l with
    | nil => simpa [spaced, dropOther] using hword x (hs x (by simp))
    | cons v l =>
      have := ih (fun y hy => hs y (by simp [hy]))
      simp only [spaced, List.map_cons, dropOther, List.filter_append, List.filter_cons] at this ⊢
      rw [this, hword x (hs x (by simp))]
      simp

theorem cleaned_noSpace (dg wd : Char → Bool) (n w : Bool) (x : Str) (h : ' ' ∉ x) : ' ' ∉ cleaned dg wd n w x :=
  fun hm => h (List.mem_filter.1 hm).1

/-- What becomes of one word. -/
def word (ch : Chars) (lower numbers nonWords : Bool) (w : Str) : Str :=
  cleaned ch.digit ch.word numbers nonWords (if lower then ch.lower w else w)

theorem pipeline (ch : Chars) (hl : WordByWord ch.lower) (lo n nw : Bool) (ws : List Str) (hne : ws ≠ []) (hs : ∀ x ∈ ws, ' ' ∉ x) :
    dropOther ch n nw (if lo then ch.lower (spaced ws) else spaced ws) = spaced (ws.map (word ch lo n nw)) ∧
    Str.split [' '] (dropOther ch n nw (if lo then ch.lower (spaced ws) else spaced ws)) = ws.map (word ch lo n nw) := by
  have h1 : dropOther ch n nw (if lo then ch.lower (spaced ws) else spaced ws) = spaced (ws.map (word ch lo n nw)) := by
    cases lo with
    | false =>
      have : word ch false n nw = cleaned ch.digit ch.word n nw := by funext x; simp [word]
      rw [this]
      simpa using dropOther_spaced ch n nw ws hs
    | true =>
      simp only [if_true]
      rw [lower_spaced _ hl _ hne, dropOther_spaced ch n nw _ (by
        intro x hx; obtain ⟨y, hy, rfl⟩ := List.mem_map.1 hx; exact hl.2 _ (hs y hy))]
      have : word ch true n nw = cleaned ch.digit ch.word n nw ∘ ch.lower := by funext x; simp [word]
      rw [this, List.map_map]
  refine ⟨h1, ?_⟩
  rw [h1, spaced_eq, Str.split_join_char _ _ (by simpa using hne)]
  intro p hp
  obtain ⟨y, hy, rfl⟩ := List.mem_map.1 hp
  refine cleaned_noSpace _ _ _ _ _ ?_
  cases lo with
  | false => exact hs y hy
  | true => exact hl.2 _ (hs y hy)

/-- **C27**: with `removeWhitespace` on, and neither `dropList` nor `removeCopyright`, the abstract that is returned is its words, each
lowered if `lower` is set, rid of the characters to be removed and given to the stemmer if there is one, with single spaces between them;
there is no copyright text. -/
theorem C27_abstract_words (ch : Chars) (hsp : ch.space ' ' = true) (hlow : WordByWord ch.lower) (lo n nw : Bool) (st : Option (Str → Str))
    (ab : Str) (ws : List Str) (h : Words ch.space ab ws) :
    abPrep ch ⟨none, lo, n, nw, true, false, st⟩ ab =
      (spaced (ws.map (fun w => st.elim id id (cleaned ch.digit ch.word n nw (if lo then ch.lower w else w)))), []) := by
  have hs : ∀ x ∈ ws, ' ' ∉ x := fun x hx hm => by
    have := words_noSpace _ _ _ h x hx ' ' hm
    rw [hsp] at this; exact absurd this (by simp)
  have hp := pipeline ch hlow lo n nw ws (words_ne_nil _ _ _ h) hs
  unfold abPrep
  simp only [if_true, Bool.false_eq_true, if_false, collapse_words _ _ _ h]
  cases st with
  | none => simp only [hp.1]; rfl
  | some f =>
    simp only [hp.2, List.map_map]
    rw [spaced_eq]
    rfl

/-- Every abstract has such words. -/
theorem C27_every_text_has_words (space : Char → Bool) (s : Str) : ∃ ws, Words space s ws := words_exist space s

/-- **C27**: without `removeCopyright` there is no copyright text. With it, the abstract prepared by `dropList` and `removeWhitespace` is cut
by `findCopyright` (see `C27_copyright_split`); the copyright text is reported as it is and only what comes before it is cleaned. -/
theorem C27_copyright_option (ch : Chars) (o : NlpOpts) (ab : Str) :
    (o.copyright = false → (abPrep ch o ab).2 = []) ∧
    (o.copyright = true → ∀ before statement : Str,
      findCopyright ch.space ch.digit (abPrep ch ⟨o.dropList, false, false, false, o.whitespace, false, none⟩ ab).1 = (before, statement) →
      abPrep ch o ab = ((abPrep ch ⟨none, o.lower, o.numbers, o.nonWords, false, false, o.stemmer⟩ before).1, statement)) := by
  constructor
  · intro h; simp [abPrep, h]
  · intro h before statement he
    have hid : ∀ s : Str, dropOther ch false false s = s := by intro s; simp [dropOther]
    simp only [abPrep, Bool.false_eq_true, if_false, hid] at he
    simp only [abPrep, h, if_true, Bool.false_eq_true, if_false, he]

/-- **C57**: with `removeWhitespace` on and no `dropList`, the words are those of the text, each lowered if `lower` is set, rid of the
characters to be removed and given to the stemmer if there is one. -/
theorem C57_words_exact (ch : Chars) (hsp : ch.space ' ' = true) (hlow : WordByWord ch.lower) (lo n nw cp : Bool) (st : Option (Str → Str))
    (s : Str) (ws : List Str) (h : Words ch.space s ws) :
    burstPrep ch ⟨none, lo, n, nw, true, cp, st⟩ s =
      ws.map (fun w => st.elim id id (cleaned ch.digit ch.word n nw (if lo then ch.lower w else w))) := by
  have hs : ∀ x ∈ ws, ' ' ∉ x := fun x hx hm => by
    have := words_noSpace _ _ _ h x hx ' ' hm
    rw [hsp] at this; exact absurd this (by simp)
  have hp := pipeline ch hlow lo n nw ws (words_ne_nil _ _ _ h) hs
  unfold burstPrep
  simp only [if_true, collapse_words _ _ _ h, hp.2]
  cases st with
  | none => rfl
  | some f => simp only [List.map_map]; rfl

/-- **C57**: a drop list of words takes those words out of the text and leaves all others, apart and in their order, before anything else is
done: one word of the list after the other, as `dropped` says. -/
theorem C57_dropList (ch : Chars) (lo n nw sp cp : Bool) (st : Option (Str → Str)) (l : List Str) (hl : ∀ d ∈ l, ' ' ∉ d)
    (ws : List Str) (hne : ws ≠ []) (hw : ∀ w ∈ ws, ' ' ∉ w) :
    burstPrep ch ⟨some l, lo, n, nw, sp, cp, st⟩ (spaced ws) =
      burstPrep ch ⟨none, lo, n, nw, sp, cp, st⟩ (spaced (l.foldl (fun ws d => dropped d ws) ws)) := by
  unfold burstPrep
  simp only [drop_words l hl ws hne hw]

/-- **C27**: the same for abstracts, whose line breaks become spaces first. -/
theorem C27_dropList (ch : Chars) (lo n nw sp cp : Bool) (st : Option (Str → Str)) (l : List Str) (hl : ∀ d ∈ l, ' ' ∉ d)
    (ab : Str) (ws : List Str) (hne : ws ≠ []) (hw : ∀ w ∈ ws, ' ' ∉ w) (hab : ab.map (fun c => if c = '\n' then ' ' else c) = spaced ws) :
    abPrep ch ⟨some l, lo, n, nw, sp, cp, st⟩ ab =
      abPrep ch ⟨none, lo, n, nw, sp, cp, st⟩ (spaced (l.foldl (fun ws d => dropped d ws) ws)) := by
  have hr : Str.replace ['\n'] [' '] ab = spaced ws := by
    rw [← hab, Verif.Props.Bib.replace_char]
    induction ab with
    | nil => rfl
    | cons c ab ih =>
      rw [List.flatMap_cons, List.map_cons]
      have : ∀ (s : Str), s.flatMap (fun x => if x = '\n' then [' '] else [x]) = s.map (fun c => if c = '\n' then ' ' else c) := by
        intro s
        induction s with
        | nil => rfl
        | cons x s ih => rw [List.flatMap_cons, List.map_cons, ih]; split <;> rfl
      rw [this]
      split <;> rfl
  unfold abPrep
  simp only [hr, drop_words l hl ws hne hw]

/-- **C27, C57**: if no two neighbouring words are both `d`, all of them go and all other words stay. -/
theorem C27_dropped_all (d : Str) (ws : List Str) (h : ∀ a b, ¬ a ++ [d, d] ++ b = ws) : dropped d ws = ws.filter (fun w => w ≠ d) := by
  have : ∀ (n : Nat) (ws : List Str), ws.length ≤ n → (∀ a b, ¬ a ++ [d, d] ++ b = ws) → dropped d ws = ws.filter (fun w => w ≠ d) := by
    intro n
    induction n with
    | zero =>
      intro ws hn _
      have : ws = [] := List.length_eq_zero_iff.1 (by omega)
      subst this; rfl
    | succ n ih =>
      intro ws hn h
      match ws, hn, h with
      | [], _, _ => rfl
      | [w], _, _ => unfold dropped; split <;> simp_all
      | w :: v :: l, hn, h =>
        unfold dropped
        split
        · rename_i e
          subst e
          have hv : v ≠ w := fun e => h [] l (by simp [e])
          rw [ih l (by simp at hn; omega) (fun a b e => h (w :: v :: a) b (by simp [← e]))]
          simp [hv]
        · rename_i e
          rw [ih (v :: l) (by simp at hn ⊢; omega) (fun a b e => h (w :: a) b (by simp [← e]))]
          simp [e]
  exact this ws.length ws (Nat.le_refl _) h

/-- Witness: a text with a run of white space, a number and a mark. -/
example : abPrep ⟨(· == ' '), Char.isAlphanum, Char.isDigit, id⟩ ⟨none, false, true, true, true, false, some List.reverse⟩ "see  the cat4.".toList
    = ("ees eht tac".toList, []) := by decide +kernel
example : Words (· == ' ') "see  the cat4.".toList ["see".toList, "the".toList, "cat4.".toList] :=
  Words.more "see".toList "  ".toList "the cat4.".toList _ _ (by decide) (by decide) (by decide) (by decide)
    (Words.more "the".toList " ".toList "cat4.".toList _ _ (by decide) (by decide) (by decide) (by decide) (Words.last _ (by decide)))
/-- `id` and a lower case map on letters are word by word. -/
example : WordByWord (fun s => s.map Char.toLower) := by
  have key : ∀ c : Char, c.toLower = ' ' → c = ' ' := by
    intro c h
    unfold Char.toLower at h
    split at h
    · rename_i hc
      have hv := congrArg Char.toNat h
      rw [← Char.toNat_val] at hv
      have : (c.val + ('a'.val - 'A'.val)).toNat = 32 := by simpa using hv
      have h1 := hc.1
      have h2 := hc.2
      exfalso
      rw [ge_iff_le, UInt32.le_iff_toNat_le] at h1
      rw [UInt32.le_iff_toNat_le] at h2
      rw [UInt32.toNat_add] at this
      have e1 : ('A'.val).toNat = 65 := rfl
      have e2 : ('Z'.val).toNat = 90 := rfl
      have e3 : ('a'.val - 'A'.val).toNat = 32 := rfl
      rw [e1] at h1; rw [e2] at h2; rw [e3] at this
      omega
    · exact h
  refine ⟨fun a b => by simp, fun a h hm => ?_⟩
  obtain ⟨c, hc, e⟩ := List.mem_map.1 hm
  exact h (key c e ▸ hc)
example : dropped "a".toList ["a".toList, "cat".toList, "a".toList] = ["cat".toList] := by decide +kernel

end Verif.Props.Words
