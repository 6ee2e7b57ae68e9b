import Verif.Model.Tables
import Verif.Spec.Copyright

/-! # C27: the copyright statement of an abstract -/
set_option autoImplicit false
set_option linter.unusedSectionVars false
set_option linter.unusedSimpArgs false
namespace Verif.Props
open Verif.Py Verif.Model.Tables Verif.Spec.Copyright

theorem fourDigits_some (digit : Char → Bool) (rest s m : Str) :
    fourDigits digit rest s = some m ↔
      ∃ a b c d, digit a ∧ digit b ∧ digit c ∧ digit d ∧ m = [a, b, c, d] ++ rest ∧ m <+: s := by
  unfold fourDigits
  split
  · rename_i a b c d t
    constructor
    · intro h
      split at h
      · rename_i hc
        simp only [Bool.and_eq_true, List.isPrefixOf_iff_prefix] at hc
        obtain ⟨⟨⟨⟨h1, h2⟩, h3⟩, h4⟩, h5⟩ := hc
        refine ⟨a, b, c, d, h1, h2, h3, h4, (Option.some.inj h).symm, ?_⟩
        rw [← Option.some.inj h]
        simpa using h5
      · simp at h
    · rintro ⟨a', b', c', d', h1, h2, h3, h4, rfl, h5⟩
      simp only [List.cons_append, List.nil_append, List.cons_prefix_cons] at h5
      obtain ⟨rfl, rfl, rfl, rfl, h6⟩ := h5
      simp [h1, h2, h3, h4, h6]
  · rename_i hs
    simp only [reduceCtorEq, false_iff]
    rintro ⟨a, b, c, d, -, -, -, -, rfl, t, rfl⟩
    exact hs a b c d (rest ++ t) (by simp)

theorem matchElsevier_some (digit : Char → Bool) (s m : Str) :
    matchElsevier digit s = some m ↔
      ∃ a b c d, digit a ∧ digit b ∧ digit c ∧ digit d ∧ m = ". ".toList ++ [a, b, c, d] ++ " Elsevier".toList ∧ m <+: s := by
  unfold matchElsevier
  split
  · rename_i t
    simp only [Option.map_eq_some_iff, fourDigits_some]
    constructor
    · rintro ⟨m', ⟨a, b, c, d, h1, h2, h3, h4, rfl, h5⟩, rfl⟩
      exact ⟨a, b, c, d, h1, h2, h3, h4, by simp, by simpa using h5⟩
    · rintro ⟨a, b, c, d, h1, h2, h3, h4, rfl, h5⟩
      exact ⟨_, ⟨a, b, c, d, h1, h2, h3, h4, rfl, by simpa using h5⟩, by simp⟩
  · rename_i hs
    simp only [reduceCtorEq, false_iff]
    rintro ⟨a, b, c, d, -, -, -, -, rfl, t, rfl⟩
    exact hs _ rfl

theorem matchC_sound (digit : Char → Bool) (s m : Str) (h : matchC digit s = some m) : Dated digit m ∧ m <+: s := by
  unfold matchC at h
  split at h
  · rename_i t
    have ho : ∀ x (u : Str), (optChar x u).1 ++ (optChar x u).2 = u ∧ ((optChar x u).1 = [] ∨ (optChar x u).1 = [x]) := by
      intro x u
      unfold optChar
      split
      · split
        · rename_i hc; subst hc; simp
        · simp
      · simp
    obtain ⟨ho1, ho2⟩ := ho '(' t
    simp only [] at h
    split at h
    · rename_i c u hu
      rw [hu] at ho1
      split at h
      · rename_i hc
        obtain ⟨hp1, hp2⟩ := ho ')' u
        split at h
        · rename_i w hw
          rw [hw] at hp1
          rw [Option.map_eq_some_iff] at h
          obtain ⟨m', hm', rfl⟩ := h
          obtain ⟨a, b, d, e, h1, h2, h3, h4, rfl, h5⟩ := (fourDigits_some _ _ _ _).1 hm'
          obtain ⟨r, rfl⟩ := h5
          constructor
          · have := Dated.c (digit := digit) (decide ((optChar '(' t).1 = ['('])) (decide ((optChar ')' u).1 = [')'])) c a b d e hc h1 h2 h3 h4
            rcases ho2 with o | o <;> rcases hp2 with p | p <;> simp only [o, p] at this ⊢ <;> simpa using this
          · refine ⟨r, ?_⟩
            conv_rhs => rw [← ho1, ← hp1]
            simp
        · simp at h
      · simp at h
    · simp at h
  · simp at h

theorem matchC_complete (digit : Char → Bool) (op cl : Bool) (l a b c d : Char) (hl : l = 'c' ∨ l = 'C') (ha : digit a) (hb : digit b)
    (hc : digit c) (hd : digit d) (t : Str) :
    matchC digit (". ".toList ++ (if op then ['('] else []) ++ [l] ++ (if cl then [')'] else []) ++ [' ', a, b, c, d, ' '] ++ t) ≠ none := by
  have hl1 : l ≠ '(' := by rcases hl with rfl | rfl <;> decide
  cases op <;> cases cl <;> simp [matchC, optChar, hl, hl1, fourDigits, ha, hb, hc, hd]

theorem search_sound (digit : Char → Bool) (s m : Str) (h : searchCopyright digit s = some m) : Dated digit m ∧ m <:+: s := by
  induction s with
  | nil => simp [searchCopyright] at h
  | cons c s ih =>
    rw [searchCopyright] at h
    split at h
    · rename_i m' hm
      obtain rfl := Option.some.inj h
      exact ⟨(matchC_sound _ _ _ hm).1, (matchC_sound _ _ _ hm).2.isInfix⟩
    · split at h
      · rename_i m' hm
        obtain rfl := Option.some.inj h
        obtain ⟨a, b, c, d, h1, h2, h3, h4, rfl, h5⟩ := (matchElsevier_some _ _ _).1 hm
        exact ⟨Dated.elsevier a b c d h1 h2 h3 h4, h5.isInfix⟩
      · have := ih h
        exact ⟨this.1, List.infix_cons this.2⟩

theorem search_complete (digit : Char → Bool) (s m : Str) (hm : Dated digit m) (hs : m <:+: s) : searchCopyright digit s ≠ none := by
  induction s with
  | nil =>
    have := hs.length_le
    cases hm <;> simp at this
  | cons c s ih =>
    rw [searchCopyright]
    split
    · simp
    · rename_i h1
      split
      · simp
      · rename_i h2
        apply ih
        rcases List.infix_cons_iff.1 hs with hp | h
        · exfalso
          cases hm with
          | c op cl l a b e d hl ha hb hc hd =>
            obtain ⟨t, ht⟩ := hp
            rw [← ht] at h1
            exact matchC_complete digit op cl l a b e d hl ha hb hc hd t h1
          | elsevier a b e d ha hb hc hd =>
            rw [(matchElsevier_some _ _ _).2 ⟨a, b, e, d, ha, hb, hc, hd, rfl, hp⟩] at h2
            simp at h2
        · exact h

/-- The marker chosen for a string is a part of it and not empty. -/
theorem splitString_sound (digit : Char → Bool) (s sep : Str) (h : splitString digit s = some sep) : sep ≠ [] ∧ sep <:+: s := by
  unfold splitString at h
  split at h
  · rename_i t ht
    obtain rfl := Option.some.inj h
    have h1 := List.find?_some ht
    have h2 := List.mem_of_find?_eq_some ht
    refine ⟨?_, (Str.contains_iff _ _).1 h1⟩
    rintro rfl
    revert h2
    decide
  · have := search_sound _ _ _ h
    refine ⟨?_, this.2⟩
    rintro rfl
    cases this.1

/-- The pieces before the last occurrence of a marker, and the last. -/
theorem split_last (sep s : Str) (hsep : sep ≠ []) (hin : sep <:+: s) :
    ∃ pre post, s = pre ++ sep ++ post ∧ ¬ sep <:+: post ∧ (Str.split sep s).getLast? = some post ∧
      Str.join sep (Str.split sep s).dropLast = pre := by
  have hj := Str.join_split sep s hsep
  have hp := Str.split_pieces sep s hsep
  generalize hl : Str.split sep s = l at hj hp
  have hne : l ≠ [] := by rw [← hl]; exact Str.split_ne_nil sep s
  have hlen : ∀ p, l ≠ [p] := by
    rintro p rfl
    exact hp p (by simp) (by simp only [Str.join] at hj; rw [hj]; exact hin)
  have key : ∀ (l : List Str), 2 ≤ l.length → ∃ post, l.getLast? = some post ∧ Str.join sep l = Str.join sep l.dropLast ++ sep ++ post := by
    intro l
    induction l with
    | nil => intro h; simp at h
    | cons a l ih =>
      intro h
      match l, ih, h with
      | [b], _, _ => exact ⟨b, rfl, by simp [Str.join]⟩
      | b :: c :: l, ih, _ =>
        obtain ⟨post, h1, h2⟩ := ih (by simp)
        refine ⟨post, by simpa using h1, ?_⟩
        rw [Str.join_cons _ _ _ (by simp), h2]
        rw [show (a :: b :: c :: l).dropLast = a :: (b :: c :: l).dropLast from rfl, Str.join_cons _ _ _ (by simp)]
        simp
  have h2 : 2 ≤ l.length := by
    match l, hne, hlen with
    | [], h, _ => exact absurd rfl h
    | [a], _, h => exact absurd rfl (h a)
    | _ :: _ :: _, _, _ => simp
  obtain ⟨post, h1, h3⟩ := key l h2
  exact ⟨_, post, by rw [← h3, hj], hp post (List.mem_of_getLast? h1), h1, rfl⟩

theorem split_at (ws digit : Char → Bool) (s sep : Str) (h : splitString digit s = some sep) :
    ∃ pre post tail, s = pre ++ sep ++ post ∧ ¬ sep <:+: post ∧ post = Str.rstrip ws post ++ tail ∧ (∀ c ∈ tail, ws c) ∧
      ((∃ r, sep = '.' :: r ∧ findCopyright ws digit s = (pre ++ ['.'], r ++ Str.rstrip ws post)) ∨
       ((∀ r, sep ≠ '.' :: r) ∧ findCopyright ws digit s = (pre, sep ++ Str.rstrip ws post))) := by
  obtain ⟨h1, h2⟩ := splitString_sound digit s sep h
  obtain ⟨pre, post, g1, g2, g3, g4⟩ := split_last sep s h1 h2
  obtain ⟨tail, t1, t2, -⟩ := Str.rstrip_spec ws post
  refine ⟨pre, post, tail, g1, g2, t1, t2, ?_⟩
  unfold findCopyright
  simp only [h, g3, g4, Option.getD_some]
  split
  · rename_i r
    exact Or.inl ⟨r, rfl, rfl⟩
  · rename_i hn
    exact Or.inr ⟨fun r hr => hn r hr, rfl⟩

theorem marker_or_none (digit : Char → Bool) (s : Str) :
    (∀ sep, splitString digit s = some sep →
      (∃ i : Fin phrases.length, sep = (phrases.get i).toList ∧ sep <:+: s ∧ ∀ j < i, ¬ (phrases.get j).toList <:+: s) ∨
      ((∀ p ∈ phrases, ¬ p.toList <:+: s) ∧ Dated digit sep ∧ sep <:+: s)) ∧
    (splitString digit s = none ↔ (∀ p ∈ phrases, ¬ p.toList <:+: s) ∧ ∀ m, Dated digit m → ¬ m <:+: s) := by
  have hph : possibleHits = phrases.map String.toList := rfl
  have hnone : possibleHits.find? (fun t => Str.contains t s) = none ↔ ∀ p ∈ phrases, ¬ p.toList <:+: s := by
    rw [List.find?_eq_none, hph]
    simp only [List.mem_map, forall_exists_index, and_imp, forall_apply_eq_imp_iff₂, Str.contains_iff]
  constructor
  · intro sep h
    unfold splitString at h
    split at h
    · rename_i t ht
      obtain rfl := Option.some.inj h
      left
      obtain ⟨h1, h2⟩ := List.find?_eq_some_iff_getElem.1 ht
      obtain ⟨i, hi, h3, h4⟩ := h2
      have hi' : i < phrases.length := by simpa [hph] using hi
      refine ⟨⟨i, hi'⟩, ?_, (Str.contains_iff _ _).1 h1, ?_⟩
      · rw [← h3]; simp only [hph, List.getElem_map, List.get_eq_getElem]
      · intro j hj hin
        have := h4 j hj
        simp only [hph, List.getElem_map] at this
        rw [(Str.contains_iff _ _).2 (by simpa using hin)] at this
        simp at this
    · rename_i hn
      right
      exact ⟨hnone.1 hn, (search_sound _ _ _ h).1, (search_sound _ _ _ h).2⟩
  · unfold splitString
    split
    · rename_i t ht
      simp only [reduceCtorEq, false_iff, not_and]
      intro hall
      rw [hnone.2 hall] at ht
      simp at ht
    · rename_i hn
      rw [show (∀ p ∈ phrases, ¬ p.toList <:+: s) ↔ True from ⟨fun _ => trivial, fun _ => hnone.1 hn⟩, true_and]
      constructor
      · intro hs m hm hin
        exact search_complete digit s m hm hin hs
      · intro hall
        cases hs : searchCopyright digit s with
        | none => rfl
        | some m => exact absurd (search_sound _ _ _ hs).2 (hall m (search_sound _ _ _ hs).1)

/-- The dated notice that is found is the leftmost. -/
theorem search_left (digit : Char → Bool) (s m : Str) (h : searchCopyright digit s = some m) :
    ∃ a b, s = a ++ m ++ b ∧ ∀ a' m' b', s = a' ++ m' ++ b' → Dated digit m' → a.length ≤ a'.length := by
  induction s with
  | nil => simp [searchCopyright] at h
  | cons c s ih =>
    rw [searchCopyright] at h
    split at h
    · rename_i m' hm
      obtain rfl := Option.some.inj h
      obtain ⟨b, hb⟩ := (matchC_sound _ _ _ hm).2
      exact ⟨[], b, by simpa using hb.symm, fun _ _ _ _ _ => by simp⟩
    · rename_i hC
      split at h
      · rename_i m' hm
        obtain rfl := Option.some.inj h
        obtain ⟨_, _, _, _, _, _, _, _, _, b, hb⟩ := (matchElsevier_some _ _ _).1 hm
        exact ⟨[], b, by simpa using hb.symm, fun _ _ _ _ _ => by simp⟩
      · rename_i hE
        obtain ⟨a, b, h1, h2⟩ := ih h
        refine ⟨c :: a, b, by simp [h1], ?_⟩
        intro a' m' b' hs hm'
        match a', hs with
        | [], hs =>
          exfalso
          cases hm' with
          | c op cl l a b e d hl ha hb hc hd =>
            rw [hs] at hC
            exact matchC_complete digit op cl l a b e d hl ha hb hc hd b' hC
          | elsevier a b e d ha hb hc hd =>
            rw [(matchElsevier_some _ _ _).2 ⟨a, b, e, d, ha, hb, hc, hd, rfl, b', by rw [hs]; rfl⟩] at hE
            simp at hE
        | x :: a', hs =>
          simp only [List.cons_append, List.cons.injEq] at hs
          have := h2 a' m' b' hs.2 hm'
          simpa using this

theorem dated_prefix (digit : Char → Bool) (hsp : digit ' ' = false) (m m' b b' : Str) (hm : Dated digit m) (hm' : Dated digit m')
    (h : m ++ b = m' ++ b') : m = m' := by
  cases hm with
  | c op cl l a1 a2 a3 a4 hl h1 h2 h3 h4 =>
    cases hm' with
    | c op' cl' l' c1 c2 c3 c4 hl' g1 g2 g3 g4 =>
      cases op <;> cases cl <;> cases op' <;> cases cl' <;> rcases hl with rfl | rfl <;> rcases hl' with rfl | rfl <;>
        simp_all
    | elsevier c1 c2 c3 c4 g1 g2 g3 g4 =>
      cases op <;> cases cl <;> simp at h <;> obtain ⟨e1, e2, e3, e4, -⟩ := h <;> simp_all
  | elsevier c1 c2 c3 c4 g1 g2 g3 g4 =>
    cases hm' with
    | c op cl l a1 a2 a3 a4 hl h1 h2 h3 h4 =>
      cases op <;> cases cl <;> simp at h <;> obtain ⟨e1, e2, e3, e4, -⟩ := h <;> simp_all
    | elsevier a1 a2 a3 a4 h1 h2 h3 h4 => simp at h; simp [h]

theorem marker_of_split (digit : Char → Bool) (s sep : Str) (h : splitString digit s = some sep) : Marker digit s sep := by
  have h0 := h
  rcases (marker_or_none digit s).1 sep h with ⟨i, rfl, hin, hf⟩ | ⟨hno, -, -⟩
  · refine Marker.phrase (phrases.take i) (phrases.get i) (phrases.drop (i + 1)) ?_ hin ?_
    · simp
    · intro q hq
      obtain ⟨j, hj, rfl⟩ := List.getElem_of_mem hq
      have hj' : j < i.1 := by simp only [List.length_take] at hj; omega
      simpa using hf ⟨j, by omega⟩ hj'
  · have hp : possibleHits.find? (fun t => Str.contains t s) = none := by
      rw [List.find?_eq_none, show possibleHits = phrases.map String.toList from rfl]
      simpa only [List.mem_map, forall_exists_index, and_imp, forall_apply_eq_imp_iff₂, Str.contains_iff] using hno
    unfold splitString at h
    rw [hp] at h
    obtain ⟨a, b, h1, h2⟩ := search_left digit s sep h
    exact Marker.dated a sep b hno h1 (search_sound _ _ _ h).1 h2

theorem marker_unique (digit : Char → Bool) (hsp : digit ' ' = false) (s m m' : Str) (h : Marker digit s m) (h' : Marker digit s m') :
    m = m' := by
  cases h with
  | phrase before p after hp hin hf =>
    cases h' with
    | phrase before' p' after' hp' hin' hf' =>
      rw [hp] at hp'
      rcases List.append_eq_append_iff.1 hp' with ⟨x, h1, h2⟩ | ⟨x, h1, h2⟩
      · match x, h1, h2 with
        | [], _, h2 => simp at h2; rw [h2.1]
        | y :: x, h1, h2 =>
          simp only [List.cons_append, List.cons.injEq] at h2
          exact absurd hin (hf' p (by rw [h1, h2.1]; simp))
      · match x, h1, h2 with
        | [], _, h2 => simp at h2; rw [h2.1]
        | y :: x, h1, h2 =>
          simp only [List.cons_append, List.cons.injEq] at h2
          exact absurd hin' (hf p' (by rw [h1, h2.1]; simp))
    | dated a m b hno => exact absurd hin (hno p (by rw [hp]; simp))
  | dated a m b hno hs hm hl =>
    cases h' with
    | phrase before' p' after' hp' hin' hf' => exact absurd hin' (hno p' (by rw [hp']; simp))
    | dated a' m' b' hno' hs' hm' hl' =>
      have hlen : a.length = a'.length := le_antisymm (hl _ _ _ hs' hm') (hl' _ _ _ hs hm)
      have hh := hs.symm.trans hs'
      simp only [List.append_assoc] at hh
      exact dated_prefix digit hsp m m' b b' hm hm' (List.append_inj hh hlen).2

theorem split_iff_marker (digit : Char → Bool) (hsp : digit ' ' = false) (s sep : Str) :
    splitString digit s = some sep ↔ Marker digit s sep := by
  refine ⟨marker_of_split digit s sep, fun h => ?_⟩
  cases hs : splitString digit s with
  | some m => rw [marker_unique digit hsp s m sep (marker_of_split _ _ _ hs) h]
  | none =>
    exfalso
    obtain ⟨h1, h2⟩ := (marker_or_none digit s).2.1 hs
    cases h with
    | phrase before p after hp hin hf => exact h1 p (by rw [hp]; simp) hin
    | dated a m b hno hs hm hl => exact h2 _ hm ⟨a, b, hs.symm⟩

/-- C27: an abstract is cut at the last occurrence of its marker, which is the first phrase it contains, or else the text of its leftmost dated
notice. A leading period of the marker stays with the abstract; white space at the end of the copyright statement is removed; nothing else is
lost. -/
theorem C27_copyright_split (ws digit : Char → Bool) (hsp : digit ' ' = false) (s sep : Str) (h : Marker digit s sep) :
    ∃ pre post tail, s = pre ++ sep ++ post ∧ ¬ sep <:+: post ∧ post = Str.rstrip ws post ++ tail ∧ (∀ c ∈ tail, ws c) ∧
      ((∃ r, sep = '.' :: r ∧ findCopyright ws digit s = (pre ++ ['.'], r ++ Str.rstrip ws post)) ∨
       ((∀ r, sep ≠ '.' :: r) ∧ findCopyright ws digit s = (pre, sep ++ Str.rstrip ws post))) :=
  split_at ws digit s sep ((split_iff_marker digit hsp s sep).2 h)

/-- Witness: of two dated notices the left one is the marker. -/
example : Marker Char.isDigit "We ran. C 2010 X. 2011 Elsevier".toList ". C 2010 ".toList :=
  marker_of_split Char.isDigit _ _ (by decide +kernel)

/-- C27: a text has at most one marker; it has none exactly when it has no phrase and no dated notice. -/
theorem C27_copyright_marker (digit : Char → Bool) (hsp : digit ' ' = false) (s : Str) :
    (∀ m m', Marker digit s m → Marker digit s m' → m = m') ∧
    ((∀ m, ¬ Marker digit s m) ↔ (∀ p ∈ phrases, ¬ p.toList <:+: s) ∧ ∀ m, Dated digit m → ¬ m <:+: s) := by
  refine ⟨fun m m' => marker_unique digit hsp s m m', ?_⟩
  rw [← (marker_or_none digit s).2, Option.eq_none_iff_forall_ne_some]
  simp only [ne_eq, split_iff_marker digit hsp]

/-- C27: nothing but white space at the end is lost, and without a marker the abstract is unchanged. -/
theorem C27_copyright_lossless (ws digit : Char → Bool) (s : Str) :
    (∃ tail, (findCopyright ws digit s).1 ++ (findCopyright ws digit s).2 ++ tail = s ∧ ∀ c ∈ tail, ws c) ∧
    ((findCopyright ws digit s).2 = [] → findCopyright ws digit s = (s, []) ∧ ∀ m, ¬ Marker digit s m) := by
  have hnm : splitString digit s = none → ∀ m, ¬ Marker digit s m := by
    intro hs m hm
    obtain ⟨h1, h2⟩ := (marker_or_none digit s).2.1 hs
    cases hm with
    | phrase before p after hp hin hf => exact h1 p (by rw [hp]; simp) hin
    | dated a m b hno hs hm hl => exact h2 _ hm ⟨a, b, hs.symm⟩
  cases h : splitString digit s with
  | none =>
    have : findCopyright ws digit s = (s, []) := by unfold findCopyright; rw [h]
    rw [this]
    exact ⟨⟨[], by simp, by simp⟩, fun _ => ⟨rfl, hnm h⟩⟩
  | some sep =>
    have hne : ∀ r, sep = '.' :: r → r ≠ [] := by
      rintro r rfl rfl
      rcases (marker_or_none digit s).1 _ h with ⟨i, hi, -⟩ | ⟨-, hd, -⟩
      · revert i; decide
      · generalize hx : (['.'] : Str) = x at hd
        cases hd with
        | c op cl l => have := congrArg List.length hx; simp at this
        | elsevier => simp at hx
    have h0 := (splitString_sound digit s sep h).1
    obtain ⟨pre, post, tail, h1, -, h2, h3, h4⟩ := split_at ws digit s sep h
    rcases h4 with ⟨r, rfl, h4⟩ | ⟨-, h4⟩
    · rw [h4]
      refine ⟨⟨tail, ?_, h3⟩, fun hh => ?_⟩
      · rw [h1]
        conv_rhs => rw [h2]
        simp
      · exact absurd (List.append_eq_nil_iff.1 hh).1 (hne r rfl)
    · rw [h4]
      refine ⟨⟨tail, ?_, h3⟩, fun hh => ?_⟩
      · rw [h1]
        conv_rhs => rw [h2]
        simp
      · exact absurd (List.append_eq_nil_iff.1 hh).1 h0

/-- C27: what is returned besides the text is the copyright statement, and nothing when there is none. -/
theorem C27_copyright_statement (ws digit : Char → Bool) (hsp : digit ' ' = false) (s c : Str) :
    (c ≠ [] ∧ (findCopyright ws digit s).2 = c) ↔ Statement ws digit s c := by
  cases h : splitString digit s with
  | none =>
    have : findCopyright ws digit s = (s, []) := by unfold findCopyright; rw [h]
    rw [this]
    constructor
    · rintro ⟨h1, h2⟩; exact absurd h2.symm h1
    · rintro ⟨m, rest, hm, -⟩
      rw [(split_iff_marker digit hsp s m).2 hm] at h; cases h
  | some sep =>
    have hm := (split_iff_marker digit hsp s sep).1 h
    have hne : (findCopyright ws digit s).2 ≠ [] := fun h0 => ((C27_copyright_lossless ws digit s).2 h0).2 sep hm
    have hval : ∀ rest, (Str.split sep s).getLast? = some rest →
        (findCopyright ws digit s).2 = (if sep.head? = some '.' then sep.tail else sep) ++ Str.rstrip ws rest := by
      intro rest hr
      unfold findCopyright
      rw [h]
      simp only [hr, Option.getD_some]
      split
      · simp
      · rename_i hn
        rw [if_neg]
        intro hd
        cases sep with
        | nil => simp at hd
        | cons a l => simp at hd; subst hd; exact hn l rfl
    constructor
    · rintro ⟨-, rfl⟩
      obtain ⟨rest, hr⟩ : ∃ rest, (Str.split sep s).getLast? = some rest := by
        cases hl : (Str.split sep s).getLast? with
        | none => exact absurd (List.getLast?_eq_none_iff.1 hl) (Str.split_ne_nil sep s)
        | some r => exact ⟨r, rfl⟩
      exact ⟨sep, rest, hm, hr, hval rest hr⟩
    · rintro ⟨m, rest, hm', hr, rfl⟩
      obtain rfl := marker_unique digit hsp s _ _ hm hm'
      rw [← hval rest hr]
      exact ⟨hne, rfl⟩

/-- Witness: a dated notice. -/
example : findCopyright (· == ' ') Char.isDigit "We ran. (c) 2010 Some House. ".toList
    = ("We ran.".toList, " (c) 2010 Some House.".toList) := by decide +kernel
example : findCopyright (· == ' ') Char.isDigit "We ran. c) 2010 Some House. ".toList
    = ("We ran.".toList, " c) 2010 Some House.".toList) := by decide +kernel
/-- Witness: an abstract which mentions no such thing. -/
example : findCopyright (· == ' ') Char.isDigit "We ran. In 2010 we sat. ".toList = ("We ran. In 2010 we sat. ".toList, []) := by decide +kernel

end Verif.Props
