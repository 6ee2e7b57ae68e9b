import Verif.Model.CiteParse

/-!
# The WOS pattern never backtracks

Every part of `wosCiteRegex` before the last is optional, and the last matches whatever can be left, so the first choice of each part is the one that
counts. `wos_groups` says what the groups are.
-/
set_option autoImplicit false
set_option linter.unusedSimpArgs false
namespace Verif.Lemmas.CiteParse
open Verif.Py Verif.Py.Regex Verif.Model.CiteParse

/-! ## Reading from left to right -/

def eatAuthor : Str → Option Str × Str
  | c :: d :: t => if authStart c && noComma d then (some (c :: (d :: t).takeWhile noComma), (d :: t).dropWhile noComma) else (none, c :: d :: t)
  | s => (none, s)

def eatSep : Str → Option Str × Str
  | ',' :: ' ' :: t => (some ", ".toList, t)
  | s => (none, s)

def digits5 (s : Str) : Nat := most isDig (some 5) s

def eatYear : Str → Option Str × Str
  | '-' :: t => if digits5 t = 0 then (none, '-' :: t) else (some ('-' :: t.take (digits5 t)), t.drop (digits5 t))
  | s => if digits5 s = 0 then (none, s) else (some (s.take (digits5 s)), s.drop (digits5 s))

def eatJournal (s : Str) : Option Str × Str :=
  if s.takeWhile noComma = [] then (none, s) else (some (s.takeWhile noComma), s.dropWhile noComma)

def eatTag (tag : Char) : Str → Option Str × Str
  | ',' :: ' ' :: c :: t =>
    if c = tag ∧ t.takeWhile noComma ≠ [] then (some (c :: t.takeWhile noComma), t.dropWhile noComma) else (none, ',' :: ' ' :: c :: t)
  | s => (none, s)

def eatDoi (s : Str) : Option Str :=
  if ", DOI ".toList.isPrefixOf s ∧ (s.drop 6).takeWhile dot ≠ [] then some ((s.drop 6).takeWhile dot) else none

structure Groups where
  author : Option Str
  year : Option Str
  journal : Option Str
  V : Option Str
  P : Option Str
  doi : Option Str
  misc : Option Str
  miscDoi : Option Str

def readCite (s : Str) : Groups :=
  let a := eatAuthor s
  let y := eatYear (eatSep a.2).2
  let j := eatJournal (eatSep y.2).2
  let v := eatTag 'V' j.2
  let p := eatTag 'P' v.2
  match p.2 with
  | [] => ⟨a.1, y.1, j.1, v.1, p.1, none, none, none⟩
  | c :: t =>
    match eatDoi (c :: t) with
    | some d => ⟨a.1, y.1, j.1, v.1, p.1, some d, none, none⟩
    | none =>
      match eatDoi t with
      | some d => ⟨a.1, y.1, j.1, v.1, p.1, none, some (c :: (", DOI ".toList ++ d)), some d⟩
      | none => ⟨a.1, y.1, j.1, v.1, p.1, none, some [c], none⟩

/-! ## Parts -/

theorem drop_takeWhile (p : Char → Bool) (s : Str) : s.drop (s.takeWhile p).length = s.dropWhile p := by
  conv_lhs => rw [← List.takeWhile_append_dropWhile (p := p) (l := s)]
  rw [List.drop_append_of_le_length (by simp)]
  simp

theorem take_dropWhile (p : Char → Bool) (s : Str) : s.take (s.length - (s.dropWhile p).length) = s.takeWhile p := by
  have h : s.length = (s.takeWhile p).length + (s.dropWhile p).length := by
    conv_lhs => rw [← List.takeWhile_append_dropWhile (p := p) (l := s), List.length_append]
  have : s.length - (s.dropWhile p).length = (s.takeWhile p).length := by omega
  rw [this]
  conv_lhs => rw [← List.takeWhile_append_dropWhile (p := p) (l := s)]
  rw [List.take_append_of_le_length (by simp)]
  simp

/-- The state after an optional group. -/
def after (n : Nat) (e : Option Str × Str) (s : St) : St :=
  match e.1 with
  | some w => ⟨e.2, (n, w) :: s.caps⟩
  | none => s

/-- All characters of a class, at least one. -/
theorem plus_some (p : Char → Bool) (k : St → Option St) (s x : St) (h0 : s.rest.takeWhile p ≠ []) (h : k ⟨s.rest.dropWhile p, s.caps⟩ = some x) : m (plus p) k s = some x := by
  apply rep_greedy
  · show 1 ≤ (s.rest.takeWhile p).length
    exact List.length_pos_of_ne_nil h0
  · show k ⟨s.rest.drop (s.rest.takeWhile p).length, s.caps⟩ = some x
    rw [drop_takeWhile]; exact h

theorem plus_none (p : Char → Bool) (k : St → Option St) (s : St) (h0 : s.rest.takeWhile p = []) : m (plus p) k s = none := by
  apply rep_none
  show (s.rest.takeWhile p).length < 1
  rw [h0]; simp

theorem one_some (p : Char → Bool) (k : St → Option St) (c : Char) (t : Str) (caps : List (Nat × Str)) (hc : p c = true) (x : St) (h : k ⟨t, caps⟩ = some x) :
    m (one p) k ⟨c :: t, caps⟩ = some x := by
  have hm : most p (some 1) (c :: t) = 1 := by unfold most; simp [List.takeWhile_cons_of_pos hc]
  apply rep_greedy
  · show 1 ≤ most p (some 1) (c :: t); omega
  · show k ⟨(c :: t).drop (most p (some 1) (c :: t)), caps⟩ = some x
    rw [hm]; exact h

theorem lit_append (t r : Str) (k : St → Option St) (caps : List (Nat × Str)) : m (.lit t) k ⟨t ++ r, caps⟩ = k ⟨r, caps⟩ := by
  rw [m, if_pos (List.isPrefixOf_iff_prefix.2 (List.prefix_append t r))]
  simp

theorem lit_none (t : Str) (k : St → Option St) (s : St) (h : t.isPrefixOf s.rest = false) : m (.lit t) k s = none := by rw [m, if_neg (by simp [h])]

/-- If one choice of `k` makes a part fail ... a part that matches nothing fails whatever follows. -/
theorem m_none (r : Re) (s : St) (h : ∀ s', ¬ Rel r s s') (k : St → Option St) : m r k s = none := by
  rcases hc : m r k s with _ | x
  · rfl
  · obtain ⟨s', h1, -⟩ := m_sound r k s x hc
    exact absurd h1 (h s')

theorem part_author (k : St → Option St) (s x : St) (h : k (after 1 (eatAuthor s.rest) s) = some x) : m (.opt (.grp 1 (one authStart ⬝ plus noComma))) k s = some x := by
  obtain ⟨rest, caps⟩ := s
  have hno : ∀ rest, (∀ c d t, rest = c :: d :: t → (authStart c && noComma d) = false) → m (.grp 1 (one authStart ⬝ plus noComma)) k ⟨rest, caps⟩ = none := by
    intro rest hr
    apply m_none
    rintro s' ⟨s1, w, ⟨s2, ⟨w1, h1, h2, h3, h4, h5⟩, ⟨w2, h6, h7, h8, -, -⟩⟩, -, -⟩
    have h4 := h4 1 rfl
    match w1, h3, h4 with
    | [c], _, _ =>
      match w2, h8 with
      | d :: w2, _ =>
        have h1 : rest = [c] ++ s2.rest := h1
        rw [h6] at h1
        have := hr c d (w2 ++ s1.rest) (by rw [h1]; rfl)
        rw [h2 c (by simp), h7 d (by simp)] at this
        cases this
  match rest with
  | [] => rw [opt_none _ _ _ (hno _ (by simp))]; exact h
  | [c] => rw [opt_none _ _ _ (hno _ (by simp))]; exact h
  | c :: d :: t =>
    by_cases hc : (authStart c && noComma d) = true
    · simp only [eatAuthor, hc, if_true, after] at h
      rw [Bool.and_eq_true] at hc
      apply opt_some
      rw [m, m]
      apply one_some _ _ _ _ _ hc.1
      apply plus_some
      · simp [List.takeWhile_cons_of_pos hc.2]
      · rw [← h]
        congr 2
        simp only [List.cons.injEq, and_true, Prod.mk.injEq, true_and]
        have := take_dropWhile noComma (d :: t)
        have hle : ((d :: t).dropWhile noComma).length ≤ (d :: t).length := (List.dropWhile_suffix _).length_le
        rw [show (c :: d :: t).length - ((d :: t).dropWhile noComma).length = ((d :: t).length - ((d :: t).dropWhile noComma).length) + 1 by
          simp only [List.length_cons] at hle ⊢; omega, List.take_succ_cons, this]
    · rw [opt_none _ _ _ (hno _ (by intro c' d' t' e; cases e; simpa using hc))]
      simp only [eatAuthor, hc, if_false, after] at h
      exact h

theorem eatSep_neg (s : Str) (h : ", ".toList.isPrefixOf s = false) : eatSep s = (none, s) := by
  unfold eatSep
  split
  · rename_i t
    exact absurd h (by simp)
  · rfl

theorem part_sep (n : Nat) (k : St → Option St) (s x : St) (h : k (after n (eatSep s.rest) s) = some x) : m (.opt (.grp n (.lit ", ".toList))) k s = some x := by
  obtain ⟨rest, caps⟩ := s
  by_cases hp : ", ".toList.isPrefixOf rest = true
  · obtain ⟨t, rfl⟩ := List.isPrefixOf_iff_prefix.1 hp
    apply opt_some
    rw [m, lit_append, ← h]
    have : (", ".toList ++ t).length - t.length = 2 := by simp; omega
    simp only [this]
    rfl
  · have hp : ", ".toList.isPrefixOf rest = false := Bool.eq_false_iff.2 hp
    rw [opt_none]
    · rw [eatSep_neg _ hp] at h; exact h
    · rw [m, lit_none _ _ _ hp]

theorem digits5_le (s : Str) : digits5 s ≤ s.length := by
  have h1 := (most_le isDig (some 5) s).1
  have h2 := (List.takeWhile_prefix isDig (l := s)).length_le
  unfold digits5; omega

theorem part_year (k : St → Option St) (s x : St) (h : k (after 3 (eatYear s.rest) s) = some x) :
    m (.opt (.grp 3 (.opt (.lit "-".toList) ⬝ .rep isDig 1 (some 5) false))) k s = some x := by
  obtain ⟨rest, caps⟩ := s
  have hpos : ∀ (pre s : Str) (k : St → Option St), 1 ≤ digits5 s → k ⟨s.drop (digits5 s), caps⟩ = some x → m (.rep isDig 1 (some 5) false) k ⟨s, caps⟩ = some x := by
    intro pre s k h1 h2
    apply rep_greedy
    · exact h1
    · exact h2
  have hzero : ∀ (s : Str) (k : St → Option St), digits5 s = 0 → m (.rep isDig 1 (some 5) false) k ⟨s, caps⟩ = none := by
    intro s k h0
    apply rep_none
    show digits5 s < 1
    omega
  unfold eatYear at h
  dsimp only at h
  split at h
  · rename_i t
    split at h
    · rename_i h0
      rw [opt_none]
      · exact h
      · rw [m, m]
        have hd : digits5 ('-' :: t) = 0 := by unfold digits5 most; simp [List.takeWhile_cons_of_neg, dash_not_dig]
        rw [opt_none]
        · exact hzero _ _ hd
        · have := lit_append "-".toList t
          rw [show "-".toList ++ t = '-' :: t from rfl] at this
          rw [this]
          exact hzero _ _ h0
    · rename_i h0
      apply opt_some
      rw [m, m]
      apply opt_some
      have := lit_append "-".toList t
      rw [show "-".toList ++ t = '-' :: t from rfl] at this
      rw [this]
      apply hpos [] _ _ (by omega)
      rw [← h]
      simp only [after]
      congr 2
      simp only [List.cons.injEq, and_true, Prod.mk.injEq, true_and]
      have := digits5_le t
      rw [show ('-' :: t).length - (t.drop (digits5 t)).length = digits5 t + 1 by simp; omega, List.take_succ_cons]
  · rename_i hnd
    have hlit : "-".toList.isPrefixOf rest = false := by
      cases rest with
      | nil => rfl
      | cons c t =>
        by_cases hc : c = '-'
        · subst hc; exact absurd rfl (hnd t)
        · simp [List.isPrefixOf]; exact fun h => hc h.symm
    split at h
    · rename_i h0
      rw [opt_none]
      · exact h
      · rw [m, m, opt_none]
        · exact hzero _ _ h0
        · rw [lit_none _ _ _ hlit]
    · rename_i h0
      apply opt_some
      rw [m, m, opt_none]
      · apply hpos [] _ _ (by omega)
        rw [← h]
        simp only [after]
        congr 2
        simp only [List.cons.injEq, and_true, Prod.mk.injEq, true_and]
        have := digits5_le rest
        rw [show rest.length - (rest.drop (digits5 rest)).length = digits5 rest by simp; omega]
      · rw [lit_none _ _ _ hlit]

theorem part_journal (k : St → Option St) (s x : St) (h : k (after 5 (eatJournal s.rest) s) = some x) : m (.opt (.grp 5 (plus noComma))) k s = some x := by
  unfold eatJournal at h
  split at h
  · rename_i h0
    rw [opt_none]
    · exact h
    · rw [m, plus_none _ _ _ h0]
  · rename_i h0
    apply opt_some
    rw [m]
    apply plus_some _ _ _ _ h0
    rw [← h]
    simp only [after]
    congr 2
    rw [take_dropWhile]

/-- The state after `(, (V[^,]+))?`. -/
def afterTag (outer inner : Nat) (e : Option Str × Str) (s : St) : St :=
  match e.1 with
  | some w => ⟨e.2, (outer, ", ".toList ++ w) :: (inner, w) :: s.caps⟩
  | none => s

theorem part_tag (outer inner : Nat) (tag : Char) (k : St → Option St) (s x : St) (h : k (afterTag outer inner (eatTag tag s.rest) s) = some x) :
    m (wosTagged outer inner tag) k s = some x := by
  obtain ⟨rest, caps⟩ := s
  have hno : ∀ rest, (∀ c t, rest = ',' :: ' ' :: c :: t → ¬ (c = tag ∧ t.takeWhile noComma ≠ [])) →
      m (.grp outer (.lit ", ".toList ⬝ .grp inner (.lit [tag] ⬝ plus noComma))) k ⟨rest, caps⟩ = none := by
    intro rest hr
    apply m_none
    rintro s' ⟨s1, w, ⟨s2, ⟨h1, -⟩, ⟨s3, w2, ⟨s4, ⟨h3, -⟩, ⟨w3, h4, h5, h6, -, -⟩⟩, -, -⟩⟩, -, -⟩
    have h1 : rest = ", ".toList ++ s2.rest := h1
    rw [h3] at h1
    match w3, h6 with
    | d :: w3, _ =>
      refine hr tag s4.rest (by rw [h1]; rfl) ⟨rfl, ?_⟩
      rw [h4, List.cons_append, List.takeWhile_cons_of_pos (h5 d (by simp))]
      simp
  unfold wosTagged
  dsimp only at h
  by_cases hs : ∃ c t, rest = ',' :: ' ' :: c :: t ∧ (c = tag ∧ t.takeWhile noComma ≠ [])
  · obtain ⟨c, t, rfl, rfl, ht⟩ := hs
    simp only [eatTag, ht, afterTag, ne_eq, not_false_eq_true, and_self, if_true] at h
    apply opt_some
    have hle : (t.dropWhile noComma).length ≤ t.length := (List.dropWhile_suffix _).length_le
    rw [m, m]
    have e1 := lit_append ", ".toList (c :: t)
    rw [show ", ".toList ++ (c :: t) = ',' :: ' ' :: c :: t from rfl] at e1
    rw [e1, m, m]
    have e2 := lit_append [c] t
    rw [show [c] ++ t = c :: t from rfl] at e2
    rw [e2]
    apply plus_some _ _ _ _ ht
    rw [← h]
    congr 2
    have := take_dropWhile noComma t
    simp only [List.cons.injEq, Prod.mk.injEq, true_and, and_true]
    constructor
    · rw [show (',' :: ' ' :: c :: t).length - (t.dropWhile noComma).length = (t.length - (t.dropWhile noComma).length) + 1 + 1 + 1 by
        simp only [List.length_cons]; omega]
      simp only [List.take_succ_cons, this]
      rfl
    · rw [show (c :: t).length - (t.dropWhile noComma).length = (t.length - (t.dropWhile noComma).length) + 1 by simp only [List.length_cons]; omega]
      simp only [List.take_succ_cons, this]
  · rw [opt_none _ _ _ (hno rest (by intro c t e hh; exact hs ⟨c, t, e, hh⟩))]
    have : eatTag tag rest = (none, rest) := by
      unfold eatTag
      split
      · rename_i c t
        rw [if_neg (fun hh => hs ⟨c, t, rfl, hh⟩)]
      · rfl
    rw [this] at h
    exact h

/-! ## The end -/

theorem doi_some (n : Nat) (s : Str) (caps : List (Nat × Str)) (d : Str) (hd : eatDoi s = some d) (k : St → Option St) (x : St)
    (h : k ⟨(s.drop 6).dropWhile dot, (n, d) :: caps⟩ = some x) : m (.lit ", DOI ".toList ⬝ .grp n (plus dot)) k ⟨s, caps⟩ = some x := by
  unfold eatDoi at hd
  split at hd
  · rename_i hc
    obtain ⟨r, rfl⟩ := List.isPrefixOf_iff_prefix.1 hc.1
    have hdrop : (", DOI ".toList ++ r).drop 6 = r := rfl
    rw [hdrop] at hd hc h
    cases hd
    rw [m, lit_append, m]
    apply plus_some _ _ _ _ hc.2
    rw [← h]
    congr 3
    rw [take_dropWhile]
  · cases hd

theorem doi_none (n : Nat) (s : Str) (caps : List (Nat × Str)) (hd : eatDoi s = none) (k : St → Option St) : m (.lit ", DOI ".toList ⬝ .grp n (plus dot)) k ⟨s, caps⟩ = none := by
  unfold eatDoi at hd
  split at hd
  · cases hd
  · rename_i hc
    rw [m]
    by_cases hp : ", DOI ".toList.isPrefixOf s = true
    · obtain ⟨r, rfl⟩ := List.isPrefixOf_iff_prefix.1 hp
      rw [lit_append, m, plus_none]
      by_contra hn
      exact hc ⟨hp, by rw [show (", DOI ".toList ++ r).drop 6 = r from rfl]; exact hn⟩
    · rw [lit_none]; exact Bool.eq_false_iff.2 hp

def Stop (s : Str) : Prop := s = [] ∨ ∃ t, s = ',' :: t

/-- What the groups of the last part are, if no character but a comma can come next. -/
theorem part_end (s : St) (hs : Stop s.rest) : ∃ x, m wosEnd some s = some x ∧ ∃ l, x.caps = l ++ s.caps ∧ (∀ p ∈ l, 10 ≤ p.1) ∧
    group l 11 = (match s.rest with | [] => none | c :: t => eatDoi (c :: t)) ∧
    group l 12 = (match s.rest with | [] => none | c :: t => match eatDoi (c :: t) with | some _ => none | none => match eatDoi t with | some d => some (c :: (", DOI ".toList ++ d)) | none => some [c]) ∧
    group l 15 = (match s.rest with | [] => none | c :: t => match eatDoi (c :: t) with | some _ => none | none => eatDoi t) := by
  obtain ⟨rest, caps⟩ := s
  rcases hs with rfl | ⟨t, rfl⟩
  · refine ⟨⟨[], (10, []) :: caps⟩, ?_, [(10, [])], rfl, by simp, rfl, rfl, rfl⟩
    simp [wosEnd, m]
  · unfold wosEnd
    have heos : ∀ k : St → Option St, m .eos k ⟨',' :: t, caps⟩ = none := by
      intro k
      rw [m, if_neg]
      rintro (h | h)
      · cases h
      · have := congrArg List.head? h
        simp at this
    rcases hd : eatDoi (',' :: t) with _ | d
    · rcases hd2 : eatDoi t with _ | d2
      · refine ⟨⟨t, (10, [',']) :: (12, [',']) :: (13, [',']) :: caps⟩, ?_, [(10, [',']), (12, [',']), (13, [','])], ?_, by simp, ?_, ?_, ?_⟩
        rotate_left 2
        · simp [group, hd]
        · simp [group, hd, hd2]
        · simp [group, hd, hd2]
        · rw [m, m, heos, m, doi_none 11 _ _ hd, Option.none_or, Option.none_or, m, m, m]
          apply rep_lazy
          · show 1 ≤ ((',' :: t).takeWhile dot).length
            rw [List.takeWhile_cons_of_pos (by decide)]; simp
          · show m (.opt _) _ ⟨t, _⟩ = _
            rw [opt_none]
            · simp
            · rw [m, doi_none 15 _ _ hd2]
        · rfl
      · have hpre : ∃ r, t = ", DOI ".toList ++ r ∧ d2 = r.takeWhile dot := by
          unfold eatDoi at hd2
          split at hd2
          · rename_i hc
            obtain ⟨r, rfl⟩ := List.isPrefixOf_iff_prefix.1 hc.1
            cases hd2
            exact ⟨r, rfl, rfl⟩
          · cases hd2
        obtain ⟨r, rfl, rfl⟩ := hpre
        have hle : (r.dropWhile dot).length ≤ r.length := (List.dropWhile_suffix _).length_le
        have htk := take_dropWhile dot r
        have hw : (',' :: (", DOI ".toList ++ r)).take ((',' :: (", DOI ".toList ++ r)).length - (r.dropWhile dot).length) = ',' :: (", DOI ".toList ++ r.takeWhile dot) := by
          rw [show (',' :: (", DOI ".toList ++ r)).length - (r.dropWhile dot).length = (r.length - (r.dropWhile dot).length) + 7 by simp; omega]
          show ',' :: ',' :: ' ' :: 'D' :: 'O' :: 'I' :: ' ' :: r.take _ = _
          rw [htk]; rfl
        have hw2 : (", DOI ".toList ++ r).take ((", DOI ".toList ++ r).length - (r.dropWhile dot).length) = ", DOI ".toList ++ r.takeWhile dot := by
          rw [show (", DOI ".toList ++ r).length - (r.dropWhile dot).length = (r.length - (r.dropWhile dot).length) + 6 by simp; omega]
          show ',' :: ' ' :: 'D' :: 'O' :: 'I' :: ' ' :: r.take _ = _
          rw [htk]; rfl
        have hdot : [','].takeWhile dot = [','] := by decide
        refine ⟨⟨r.dropWhile dot, (10, ',' :: (", DOI ".toList ++ r.takeWhile dot)) :: (12, ',' :: (", DOI ".toList ++ r.takeWhile dot)) ::
          (14, ", DOI ".toList ++ r.takeWhile dot) :: (15, r.takeWhile dot) :: (13, [',']) :: caps⟩, ?_, [(10, ',' :: (", DOI ".toList ++ r.takeWhile dot)), (12, ',' :: (", DOI ".toList ++ r.takeWhile dot)),
          (14, ", DOI ".toList ++ r.takeWhile dot), (15, r.takeWhile dot), (13, [','])], rfl, by simp, ?_, ?_, ?_⟩
        rotate_left
        · simp only [hd]; simp [group]
        · simp only [hd, hd2]; simp [group]
        · simp only [hd, hd2]; simp [group]
        · rw [m, m, heos, m, doi_none 11 _ _ hd, Option.none_or, Option.none_or, m, m, m]
          apply rep_lazy
          · show 1 ≤ ((',' :: (", DOI ".toList ++ r)).takeWhile dot).length
            rw [List.takeWhile_cons_of_pos (by decide)]; simp
          · show m (.opt _) _ ⟨", DOI ".toList ++ r, _⟩ = _
            apply opt_some
            rw [m]
            apply doi_some 15 _ _ _ hd2
            show some _ = some _
            rw [show (", DOI ".toList ++ r).drop 6 = r from rfl]
            dsimp only
            rw [hw, hw2]
            congr 3
            have : (',' :: (", DOI ".toList ++ r)).length - (", DOI ".toList ++ r).length = 1 := by simp
            simp only [List.drop_succ_cons, List.drop_zero, this]
            rfl
    · have hpre : ∃ r, ',' :: t = ", DOI ".toList ++ r ∧ d = r.takeWhile dot := by
        unfold eatDoi at hd
        split at hd
        · rename_i hc
          obtain ⟨r, hr⟩ := List.isPrefixOf_iff_prefix.1 hc.1
          rw [← hr] at hd
          cases hd
          exact ⟨r, hr.symm, rfl⟩
        · cases hd
      obtain ⟨r, hr, rfl⟩ := hpre
      refine ⟨⟨r.dropWhile dot, (10, (',' :: t).take ((',' :: t).length - (r.dropWhile dot).length)) :: (11, r.takeWhile dot) :: caps⟩, ?_,
        [(10, (',' :: t).take ((',' :: t).length - (r.dropWhile dot).length)), (11, r.takeWhile dot)], ?_, by simp, ?_, ?_, ?_⟩
      rotate_left 2
      · simp [group, hd]
      · simp only [hd]; simp [group]
      · simp only [hd]; simp [group]
      · rw [m, m, heos, m, Option.none_or]
        rw [doi_some 11 _ _ _ hd]
        · rfl
        · show some _ = some _
          rw [show (',' :: t).drop 6 = r by rw [hr]; rfl]
      · rfl

/-! ## All parts -/

theorem dropWhile_stop (s : Str) : Stop (s.dropWhile noComma) := by
  induction s with
  | nil => exact Or.inl rfl
  | cons c s ih =>
    by_cases hc : noComma c = true
    · rw [List.dropWhile_cons_of_pos hc]; exact ih
    · rw [List.dropWhile_cons_of_neg hc]
      unfold noComma at hc
      simp at hc; subst hc
      exact Or.inr ⟨s, rfl⟩

theorem journal_stop (s : Str) : Stop (eatJournal s).2 := by
  unfold eatJournal
  split
  · rename_i h
    cases s with
    | nil => exact Or.inl rfl
    | cons c s =>
      by_cases hc : noComma c = true
      · rw [List.takeWhile_cons_of_pos hc] at h; cases h
      · unfold noComma at hc
        simp at hc; subst hc
        exact Or.inr ⟨s, rfl⟩
  · exact dropWhile_stop s

theorem tag_stop (tag : Char) (s : Str) (h : Stop s) : Stop (eatTag tag s).2 := by
  unfold eatTag
  split
  · split
    · exact dropWhile_stop _
    · exact h
  · exact h

theorem after_rest (n : Nat) (e : Option Str × Str) (s : St) (h : e.1 = none → e.2 = s.rest) : (after n e s).rest = e.2 := by
  unfold after
  cases he : e.1 with
  | none => exact (h he).symm
  | some w => rfl

theorem afterTag_rest (a b : Nat) (e : Option Str × Str) (s : St) (h : e.1 = none → e.2 = s.rest) : (afterTag a b e s).rest = e.2 := by
  unfold afterTag
  cases he : e.1 with
  | none => exact (h he).symm
  | some w => rfl

theorem group_cons (n : Nat) (w : Str) (caps : List (Nat × Str)) (i : Nat) : group ((n, w) :: caps) i = if n = i then some w else group caps i := by
  unfold group
  by_cases h : n = i <;> simp [List.find?_cons, h]

theorem after_group (n i : Nat) (e : Option Str × Str) (s : St) : group (after n e s).caps i = if n = i then e.1.or (group s.caps i) else group s.caps i := by
  unfold after
  cases he : e.1 with
  | none => simp
  | some w => rw [group_cons]; simp

theorem afterTag_group (a b i : Nat) (hab : a ≠ b) (e : Option Str × Str) (s : St) :
    group (afterTag a b e s).caps i = if b = i then e.1.or (group s.caps i) else if a = i then (e.1.map (", ".toList ++ ·)).or (group s.caps i) else group s.caps i := by
  unfold afterTag
  cases he : e.1 with
  | none => simp
  | some w =>
    rw [group_cons, group_cons]
    by_cases h1 : b = i
    · subst h1; simp [hab]
    · simp [h1]

theorem eatAuthor_none (s : Str) (h : (eatAuthor s).1 = none) : (eatAuthor s).2 = s := by
  match s with
  | [] => rfl
  | [c] => rfl
  | c :: d :: t =>
    rw [eatAuthor] at h ⊢
    by_cases hc : (authStart c && noComma d) = true
    · rw [if_pos hc] at h; cases h
    · rw [if_neg hc]

theorem eatSep_none (s : Str) (h : (eatSep s).1 = none) : (eatSep s).2 = s := by
  unfold eatSep at h ⊢
  split
  · simp at h
  · rfl

theorem eatYear_none (s : Str) (h : (eatYear s).1 = none) : (eatYear s).2 = s := by
  revert h
  unfold eatYear
  split
  · split
    · intro _; rfl
    · intro h; cases h
  · split
    · intro _; rfl
    · intro h; cases h

theorem eatJournal_none (s : Str) (h : (eatJournal s).1 = none) : (eatJournal s).2 = s := by
  unfold eatJournal at h ⊢
  split at h
  · rename_i h0; rw [if_pos h0]
  · cases h

theorem eatTag_none (tag : Char) (s : Str) (h : (eatTag tag s).1 = none) : (eatTag tag s).2 = s := by
  revert h
  unfold eatTag
  split
  · split
    · intro h; cases h
    · intro _; rfl
  · intro _; rfl

/-- The pattern matches every string, with these groups. -/
theorem wos_groups (s : Str) : ∃ caps, matchStart wosRe s = some caps ∧ group caps 1 = (readCite s).author ∧ group caps 3 = (readCite s).year ∧
    group caps 5 = (readCite s).journal ∧ group caps 7 = (readCite s).V ∧ group caps 9 = (readCite s).P ∧ group caps 11 = (readCite s).doi ∧
    group caps 12 = (readCite s).misc ∧ group caps 15 = (readCite s).miscDoi := by
  obtain ⟨s1, e1⟩ : ∃ s1, s1 = after 1 (eatAuthor s) ⟨s, []⟩ := ⟨_, rfl⟩
  obtain ⟨s2, e2⟩ : ∃ s2, s2 = after 2 (eatSep s1.rest) s1 := ⟨_, rfl⟩
  obtain ⟨s3, e3⟩ : ∃ s3, s3 = after 3 (eatYear s2.rest) s2 := ⟨_, rfl⟩
  obtain ⟨s4, e4⟩ : ∃ s4, s4 = after 4 (eatSep s3.rest) s3 := ⟨_, rfl⟩
  obtain ⟨s5, e5⟩ : ∃ s5, s5 = after 5 (eatJournal s4.rest) s4 := ⟨_, rfl⟩
  obtain ⟨s6, e6⟩ : ∃ s6, s6 = afterTag 6 7 (eatTag 'V' s5.rest) s5 := ⟨_, rfl⟩
  obtain ⟨s7, e7⟩ : ∃ s7, s7 = afterTag 8 9 (eatTag 'P' s6.rest) s6 := ⟨_, rfl⟩
  have r1 : s1.rest = (eatAuthor s).2 := by rw [e1, after_rest _ _ _ (eatAuthor_none s)]
  have r2 : s2.rest = (eatSep s1.rest).2 := by rw [e2, after_rest _ _ _ (eatSep_none s1.rest)]
  have r3 : s3.rest = (eatYear s2.rest).2 := by rw [e3, after_rest _ _ _ (eatYear_none s2.rest)]
  have r4 : s4.rest = (eatSep s3.rest).2 := by rw [e4, after_rest _ _ _ (eatSep_none s3.rest)]
  have r5 : s5.rest = (eatJournal s4.rest).2 := by rw [e5, after_rest _ _ _ (eatJournal_none s4.rest)]
  have r6 : s6.rest = (eatTag 'V' s5.rest).2 := by rw [e6, afterTag_rest _ _ _ _ (eatTag_none 'V' s5.rest)]
  have r7 : s7.rest = (eatTag 'P' s6.rest).2 := by rw [e7, afterTag_rest _ _ _ _ (eatTag_none 'P' s6.rest)]
  have hstop : Stop s7.rest := by
    rw [r7]; apply tag_stop; rw [r6]; apply tag_stop; rw [r5]; exact journal_stop _
  obtain ⟨x, hx, l, hl, hl10, h11, h12, h15⟩ := part_end s7 hstop
  have hm : m wosRe some ⟨s, []⟩ = some x := by
    unfold wosRe
    simp only [m.eq_3]
    apply part_author
    rw [← e1]
    apply part_sep
    rw [← e2]
    apply part_year
    rw [← e3]
    apply part_sep
    rw [← e4]
    apply part_journal
    rw [← e5]
    apply part_tag
    rw [← e6]
    apply part_tag
    rw [← e7]
    exact hx
  have hlow : ∀ i, i < 10 → group x.caps i = group s7.caps i := by
    intro i hi
    rw [hl, group_append]
    intro p hp hpi
    have := hl10 p hp
    omega
  have g1 : ∀ i, group s1.caps i = if 1 = i then (eatAuthor s).1 else none := by
    intro i; rw [e1, after_group]; simp [group]
  have g2 : ∀ i, 2 ≠ i → group s2.caps i = group s1.caps i := by intro i h; rw [e2, after_group, if_neg h]
  have g3 : ∀ i, 3 ≠ i → group s3.caps i = group s2.caps i := by intro i h; rw [e3, after_group, if_neg h]
  have g4 : ∀ i, 4 ≠ i → group s4.caps i = group s3.caps i := by intro i h; rw [e4, after_group, if_neg h]
  have g5 : ∀ i, 5 ≠ i → group s5.caps i = group s4.caps i := by intro i h; rw [e5, after_group, if_neg h]
  have g6 : ∀ i, 6 ≠ i → 7 ≠ i → group s6.caps i = group s5.caps i := by intro i h h'; rw [e6, afterTag_group _ _ _ (by decide), if_neg h', if_neg h]
  have g7 : ∀ i, 8 ≠ i → 9 ≠ i → group s7.caps i = group s6.caps i := by intro i h h'; rw [e7, afterTag_group _ _ _ (by decide), if_neg h', if_neg h]
  have hhigh : ∀ i, 10 ≤ i → group x.caps i = group l i := by
    intro i hi
    have h0 : group s7.caps i = none := by
      rw [g7 i (by omega) (by omega), g6 i (by omega) (by omega), g5 i (by omega), g4 i (by omega), g3 i (by omega), g2 i (by omega), g1, if_neg (by omega)]
    rw [hl]
    unfold group at h0 ⊢
    rw [List.find?_append]
    cases hf : l.find? (fun p => decide (p.1 = i)) with
    | none => simpa using h0
    | some p => rfl
  refine ⟨x.caps, by unfold matchStart; rw [hm]; rfl, ?_⟩
  have hread : readCite s = (match s7.rest with
    | [] => ⟨(eatAuthor s).1, (eatYear s2.rest).1, (eatJournal s4.rest).1, (eatTag 'V' s5.rest).1, (eatTag 'P' s6.rest).1, none, none, none⟩
    | c :: t =>
      match eatDoi (c :: t) with
      | some d => ⟨(eatAuthor s).1, (eatYear s2.rest).1, (eatJournal s4.rest).1, (eatTag 'V' s5.rest).1, (eatTag 'P' s6.rest).1, some d, none, none⟩
      | none =>
        match eatDoi t with
        | some d => ⟨(eatAuthor s).1, (eatYear s2.rest).1, (eatJournal s4.rest).1, (eatTag 'V' s5.rest).1, (eatTag 'P' s6.rest).1, none, some (c :: (", DOI ".toList ++ d)), some d⟩
        | none => ⟨(eatAuthor s).1, (eatYear s2.rest).1, (eatJournal s4.rest).1, (eatTag 'V' s5.rest).1, (eatTag 'P' s6.rest).1, none, some [c], none⟩) := by
    rw [r7, r6, r5, r4, r3, r2, r1]
    rfl
  have hp : (readCite s).author = (eatAuthor s).1 ∧ (readCite s).year = (eatYear s2.rest).1 ∧ (readCite s).journal = (eatJournal s4.rest).1 ∧
      (readCite s).V = (eatTag 'V' s5.rest).1 ∧ (readCite s).P = (eatTag 'P' s6.rest).1 := by
    rw [hread]
    split
    · exact ⟨rfl, rfl, rfl, rfl, rfl⟩
    · split
      · exact ⟨rfl, rfl, rfl, rfl, rfl⟩
      · split
        · exact ⟨rfl, rfl, rfl, rfl, rfl⟩
        · exact ⟨rfl, rfl, rfl, rfl, rfl⟩
  obtain ⟨pa, py, pj, pv, pp⟩ := hp
  refine ⟨?_, ?_, ?_, ?_, ?_, ?_, ?_, ?_⟩
  · rw [pa, hlow 1 (by omega), g7 1 (by omega) (by omega), g6 1 (by omega) (by omega), g5 1 (by omega), g4 1 (by omega), g3 1 (by omega), g2 1 (by omega), g1, if_pos rfl]
  · have h0 : group s2.caps 3 = none := by rw [g2 3 (by omega), g1, if_neg (by omega)]
    rw [py, hlow 3 (by omega), g7 3 (by omega) (by omega), g6 3 (by omega) (by omega), g5 3 (by omega), g4 3 (by omega), e3, after_group, if_pos rfl, h0, Option.or_none]
  · have h0 : group s4.caps 5 = none := by rw [g4 5 (by omega), g3 5 (by omega), g2 5 (by omega), g1, if_neg (by omega)]
    rw [pj, hlow 5 (by omega), g7 5 (by omega) (by omega), g6 5 (by omega) (by omega), e5, after_group, if_pos rfl, h0, Option.or_none]
  · have h0 : group s5.caps 7 = none := by rw [g5 7 (by omega), g4 7 (by omega), g3 7 (by omega), g2 7 (by omega), g1, if_neg (by omega)]
    rw [pv, hlow 7 (by omega), g7 7 (by omega) (by omega), e6, afterTag_group _ _ _ (by decide), if_pos rfl, h0, Option.or_none]
  · have h0 : group s6.caps 9 = none := by rw [g6 9 (by omega) (by omega), g5 9 (by omega), g4 9 (by omega), g3 9 (by omega), g2 9 (by omega), g1, if_neg (by omega)]
    rw [pp, hlow 9 (by omega), e7, afterTag_group _ _ _ (by decide), if_pos rfl, h0, Option.or_none]
  · rw [hhigh 11 (by omega), h11, hread]
    rcases s7.rest with _ | ⟨c, t⟩
    · rfl
    · dsimp only
      rcases h1 : eatDoi (c :: t) with _ | d
      · rcases h2 : eatDoi t with _ | d2 <;> rfl
      · rfl
  · rw [hhigh 12 (by omega), h12, hread]
    rcases s7.rest with _ | ⟨c, t⟩
    · rfl
    · dsimp only
      rcases h1 : eatDoi (c :: t) with _ | d
      · rcases h2 : eatDoi t with _ | d2 <;> rfl
      · rfl
  · rw [hhigh 15 (by omega), h15, hread]
    rcases s7.rest with _ | ⟨c, t⟩
    · rfl
    · dsimp only
      rcases h1 : eatDoi (c :: t) with _ | d
      · rcases h2 : eatDoi t with _ | d2 <;> rfl
      · rfl

end Verif.Lemmas.CiteParse
