import Verif.Model.ScopusCite
import Verif.Props.CiteParse
import Verif.Props.Bib

/-!
# C77: the citation of a Scopus record
-/
set_option autoImplicit false
set_option linter.unusedSimpArgs false
namespace Verif.Props.ScopusCite
open Verif.Py Verif.Py.Regex Verif.Model.ScopusCite
open Verif.Model.CiteParse hiding citeString citeStrings

/-! ## Specification -/

/-- What is true of Python's characters: the marks of the pattern are neither letters nor digits, digits are read as numbers, and `str.upper`
leaves the marks, digits and `P` alone and turns nothing into a mark. -/
structure CharsOk (C : Chars) : Prop where
  word : ∀ c ∈ ",().".toList, C.word c = false
  space : C.word ' ' = false
  digits : ∀ c, isDig c = true → C.digit c = true
  paren : C.digit ')' = false
  int : ∀ n : Nat, C.intOf (showNat n) = (n : Int)
  ne : ∀ c, C.up c ≠ []
  marks : ∀ m ∈ ",()".toList, ∀ c, c ≠ m → m ∉ C.up c
  fixed : ∀ c, isDig c = true ∨ c ∈ ",(). P".toList → C.up c = [c]

/-- A name as Scopus writes it: a family name, a space, initials, a full stop. -/
def ScopusName (C : Chars) (s : Str) : Prop :=
  ∃ family initials : Str, s = family ++ " ".toList ++ initials ++ ".".toList ∧ family ≠ [] ∧ (∀ c ∈ family, C.word c = true ∨ c = '-' ∨ c = ' ') ∧
    initials ≠ [] ∧ (∀ c ∈ initials, C.word c = true ∨ c = '.' ∨ c = '-')

/-- A volume or page: letters, digits and dashes. -/
def Plain (C : Chars) (s : Str) : Prop := s ≠ [] ∧ ∀ c ∈ s, C.word c = true ∨ c = '-'

/-! ## A match is found if there is one -/

/-- A pattern without `r+` for a pattern `r`. -/
def noMany : Re → Bool
  | .lit _ | .rep .. | .eos => true
  | .seq a b | .alt a b => noMany a && noMany b
  | .opt r | .grp _ r => noMany r
  | .many _ => false

theorem takeWhile_ge (p : Char → Bool) (w r : Str) (h : ∀ c ∈ w, p c = true) : w.length ≤ ((w ++ r).takeWhile p).length := by
  induction w with
  | nil => simp
  | cons c w ih =>
    rw [List.cons_append, List.takeWhile_cons_of_pos (h c (by simp))]
    have := ih (fun c hc => h c (by simp [hc]))
    simp; omega

theorem m_complete (r : Re) (hr : noMany r = true) (k : St → Option St) (s s' : St) (h : Rel r s s') (hk : (k s').isSome = true) :
    (m r k s).isSome = true := by
  induction r generalizing k s s' with
  | lit t =>
    obtain ⟨h1, h2⟩ := h
    rw [m, if_pos (by rw [h1, List.isPrefixOf_iff_prefix]; exact List.prefix_append _ _)]
    have : (⟨s.rest.drop t.length, s.caps⟩ : St) = s' := by
      rw [h1, List.drop_left, ← h2]
    rw [this]; exact hk
  | rep p lo hi lazy =>
    obtain ⟨w, h1, h2, h3, h4, h5⟩ := h
    rw [m, List.findSome?_isSome_iff]
    refine ⟨w.length, (mem_tries _ _ _ _ _ _).2 ⟨h3, ?_⟩, ?_⟩
    · have := takeWhile_ge p w s'.rest h2
      unfold most
      rw [h1]
      cases hi with
      | none => exact this
      | some b => have := h4 b rfl; dsimp only; omega
    · have : (⟨s.rest.drop w.length, s.caps⟩ : St) = s' := by rw [h1, List.drop_left, ← h5]
      rw [this]; exact hk
  | seq a b iha ihb =>
    rw [noMany, Bool.and_eq_true] at hr
    obtain ⟨s1, h1, h2⟩ := h
    rw [m]
    exact iha hr.1 _ _ _ h1 (ihb hr.2 _ _ _ h2 hk)
  | alt a b iha ihb =>
    rw [noMany, Bool.and_eq_true] at hr
    rw [m, Option.isSome_or, Bool.or_eq_true]
    rcases h with h | h
    · exact Or.inl (iha hr.1 _ _ _ h hk)
    · exact Or.inr (ihb hr.2 _ _ _ h hk)
  | opt r ih =>
    rw [m, Option.isSome_or, Bool.or_eq_true]
    rcases h with h | h
    · exact Or.inl (ih hr _ _ _ h hk)
    · exact Or.inr (by rw [← h]; exact hk)
  | many r ih => simp [noMany] at hr
  | grp n r ih =>
    obtain ⟨s1, w, h1, h2, rfl⟩ := h
    rw [m]
    refine ih hr _ _ _ h1 ?_
    have : s.rest.take (s.rest.length - s1.rest.length) = w := by rw [h2]; simp
    rw [this]; exact hk
  | eos => rw [m, if_pos h.2, ← h.1]; exact hk

/-! ## The parts of the pattern -/

/-- The pattern up to the year. -/
def front (C : Chars) : Re :=
  .grp 1 (scopusName C) ⬝ .lit ", ".toList ⬝
  .opt (.grp 2 (.many (.grp 3 (scopusName C ⬝ .lit ", ".toList)))) ⬝
  .opt (.grp 4 (.rep noParen 1 none true ⬝ .lit " ".toList)) ⬝
  .lit "(".toList ⬝ .grp 5 (.rep C.digit 2 (some 5) false) ⬝ .lit ") ".toList

/-- The pattern from the journal on. -/
def volPart (C : Chars) : Re := .opt (.grp 7 (.lit ", ".toList ⬝ .grp 8 (plus (wordDash C)) ⬝ .opt (.grp 9 (.lit " (".toList ⬝ .grp 10 (star (wordDash C)) ⬝ .lit ")".toList))))
def pagePart (C : Chars) : Re := .opt (.grp 11 (.lit ", ".toList ⬝ .opt (.lit "P".toList) ⬝ .lit "P. ".toList ⬝ .grp 12 (star (wordDash C))))
def back (C : Chars) : Re := .grp 6 (plus noComma) ⬝ volPart C ⬝ pagePart C ⬝ .grp 13 (star dot)

theorem m_split (C : Chars) (k : St → Option St) (s : St) : m (scopusRe C) k s = m (front C) (m (back C) k) s := rfl

/-- Characters of a text before the first one of a kind. -/
theorem before {p : Char} {a b x y : Str} (ha : p ∉ a) (hx : p ∉ x) (h : a ++ p :: b = x ++ p :: y) : a = x ∧ b = y := by
  induction a generalizing x with
  | nil =>
    cases x with
    | nil => simpa using h
    | cons c x => simp at h; exact absurd h.1 (fun e => hx (by simp [← e]))
  | cons c a ih =>
    cases x with
    | nil => simp at h; exact absurd h.1 (fun e => ha (by simp [e]))
    | cons d x =>
      simp only [List.cons_append, List.cons.injEq] at h
      obtain ⟨e, f⟩ := ih (fun x => ha (by simp [x])) (fun x => hx (by simp [x])) h.2
      exact ⟨by rw [h.1, e], f⟩

section
variable {C : Chars} (hC : CharsOk C)
include hC

theorem nameChar_mark (c : Char) (h : nameChar C c = true) : c ∉ ",().".toList := by
  intro hm
  have h1 := hC.word c hm
  unfold nameChar at h
  rw [h1] at h
  revert h
  simp only [Bool.false_or, Bool.or_eq_true, decide_eq_true_eq]
  rintro (rfl | rfl) <;> revert hm <;> decide

theorem initialChar_mark (c : Char) (h : initialChar C c = true) : c ∉ ",() ".toList := by
  intro hm
  unfold initialChar at h
  have h1 : C.word c = false := by
    by_cases hs : c = ' '
    · rw [hs]; exact hC.space
    · refine hC.word c ?_
      revert hm hs
      simp only [show ",() ".toList = [',', '(', ')', ' '] from rfl, show ",().".toList = [',', '(', ')', '.'] from rfl, List.mem_cons, List.not_mem_nil, or_false]
      tauto
  rw [h1] at h
  simp only [Bool.false_or, Bool.or_eq_true, decide_eq_true_eq] at h
  rcases h with rfl | rfl <;> revert hm <;> decide

/-- What a name may be in a match. -/
theorem rel_name (s s' : St) (h : Rel (scopusName C) s s') :
    ∃ f i : Str, ∃ comma : Str, (comma = [] ∨ comma = [',']) ∧ s.rest = f ++ comma ++ " ".toList ++ i ++ ".".toList ++ s'.rest ∧
      (∀ c ∈ f, nameChar C c = true) ∧ f ≠ [] ∧ (∀ c ∈ i, initialChar C c = true) := by
  obtain ⟨s1, ⟨f, e1, h1, h1l, -, -⟩, s2, h2, s3, ⟨e3, -⟩, s4, ⟨i, e4, h4, -, -, -⟩, e5, -⟩ := h
  have hf : f ≠ [] := by rintro rfl; simp at h1l
  rcases h2 with ⟨e2, -⟩ | e2
  · exact ⟨f, i, [','], Or.inr rfl, by rw [e1, e2, e3, e4, e5]; simp, h1, hf, h4⟩
  · exact ⟨f, i, [], Or.inl rfl, by rw [e1, ← e2, e3, e4, e5]; simp, h1, hf, h4⟩

/-- Before the author's comma there is no other, so the match takes the whole author. -/
theorem author_unique (a : Str) (ha : ScopusName C a) (r r2 : Str) (s s1 : St) (hs : s.rest = a ++ ", ".toList ++ r)
    (h1 : Rel (scopusName C) s s1) (e2 : s1.rest = ", ".toList ++ r2) : r2 = r := by
  obtain ⟨f, i, comma, hcm, e, hf, hf0, hi⟩ := rel_name hC s s1 h1
  obtain ⟨fam, ini, rfl, hfam0, hfam, hini0, hini⟩ := ha
  have hc1 : ',' ∉ fam ++ " ".toList ++ ini ++ ".".toList := by
    have w1 : C.word ',' = false := hC.word ',' (by decide)
    intro hm
    simp only [List.mem_append] at hm
    rcases hm with ((hm | hm) | hm) | hm
    · rcases hfam _ hm with h | h | h
      · rw [w1] at h; cases h
      · revert h; decide
      · revert h; decide
    · revert hm; decide
    · rcases hini _ hm with h | h | h
      · rw [w1] at h; cases h
      · revert h; decide
      · revert h; decide
    · revert hm; decide
  have hcf : ',' ∉ f := fun hm => nameChar_mark hC _ (hf _ hm) (by decide)
  have hci : ',' ∉ i := fun hm => initialChar_mark hC _ (hi _ hm) (by decide)
  rcases hcm with rfl | rfl
  · -- no comma in the name
    have hc2 : ',' ∉ f ++ " ".toList ++ i ++ ".".toList := by
      intro hm
      simp only [List.mem_append] at hm
      rcases hm with ((hm | hm) | hm) | hm
      · exact hcf hm
      · revert hm; decide
      · exact hci hm
      · revert hm; decide
    have : (fam ++ " ".toList ++ ini ++ ".".toList) ++ ',' :: (' ' :: r) = (f ++ " ".toList ++ i ++ ".".toList) ++ ',' :: (' ' :: r2) := by
      have e' := hs.symm.trans e
      rw [e2] at e'
      simpa using e'
    have := before hc1 hc2 this
    simpa using this.2.symm
  · -- a comma in the name would be the one after the author, whose full stop no family name has
    exfalso
    have : (fam ++ " ".toList ++ ini ++ ".".toList) ++ ',' :: (' ' :: r) = f ++ ',' :: (" ".toList ++ i ++ ".".toList ++ s1.rest) := by
      have e' := hs.symm.trans e
      simpa using e'
    have := (before hc1 hcf this).1
    have hd : '.' ∈ f := by rw [← this]; simp
    exact nameChar_mark hC _ (hf _ hd) (by decide)

/-- No part of the pattern before the year takes a parenthesis. -/
theorem name_noParen (s s' : St) (h : Rel (scopusName C) s s') : ∃ w, s.rest = w ++ s'.rest ∧ '(' ∉ w := by
  obtain ⟨f, i, comma, hcm, e, hf, -, hi⟩ := rel_name hC s s' h
  refine ⟨_, e, ?_⟩
  intro hm
  simp only [List.mem_append] at hm
  rcases hm with (((hm | hm) | hm) | hm) | hm
  · exact nameChar_mark hC _ (hf _ hm) (by decide)
  · rcases hcm with rfl | rfl <;> revert hm <;> decide
  · revert hm; decide
  · exact initialChar_mark hC _ (hi _ hm) (by decide)
  · revert hm; decide

theorem names_noParen (s s' : St) (h : Rel (.opt (.grp 2 (.many (.grp 3 (scopusName C ⬝ .lit ", ".toList))))) s s') :
    ∃ w, s.rest = w ++ s'.rest ∧ '(' ∉ w := by
  rcases h with ⟨s1, w, h, -, rfl⟩ | rfl
  · rw [Rel] at h
    have : ∃ w, s.rest = w ++ s1.rest ∧ '(' ∉ w := by
      have one : ∀ s s1 : St, Rel (.grp 3 (scopusName C ⬝ .lit ", ".toList)) s s1 → ∃ w, s.rest = w ++ s1.rest ∧ '(' ∉ w := by
        rintro s s1 ⟨t, w, ⟨t1, h1, e, -⟩, -, rfl⟩
        obtain ⟨w, hw, hp⟩ := name_noParen hC _ _ h1
        refine ⟨w ++ ", ".toList, by rw [hw, e]; simp, ?_⟩
        intro hm
        rcases List.mem_append.1 hm with hm | hm
        · exact hp hm
        · revert hm; decide
      induction h with
      | single h => exact one _ _ h
      | tail _ h ih =>
        obtain ⟨w1, e1, p1⟩ := ih
        obtain ⟨w2, e2, p2⟩ := one _ _ h
        refine ⟨w1 ++ w2, by rw [e1, e2]; simp, ?_⟩
        intro hm
        rcases List.mem_append.1 hm with hm | hm
        · exact p1 hm
        · exact p2 hm
    exact this
  · exact ⟨[], rfl, by simp⟩

omit hC in
theorem title_noParen (s s' : St) (h : Rel (.opt (.grp 4 (.rep noParen 1 none true ⬝ .lit " ".toList))) s s') :
    ∃ w, s.rest = w ++ s'.rest ∧ '(' ∉ w := by
  rcases h with ⟨s1, w, ⟨t, ⟨x, e1, h1, -, -, -⟩, e2, -⟩, -, rfl⟩ | rfl
  · refine ⟨x ++ " ".toList, by rw [e1, e2]; simp, ?_⟩
    intro hm
    rcases List.mem_append.1 hm with hm | hm
    · have := h1 _ hm; revert this; decide
    · revert hm; decide
  · exact ⟨[], rfl, by simp⟩

/-- What the front of the pattern takes of a string with an author, a title without parentheses and a year. -/
theorem front_unique (a t j : Str) (ha : ScopusName C a) (ht : '(' ∉ t) (n : Nat) (s' : St)
    (h : Rel (front C) ⟨a ++ ", ".toList ++ (t ++ "(".toList ++ showNat n ++ ") ".toList ++ j), []⟩ s') :
    s'.rest = j ∧ group s'.caps 1 = some a ∧ group s'.caps 5 = some (showNat n) := by
  obtain ⟨s1, ⟨s0, w1, h1, e1, hs1⟩, s2, h2, s3, h3, s4, h4, s5, ⟨e5, c5⟩, s6, ⟨s7, w5, h5, e6, hs6⟩, e8, c8⟩ := h
  have hs0 : s1.rest = s0.rest := by rw [hs1]
  have u : s2.rest = _ := author_unique hC a ha _ s2.rest ⟨a ++ ", ".toList ++ (t ++ "(".toList ++ showNat n ++ ") ".toList ++ j), []⟩ s0 rfl h1
    (by rw [← hs0]; exact h2.1)
  have hw1 : w1 = a := by
    have : a ++ (", ".toList ++ (t ++ "(".toList ++ showNat n ++ ") ".toList ++ j)) = w1 ++ (", ".toList ++ (t ++ "(".toList ++ showNat n ++ ") ".toList ++ j)) := by
      rw [← u, ← h2.1, hs0, ← e1, ← hs0, h2.1, u]; simp
    exact (List.append_cancel_right this).symm
  obtain ⟨x, ex, px⟩ := names_noParen hC _ _ h3
  obtain ⟨y, ey, py⟩ := title_noParen _ _ h4
  have hx : t ++ '(' :: (showNat n ++ ") ".toList ++ j) = (x ++ y) ++ '(' :: s5.rest := by
    have : s2.rest = x ++ (y ++ ("(".toList ++ s5.rest)) := by rw [ex, ey, e5]
    rw [u] at this
    simpa using this
  have h5r := (before ht (by simp [px, py]) hx).2
  obtain ⟨w, ew, hw, -, -, cw⟩ := h5
  have hw5 : w5 = w := by
    rw [ew] at e6; exact (List.append_cancel_right e6).symm
  have h7 : s7.rest = ") ".toList ++ s'.rest := by rw [← e8, hs6]
  have hx2 : showNat n ++ ')' :: (' ' :: j) = w ++ ')' :: (' ' :: s'.rest) := by
    have : s5.rest = w ++ (") ".toList ++ s'.rest) := by rw [ew, h7]
    rw [← h5r] at this
    simpa using this
  have hp1 : ')' ∉ showNat n := fun hm => by have := showNat_digits n _ hm; revert this; decide
  have hp2 : ')' ∉ w := fun hm => by have := hw _ hm; rw [hC.paren] at this; cases this
  obtain ⟨f1, f2⟩ := before hp1 hp2 hx2
  refine ⟨by simpa using f2.symm, ?_, ?_⟩
  · rw [c8, hs6]
    show group ((5, w5) :: s7.caps) 1 = _
    rw [show group ((5, w5) :: s7.caps) 1 = group s7.caps 1 from rfl, cw, c5, rel_group _ _ _ h4 1 (by simp [groups]),
      rel_group _ _ _ h3 1 (by simp [groups, scopusName, plus]), h2.2, hs1, hw1]
    rfl
  · rw [c8, hs6, hw5, f1]
    rfl

/-- The front matches. -/
theorem front_exists (a : Str) (t : Option Str) (j : Str) (ha : ScopusName C a) (ht : ∀ x, t = some x → x ≠ [] ∧ '(' ∉ x) (n : Nat)
    (h2 : 2 ≤ (showNat n).length) (h5 : (showNat n).length ≤ 5) (k : St → Option St) (hk : ∀ s, s.rest = j → (k s).isSome = true) :
    (m (front C) k ⟨a ++ ", ".toList ++ (t.elim [] (· ++ " ".toList) ++ "(".toList ++ showNat n ++ ") ".toList ++ j), []⟩).isSome = true := by
  obtain ⟨fam, ini, rfl, hfam0, hfam, hini0, hini⟩ := ha
  generalize hr : t.elim [] (· ++ " ".toList) ++ "(".toList ++ showNat n ++ ") ".toList ++ j = r
  show (m (.grp 1 (scopusName C)) _ _).isSome = true
  refine m_complete (.grp 1 (scopusName C)) rfl _ _ ⟨", ".toList ++ r, [(1, fam ++ " ".toList ++ ini ++ ".".toList)]⟩ ?_ ?_
  · refine ⟨⟨", ".toList ++ r, []⟩, fam ++ " ".toList ++ ini ++ ".".toList, ?_, by simp, rfl⟩
    refine ⟨⟨" ".toList ++ ini ++ ".".toList ++ ", ".toList ++ r, []⟩, ⟨fam, by simp, ?_, ?_, by simp, rfl⟩, ⟨_, _⟩, Or.inr rfl,
      ⟨ini ++ ".".toList ++ ", ".toList ++ r, []⟩, ⟨by simp, rfl⟩, ⟨".".toList ++ ", ".toList ++ r, []⟩, ⟨ini, by simp, ?_, ?_, by simp, rfl⟩, by simp, rfl⟩
    · intro c hc
      have := hfam c hc
      simpa [nameChar, or_assoc] using this
    · have : fam.length ≠ 0 := by simpa using hfam0
      omega
    · intro c hc
      have := hini c hc
      simpa [initialChar, or_assoc] using this
    · have : ini.length ≠ 0 := by simpa using hini0
      omega
  · show (m (.lit ", ".toList) _ _).isSome = true
    refine m_complete (.lit ", ".toList) rfl _ _ ⟨r, [(1, fam ++ " ".toList ++ ini ++ ".".toList)]⟩ ⟨rfl, rfl⟩ ?_
    generalize [(1, fam ++ " ".toList ++ ini ++ ".".toList)] = caps
    show (m (.opt _) _ _).isSome = true
    rw [m, Option.isSome_or, Bool.or_eq_true]
    right
    have hrest : ∀ caps, (m (.lit "(".toList ⬝ .grp 5 (.rep C.digit 2 (some 5) false) ⬝ .lit ") ".toList) k
        ⟨"(".toList ++ showNat n ++ ") ".toList ++ j, caps⟩).isSome = true := by
      intro caps
      refine m_complete _ rfl _ _ ⟨j, (5, showNat n) :: caps⟩ ?_ (hk _ rfl)
      refine ⟨⟨showNat n ++ ") ".toList ++ j, caps⟩, ⟨by simp, rfl⟩, ⟨") ".toList ++ j, (5, showNat n) :: caps⟩, ⟨⟨") ".toList ++ j, caps⟩, showNat n, ?_, by simp, rfl⟩, rfl, rfl⟩
      exact ⟨showNat n, by simp, fun c hc => hC.digits c (showNat_digits n c hc), h2, by rintro h ⟨⟩; exact h5, rfl⟩
    show (m (.opt (.grp 4 (.rep noParen 1 none true ⬝ .lit " ".toList))) _ _).isSome = true
    cases t with
    | none =>
      refine m_complete _ rfl _ _ ⟨r, caps⟩ (Or.inr rfl) ?_
      rw [← hr]
      exact hrest caps
    | some x =>
      obtain ⟨hx0, hxp⟩ := ht x rfl
      refine m_complete _ rfl _ _ ⟨"(".toList ++ showNat n ++ ") ".toList ++ j, (4, x ++ " ".toList) :: caps⟩ (Or.inl ?_) (hrest _)
      refine ⟨⟨"(".toList ++ showNat n ++ ") ".toList ++ j, caps⟩, x ++ " ".toList, ⟨⟨" ".toList ++ "(".toList ++ showNat n ++ ") ".toList ++ j, caps⟩, ⟨x, ?_, ?_, ?_, by simp, rfl⟩, by simp, rfl⟩, ?_, rfl⟩
      · rw [← hr]; simp
      · intro c hc
        unfold noParen
        simp only [decide_eq_true_eq]
        rintro rfl; exact hxp hc
      · have : x.length ≠ 0 := by simpa using hx0
        omega
      · rw [← hr]; simp
end

/-! ## From the journal on -/

theorem takeWhile_eq (p : Char → Bool) (w r : Str) (hw : ∀ c ∈ w, p c = true) (hr : ∀ c t, r = c :: t → p c = false) : (w ++ r).takeWhile p = w := by
  rw [List.takeWhile_append_of_pos hw]
  cases r with
  | nil => simp
  | cons c t => rw [List.takeWhile_cons_of_neg (by rw [hr c t rfl]; simp)]; simp

/-- A greedy `+` or `*` that takes `w`. -/
theorem greedy (p : Char → Bool) (lo : Nat) (w r : Str) (caps : List (Nat × Str)) (k : St → Option St) (x : St) (hw : ∀ c ∈ w, p c = true)
    (hr : ∀ c t, r = c :: t → p c = false) (hlo : lo ≤ w.length) (h : k ⟨r, caps⟩ = some x) : m (.rep p lo none false) k ⟨w ++ r, caps⟩ = some x := by
  have hm : most p none (w ++ r) = w.length := by unfold most; dsimp only; rw [takeWhile_eq p w r hw hr]
  refine rep_greedy p lo none k _ x (by rw [hm]; exact hlo) ?_
  dsimp only
  rw [hm, List.drop_left]
  exact h

/-- The same inside a group. -/
theorem greedy_grp (p : Char → Bool) (lo g : Nat) (w r : Str) (caps : List (Nat × Str)) (k : St → Option St) (x : St) (hw : ∀ c ∈ w, p c = true)
    (hr : ∀ c t, r = c :: t → p c = false) (hlo : lo ≤ w.length) (h : k ⟨r, (g, w) :: caps⟩ = some x) :
    m (.grp g (.rep p lo none false)) k ⟨w ++ r, caps⟩ = some x := by
  rw [m]
  refine greedy p lo w r caps _ x hw hr hlo ?_
  dsimp only
  have : (w ++ r).take ((w ++ r).length - r.length) = w := by simp
  rw [this]
  exact h

theorem lit_yes (t r : Str) (caps : List (Nat × Str)) (k : St → Option St) : m (.lit t) k ⟨t ++ r, caps⟩ = k ⟨r, caps⟩ := by
  rw [m, if_pos (by rw [List.isPrefixOf_iff_prefix]; exact List.prefix_append _ _)]
  dsimp only
  rw [List.drop_left]

theorem lit_no (t : Str) (s : St) (k : St → Option St) (h : ¬ t <+: s.rest) : m (.lit t) k s = none := by
  rw [m, if_neg (by rwa [List.isPrefixOf_iff_prefix])]

theorem grp_of (g : Nat) (r : Re) (k : St → Option St) (s : St) :
    m (.grp g r) k s = m r (fun s' => k ⟨s'.rest, (g, s.rest.take (s.rest.length - s'.rest.length)) :: s'.caps⟩) s := by rw [m]

theorem misc_ok (r : Str) (caps : List (Nat × Str)) : ∃ w, m (.grp 13 (star dot)) some ⟨r, caps⟩ = some ⟨r.dropWhile dot, (13, w) :: caps⟩ := by
  refine ⟨r.takeWhile dot, ?_⟩
  conv_lhs => rw [← List.takeWhile_append_dropWhile (p := dot) (l := r)]
  refine greedy_grp dot 0 13 _ _ caps some _ (Verif.Props.CiteParse.takeWhile_all dot r) ?_ (Nat.zero_le _) rfl
  intro c t h
  have := List.head?_dropWhile_not dot r
  rw [h] at this
  simpa using this

section
variable {C : Chars} (hC : CharsOk C)
include hC

theorem plain_wordDash (v : Str) (h : Plain C v) : ∀ c ∈ v, wordDash C c = true := by
  intro c hc
  have := h.2 c hc
  simpa [wordDash] using this

theorem comma_not_wordDash : wordDash C ',' = false := by unfold wordDash; rw [hC.word ',' (by decide)]; decide
theorem stop_not_wordDash : wordDash C '.' = false := by unfold wordDash; rw [hC.word '.' (by decide)]; decide

/-- The page part does not begin like this. -/
theorem page_none (r : Str) (caps : List (Nat × Str)) (k : St → Option St) (h1 : ¬ ", P".toList <+: r) :
    m (pagePart C) k ⟨r, caps⟩ = k ⟨r, caps⟩ := by
  unfold pagePart
  refine opt_none _ _ _ ?_
  by_contra hne
  obtain ⟨x, hx⟩ := Option.ne_none_iff_exists'.1 hne
  obtain ⟨s', ⟨s1, w, ⟨s2, ⟨e2, -⟩, s3, h3, s4, ⟨e4, -⟩, -⟩, -⟩, -⟩ := m_sound _ _ _ _ hx
  dsimp only at e2
  rcases h3 with ⟨e3, -⟩ | e3
  · exact h1 ⟨s3.rest, by rw [e2, e3]; simp⟩
  · rw [e3] at e4
    exact h1 ⟨". ".toList ++ s4.rest, by rw [e2, e4]; simp⟩

theorem page_some (p : Str) (hp : Plain C p) (caps : List (Nat × Str)) (k : St → Option St) (x : St) (w : Str)
    (hw : w = ", PP. ".toList ++ p) (h : k ⟨[], (11, w) :: (12, p) :: caps⟩ = some x) : m (pagePart C) k ⟨w, caps⟩ = some x := by
  unfold pagePart
  refine opt_some _ _ _ _ ?_
  rw [grp_of]
  have e : w = ", ".toList ++ ("P".toList ++ ("P. ".toList ++ (p ++ []))) := by rw [hw]; simp
  conv_lhs => rw [e]
  show m (.lit ", ".toList) _ _ = _
  rw [lit_yes]
  show m (.opt (.lit "P".toList)) _ _ = _
  refine opt_some _ _ _ _ ?_
  rw [lit_yes]
  show m (.lit "P. ".toList) _ _ = _
  rw [lit_yes]
  refine greedy_grp (wordDash C) 0 12 p [] caps _ x (plain_wordDash hC p hp) (by simp) (Nat.zero_le _) ?_
  dsimp only
  rw [← h]
  have : w.take (w.length - ([] : Str).length) = w := by simp
  rw [← e, this]

/-- The volume part takes the letters and digits after `", "`, unless a number in parentheses follows. -/
theorem vol_some (v r : Str) (hv0 : v ≠ []) (hv : ∀ c ∈ v, wordDash C c = true) (hr : ∀ c t, r = c :: t → wordDash C c = false ∧ c ≠ ' ')
    (caps : List (Nat × Str)) (k : St → Option St) (x : St) (h : k ⟨r, (7, ", ".toList ++ v) :: (8, v) :: caps⟩ = some x) :
    m (volPart C) k ⟨", ".toList ++ (v ++ r), caps⟩ = some x := by
  unfold volPart
  refine opt_some _ _ _ _ ?_
  rw [grp_of]
  show m (.lit ", ".toList) _ _ = _
  rw [lit_yes]
  show m (.grp 8 (plus (wordDash C))) _ _ = _
  refine greedy_grp (wordDash C) 1 8 v r caps _ x hv (fun c t e => (hr c t e).1) (by
    have : v.length ≠ 0 := by simpa using hv0
    omega) ?_
  dsimp only
  have hw : (", ".toList ++ (v ++ r)).take ((", ".toList ++ (v ++ r)).length - r.length) = ", ".toList ++ v := by
    rw [← List.append_assoc]
    simp only [List.length_append, Nat.add_sub_cancel]
    exact List.take_left' (by simp; omega)
  rw [opt_none]
  · dsimp only
    rw [hw, h]
  rw [grp_of]
  refine lit_no _ _ _ ?_
  rintro ⟨t, ht⟩
  cases r with
  | nil => simp at ht
  | cons c r =>
    have : ' ' = c := by
      have := congrArg List.head? ht
      simpa using this
    exact (hr c r rfl).2 this.symm

theorem vol_none (r : Str) (hr : ∀ c t, r = c :: t → wordDash C c = false) (caps : List (Nat × Str)) (k : St → Option St) :
    m (volPart C) k ⟨", ".toList ++ r, caps⟩ = k ⟨", ".toList ++ r, caps⟩ := by
  unfold volPart
  refine opt_none _ _ _ ?_
  rw [grp_of]
  show m (.lit ", ".toList) _ _ = _
  rw [lit_yes]
  show m (.grp 8 (plus (wordDash C))) _ _ = _
  rw [grp_of]
  refine rep_none _ _ _ _ _ _ ?_
  unfold most
  dsimp only
  cases r with
  | nil => simp
  | cons c t => rw [List.takeWhile_cons_of_neg (by rw [hr c t rfl]; simp)]; simp

/-- The string from the journal on. -/
def tailStr (j : Str) (v p : Option Str) : Str := j ++ (", ".toList ++ (v.elim [] (· ++ ", ".toList) ++ p.elim [] ("PP. ".toList ++ ·)))

/-- The volume and the page that are read. -/
def readVol (v p : Option Str) : Option Str := match v, p with
  | some v, _ => some v
  | none, some _ => some "PP".toList
  | none, none => none
def readPage (v p : Option Str) : Option Str := match v with
  | some _ => p
  | none => none

theorem back_spec (hword : C.word 'P' = true) (j : Str) (hj0 : j ≠ []) (hj : ',' ∉ j) (v p : Option Str) (hv : ∀ x, v = some x → Plain C x) (hp : ∀ x, p = some x → Plain C x)
    (caps : List (Nat × Str)) :
    ∃ x, m (back C) some ⟨tailStr j v p, caps⟩ = some x ∧ group x.caps 6 = some j ∧
      (group caps 8 = none → group x.caps 8 = readVol v p) ∧ (group caps 12 = none → group x.caps 12 = readPage v p) ∧
      (∀ g, g < 6 → group x.caps g = group caps g) := by
  have hstart : ∀ (r : Str) (x : St), m (volPart C ⬝ pagePart C ⬝ .grp 13 (star dot)) some ⟨", ".toList ++ r, (6, j) :: caps⟩ = some x →
      m (back C) some ⟨j ++ (", ".toList ++ r), caps⟩ = some x := by
    intro r x h
    unfold back
    show m (.grp 6 (plus noComma)) _ _ = _
    refine greedy_grp noComma 1 6 j _ caps _ x ?_ ?_ ?_ h
    · intro c hc; unfold noComma; simp only [decide_eq_true_eq]; rintro rfl; exact hj hc
    · intro c t e
      have : c = ',' := by
        have := congrArg List.head? e
        simpa using this.symm
      rw [this]; decide
    · have : j.length ≠ 0 := by simpa using hj0
      omega
  have hcomma := comma_not_wordDash hC
  have hstop := stop_not_wordDash hC
  have hP : wordDash C 'P' = true := by unfold wordDash; rw [hword]; rfl
  have hsep : ∀ c t, (", ".toList : Str) = c :: t → wordDash C c = false ∧ c ≠ ' ' := by
    intro c t e
    have : c = ',' := by have := congrArg List.head? e; simpa using this.symm
    rw [this]; exact ⟨hcomma, by decide⟩
  cases v with
  | some v =>
    have hv' := hv v rfl
    cases p with
    | some p =>
      obtain ⟨w13, h13⟩ := misc_ok [] ((11, ", PP. ".toList ++ p) :: (12, p) :: (7, ", ".toList ++ v) :: (8, v) :: (6, j) :: caps)
      refine ⟨⟨List.dropWhile dot [], (13, w13) :: (11, ", PP. ".toList ++ p) :: (12, p) :: (7, ", ".toList ++ v) :: (8, v) :: (6, j) :: caps⟩, ?_, rfl, fun _ => rfl, fun _ => rfl, ?_⟩
      · have e : tailStr j (some v) (some p) = j ++ (", ".toList ++ (v ++ (", PP. ".toList ++ p))) := by simp [tailStr]
        rw [e]
        refine hstart _ _ (vol_some hC v _ hv'.1 (plain_wordDash hC v hv') ?_ _ _ _ (page_some hC p (hp p rfl) _ _ _ _ rfl h13))
        intro c t e
        have : c = ',' := by have := congrArg List.head? e; simpa using this.symm
        rw [this]; exact ⟨hcomma, by decide⟩
      · intro g hg
        simp only [Verif.Py.Regex.group, List.find?_cons]
        have h1 : ∀ n, 6 ≤ n → decide (n = g) = false := fun n hn => by simp; omega
        simp [h1]
    | none =>
      obtain ⟨w13, h13⟩ := misc_ok ", ".toList ((7, ", ".toList ++ v) :: (8, v) :: (6, j) :: caps)
      refine ⟨⟨List.dropWhile dot (", ".toList), (13, w13) :: (7, ", ".toList ++ v) :: (8, v) :: (6, j) :: caps⟩, ?_, rfl, fun _ => rfl, fun h => h, ?_⟩
      · have e : tailStr j (some v) none = j ++ (", ".toList ++ (v ++ ", ".toList)) := by simp [tailStr]
        rw [e]
        refine hstart _ _ (vol_some hC v _ hv'.1 (plain_wordDash hC v hv') hsep _ _ _ ?_)
        show m (pagePart C) _ _ = _
        rw [page_none hC _ _ _ (by decide)]
        exact h13
      · intro g hg
        simp only [Verif.Py.Regex.group, List.find?_cons]
        have h1 : ∀ n, 6 ≤ n → decide (n = g) = false := fun n hn => by simp; omega
        simp [h1]
  | none =>
    cases p with
    | some p =>
      obtain ⟨w13, h13⟩ := misc_ok (". ".toList ++ p) ((7, ", ".toList ++ "PP".toList) :: (8, "PP".toList) :: (6, j) :: caps)
      refine ⟨⟨List.dropWhile dot (". ".toList ++ p), (13, w13) :: (7, ", ".toList ++ "PP".toList) :: (8, "PP".toList) :: (6, j) :: caps⟩, ?_, rfl, fun _ => rfl, fun h => h, ?_⟩
      · have e : tailStr j none (some p) = j ++ (", ".toList ++ ("PP".toList ++ (". ".toList ++ p))) := by simp [tailStr]
        rw [e]
        refine hstart _ _ (vol_some hC "PP".toList _ (by decide) ?_ ?_ _ _ _ ?_)
        · intro c hc
          have : c = 'P' := by simpa using hc
          rw [this]; exact hP
        · intro c t e
          have : c = '.' := by have := congrArg List.head? e; simpa using this.symm
          rw [this]; exact ⟨hstop, by decide⟩
        · show m (pagePart C) _ _ = _
          rw [page_none hC _ _ _ (by rintro ⟨t, ht⟩; have := congrArg List.head? ht; simp at this)]
          exact h13
      · intro g hg
        simp only [Verif.Py.Regex.group, List.find?_cons]
        have h1 : ∀ n, 6 ≤ n → decide (n = g) = false := fun n hn => by simp; omega
        simp [h1]
    | none =>
      obtain ⟨w13, h13⟩ := misc_ok (", ".toList ++ []) ((6, j) :: caps)
      refine ⟨⟨List.dropWhile dot (", ".toList ++ []), (13, w13) :: (6, j) :: caps⟩, ?_, rfl, fun h => h, fun h => h, ?_⟩
      · have e : tailStr j none none = j ++ (", ".toList ++ []) := by simp [tailStr]
        rw [e]
        refine hstart _ _ ?_
        show m (volPart C) _ _ = _
        rw [vol_none hC [] (by simp)]
        show m (pagePart C) _ _ = _
        rw [page_none hC _ _ _ (by decide)]
        exact h13
      · intro g hg
        simp only [Verif.Py.Regex.group, List.find?_cons]
        have h1 : ∀ n, 6 ≤ n → decide (n = g) = false := fun n hn => by simp; omega
        simp [h1]
end

/-! ## The whole string -/

section
variable {C : Chars} (hC : CharsOk C)
include hC

theorem parse_whole (hword : C.word 'P' = true) (a : Str) (t : Option Str) (j : Str) (v p : Option Str) (ha : ScopusName C a)
    (ht : ∀ x, t = some x → x ≠ [] ∧ '(' ∉ x) (n : Nat) (h2 : 2 ≤ (showNat n).length) (h5 : (showNat n).length ≤ 5)
    (hj0 : j ≠ []) (hj : ',' ∉ j) (hv : ∀ x, v = some x → Plain C x) (hp : ∀ x, p = some x → Plain C x) :
    ∃ caps, matchStart (scopusRe C) (a ++ ", ".toList ++ (t.elim [] (· ++ " ".toList) ++ "(".toList ++ showNat n ++ ") ".toList ++ tailStr j v p)) = some caps ∧
      group caps 1 = some a ∧ group caps 5 = some (showNat n) ∧ group caps 6 = some j ∧ group caps 8 = readVol v p ∧ group caps 12 = readPage v p := by
  have hsome := front_exists hC a t (tailStr j v p) ha ht n h2 h5 (m (back C) some) (by
    rintro ⟨r, caps⟩ rfl
    obtain ⟨x, hx, -⟩ := back_spec hC hword j hj0 hj v p hv hp caps
    rw [hx]; rfl)
  obtain ⟨x, hx⟩ := Option.isSome_iff_exists.1 hsome
  obtain ⟨s', hr, hs'⟩ := m_sound _ _ _ _ hx
  have ht' : '(' ∉ t.elim [] (· ++ " ".toList) := by
    cases t with
    | none => simp
    | some y =>
      have := (ht y rfl).2
      show '(' ∉ y ++ " ".toList
      rw [List.mem_append]
      rintro (h | h)
      · exact this h
      · revert h; decide
  obtain ⟨e1, e2, e3⟩ := front_unique hC a _ _ ha ht' n s' hr
  obtain ⟨x', hx', g6, g8, g12, gl⟩ := back_spec hC hword j hj0 hj v p hv hp s'.caps
  have e4 : s' = ⟨tailStr j v p, s'.caps⟩ := by rw [← e1]
  rw [e4, hx'] at hs'
  have : x' = x := by simpa using hs'
  subst this
  have hno : ∀ g, 6 < g → group s'.caps g = none := by
    intro g hg
    rw [rel_group _ _ _ hr g (by simp [front, groups, scopusName, plus]; omega)]
    rfl
  refine ⟨x'.caps, ?_, ?_, ?_, g6, g8 (hno 8 (by omega)), g12 (hno 12 (by omega))⟩
  · unfold matchStart
    rw [m_split, hx]; rfl
  · rw [gl 1 (by omega), e2]
  · rw [gl 5 (by omega), e3]

theorem upper_fixed' (s : Str) (h : ∀ c ∈ s, isDig c = true ∨ c ∈ ",(). P".toList) : C.upper s = s := by
  unfold Chars.upper
  induction s with
  | nil => rfl
  | cons c s ih =>
    rw [List.flatMap_cons, ih (fun d hd => h d (by simp [hd])), hC.fixed c (h c (by simp))]
    rfl

theorem upper_mark (k : Char) (hk : k ∈ ",()".toList) (s : Str) (h : k ∉ s) : k ∉ C.upper s := by
  unfold Chars.upper
  rw [List.mem_flatMap]
  rintro ⟨c, hc, hm⟩
  exact hC.marks k hk c (by rintro rfl; exact h hc) hm

theorem upper_ne (s : Str) (h : s ≠ []) : C.upper s ≠ [] := by
  cases s with
  | nil => exact absurd rfl h
  | cons c s =>
    unfold Chars.upper
    rw [List.flatMap_cons]
    simp [hC.ne c]
end

/-! ## The strings of a record -/

open Verif.Props.CiteParse (present truthy_present present_some upper_append truthy_some partId_full)

theorem filter_flat (c : Char) (s : Str) : Str.replace [c] [] s = s.filter (fun x => x ≠ c) := by
  rw [Verif.Props.Bib.replace_char]
  induction s with
  | nil => rfl
  | cons x s ih =>
    rw [List.flatMap_cons, ih]
    by_cases h : x = c <;> simp [h]

/-- An author without commas, a title without parentheses. -/
def noCommas (s : Str) : Str := s.filter (fun c => c ≠ ',')
def noParens (s : Str) : Str := s.filter (fun c => c ≠ '(' && c ≠ ')')

theorem plainAuthor_eq (a : Str) : plainAuthor a = noCommas a := filter_flat ',' a

theorem title_eq (t : Str) : Str.replace ")".toList [] (Str.replace "(".toList [] t) = noParens t := by
  show Str.replace [')'] [] (Str.replace ['('] [] t) = _
  rw [filter_flat, filter_flat, List.filter_filter]
  unfold noParens
  congr 1
  funext c
  by_cases h1 : c = '(' <;> by_cases h2 : c = ')' <;> simp [h1, h2]

theorem flat_present (o : Option Str) (f : Str → Str) : (truthy o).flatMap f = (present o).elim [] f := by
  rw [truthy_present]
  cases present o <;> simp

/-- `valsStr` of a record with a year and a journal. -/
theorem valsStr_eq (v : SVals) (n : Nat) (hy : v.year = some (n : Int)) (hn : n ≠ 0) (j : Str) (hj : v.journal = some j) (hj0 : j ≠ []) :
    valsStr v = (present v.title).elim [] (fun t => noParens t ++ " ".toList) ++ "(".toList ++ showNat n ++ ") ".toList ++
      tailStr j (present v.volume) (present v.page) := by
  unfold valsStr tailStr
  rw [flat_present, flat_present v.volume, flat_present v.page, hj, hy, truthy_some j hj0]
  have h1 : (some (n : Int)).toList.filter (fun i => i ≠ 0) = [(n : Int)] := by simp [hn]
  rw [h1]
  simp only [List.flatMap_cons, List.flatMap_nil, title_eq, showInt]
  simp only [List.append_assoc, List.append_nil]

theorem two_digits (n : Nat) (h : 10 ≤ n) : 2 ≤ (showNat n).length := by
  by_contra hlt
  have hne := showNat_ne_nil n
  have hr := readNat_showNat n
  have hd := showNat_digits n
  match hs : showNat n with
  | [] => exact hne hs
  | [c] =>
    rw [hs] at hr hd
    have := hd c (by simp)
    have hv : digitVal c < 10 := by
      unfold isDig at this
      unfold digitVal
      simp only [decide_eq_true_eq] at this
      have h2 : c.toNat ≤ 57 := by
        have := this.2
        rw [Char.le_def, UInt32.le_iff_toNat_le] at this
        exact this
      omega
    simp [readNat] at hr
    omega
  | c :: d :: l => rw [hs] at hlt; simp at hlt

section
variable {C : Chars} (hC : CharsOk C)
include hC

theorem upper_elim (o : Option Str) (t : Str) (ht : ∀ c ∈ t, isDig c = true ∨ c ∈ ",(). P".toList) (f : Str → Str) :
    C.upper (o.elim [] (fun x => f x ++ t)) = (o.map (fun x => C.upper (f x))).elim [] (· ++ t) := by
  cases o with
  | none => rfl
  | some x =>
    show C.upper (f x ++ t) = C.upper (f x) ++ t
    rw [upper_append, upper_fixed' hC t ht]

theorem upper_vals (v : SVals) (n : Nat) (hy : v.year = some (n : Int)) (hn : n ≠ 0) (j : Str) (hj : v.journal = some j) (hj0 : j ≠ []) :
    C.upper (valsStr v) = ((present v.title).map (fun t => C.upper (noParens t))).elim [] (· ++ " ".toList) ++ "(".toList ++ showNat n ++ ") ".toList ++
      tailStr (C.upper j) ((present v.volume).map C.upper) ((present v.page).map C.upper) := by
  rw [valsStr_eq v n hy hn j hj hj0]
  unfold tailStr
  simp only [upper_append]
  rw [upper_elim hC (present v.title) " ".toList (by decide) noParens, upper_elim hC (present v.volume) ", ".toList (by decide) (fun x => x),
    upper_fixed' hC "(".toList (by decide), upper_fixed' hC ") ".toList (by decide), upper_fixed' hC ", ".toList (by decide),
    upper_fixed' hC (showNat n) (fun c hc => Or.inl (showNat_digits n c hc))]
  congr 3
  cases present v.page with
  | none => rfl
  | some x =>
    show _ ++ C.upper ("PP. ".toList ++ x) = _
    rw [upper_append, upper_fixed' hC "PP. ".toList (by decide)]
    rfl

/-- The citation of a record with a readable author, a year of two to five digits and a journal without a comma. -/
theorem cite_fields (hword : C.word 'P' = true) (v : SVals) (a : Str) (others : List Str) (ha : v.authors = a :: others)
    (hname : ScopusName C (C.upper (noCommas a))) (n : Nat) (hy : v.year = some (n : Int)) (h10 : 10 ≤ n) (hn : n < 100000)
    (j : Str) (hj : v.journal = some j) (hj0 : j ≠ []) (hjc : ',' ∉ j) (ht : ∀ t, v.title = some t → t ≠ [] → ∃ c ∈ t, c ≠ '(' ∧ c ≠ ')')
    (hv : ∀ x, present v.volume = some x → Plain C (C.upper x)) (hp : ∀ x, present v.page = some x → Plain C (C.upper x)) :
    let c := (createCitation C v).parsed.cite
    c.bad = false ∧ c.author = some (some (C.upper (noCommas a))) ∧ c.year = some (some (n : Int)) ∧ c.journal = some (some (C.upper j)) ∧
      c.id = C.upper (noCommas a) ++ ", ".toList ++ showNat n ++ ", ".toList ++ C.upper j ∧
      c.V = some (readVol ((present v.volume).map C.upper) ((present v.page).map C.upper)) ∧
      c.P = some (readPage ((present v.volume).map C.upper) ((present v.page).map C.upper)) ∧ c.original = citeString v := by
  have hup : C.upper (citeString v) = C.upper (noCommas a) ++ ", ".toList ++
      (((present v.title).map (fun t => C.upper (noParens t))).elim [] (· ++ " ".toList) ++ "(".toList ++ showNat n ++ ") ".toList ++
      tailStr (C.upper j) ((present v.volume).map C.upper) ((present v.page).map C.upper)) := by
    unfold citeString
    rw [ha]
    dsimp only
    rw [upper_append, upper_append, upper_vals hC v n hy (by omega) j hj hj0, plainAuthor_eq, upper_fixed' hC ", ".toList (by decide)]
  have hA0 : C.upper (noCommas a) ≠ [] := by
    obtain ⟨f, i, e, hf, -⟩ := hname
    rw [e]; simp
  obtain ⟨caps, hm, g1, g5, g6, g8, g12⟩ := parse_whole hC hword (C.upper (noCommas a)) ((present v.title).map (fun t => C.upper (noParens t)))
    (C.upper j) ((present v.volume).map C.upper) ((present v.page).map C.upper) hname (by
      intro x hx
      obtain ⟨t, e, rfl⟩ := Option.map_eq_some_iff.1 hx
      obtain ⟨e1, e2⟩ := present_some _ _ e
      constructor
      · refine upper_ne hC _ ?_
        obtain ⟨c, hc, h1, h2⟩ := ht t e1 e2
        exact List.ne_nil_of_mem (List.mem_filter.2 ⟨hc, by simp [h1, h2]⟩)
      · refine upper_mark hC '(' (by decide) _ ?_
        intro hm
        have := (List.mem_filter.1 hm).2
        simp at this) n (two_digits n h10) (showNat_length n hn) (upper_ne hC j hj0) (upper_mark hC ',' (by decide) j hjc)
    (by intro x hx; obtain ⟨y, e, rfl⟩ := Option.map_eq_some_iff.1 hx; exact hv y e)
    (by intro x hx; obtain ⟨y, e, rfl⟩ := Option.map_eq_some_iff.1 hx; exact hp y e)
  have hpar : parseScopus C (citeString v) =
      ⟨⟨C.upper (noCommas a) ++ ", ".toList ++ showNat n ++ ", ".toList ++ C.upper j, citeString v, some (some (C.upper (noCommas a))), some (some (n : Int)),
        some (some (C.upper j)), some (group caps 8), some (group caps 12), some (group caps 13), false⟩, none⟩ := by
    unfold parseScopus
    rw [hup, hm]
    dsimp only
    rw [g1, g5, g6, truthy_some _ hA0, truthy_some _ (upper_ne hC j hj0)]
    have h1 : ((some (showNat n)).map C.intOf).toList.filter (fun i => i ≠ 0) = [(n : Int)] := by
      have : n ≠ 0 := by omega
      simp [hC.int n, this]
    rw [h1]
    dsimp only
    rw [Option.map_some, hC.int n]
    rfl
  have hcc : createCitation C v = ⟨parseScopus C (citeString v), none⟩ := by
    unfold createCitation mend
    rw [hpar]
    rfl
  dsimp only
  rw [hcc, hpar]
  exact ⟨rfl, rfl, rfl, rfl, rfl, by rw [g8], by rw [g12], rfl⟩

/-- **C77**: the citation made of a Scopus record, if its first author is written as Scopus writes names, its year has two to five digits and its
journal has no comma, is good and is of that author, year and journal, all in upper case; its id is made of them. The title, whatever it
is, does not matter. The volume and the page are those of the record, provided that there is a volume or no page. -/
theorem C77_parses_back_partial (hword : C.word 'P' = true) (v : SVals) (a : Str) (others : List Str) (ha : v.authors = a :: others)
    (hname : ScopusName C (C.upper (a.filter (fun c => c ≠ ',')))) (n : Nat) (hy : v.year = some (n : Int)) (h10 : 10 ≤ n) (hn : n < 100000)
    (j : Str) (hj : v.journal = some j) (hj0 : j ≠ []) (hjc : ',' ∉ j) (ht : ∀ t, v.title = some t → t ≠ [] → ∃ c ∈ t, c ≠ '(' ∧ c ≠ ')')
    (hv : ∀ x, v.volume = some x → x ≠ [] → Plain C (C.upper x)) (hp : ∀ x, v.page = some x → x ≠ [] → Plain C (C.upper x)) :
    let c := (createCitation C v).parsed.cite
    let A := C.upper (a.filter (fun c => c ≠ ','))
    c.bad = false ∧ c.author = some (some A) ∧ c.year = some (some (n : Int)) ∧ c.journal = some (some (C.upper j)) ∧
      c.id = A ++ ", ".toList ++ showNat n ++ ", ".toList ++ C.upper j ∧
      (∀ x, v.volume = some x → x ≠ [] → c.V = some (some (C.upper x)) ∧
        (∀ y, v.page = some y → y ≠ [] → c.P = some (some (C.upper y))) ∧ (v.page = none → c.P = some none)) ∧
      (v.volume = none → v.page = none → c.V = some none ∧ c.P = some none) := by
  obtain ⟨h1, h2, h3, h4, h5, h6, h7, -⟩ := cite_fields hC hword v a others ha hname n hy h10 hn j hj hj0 hjc ht
    (fun x hx => hv x (present_some _ _ hx).1 (present_some _ _ hx).2) (fun x hx => hp x (present_some _ _ hx).1 (present_some _ _ hx).2)
  have hpr : ∀ x : Str, x ≠ [] → present (some x) = some x := by intro x hx; simp [present, hx]
  refine ⟨h1, h2, h3, h4, h5, ?_, ?_⟩
  · intro x hx hx0
    rw [hx, hpr x hx0] at h6 h7
    refine ⟨h6, ?_, ?_⟩
    · intro y hy hy0; rw [hy, hpr y hy0] at h7; exact h7
    · intro hy; rw [hy] at h7; exact h7
  · intro hx hy
    rw [hx, hy] at h6 h7
    exact ⟨h6, h7⟩

/-- **C77 fails** for a record with a page and no volume: the citation has the volume `PP` and no page. -/
theorem C77_page_as_volume (hword : C.word 'P' = true) (v : SVals) (a : Str) (others : List Str) (ha : v.authors = a :: others)
    (hname : ScopusName C (C.upper (a.filter (fun c => c ≠ ',')))) (n : Nat) (hy : v.year = some (n : Int)) (h10 : 10 ≤ n) (hn : n < 100000)
    (j : Str) (hj : v.journal = some j) (hj0 : j ≠ []) (hjc : ',' ∉ j) (ht : ∀ t, v.title = some t → t ≠ [] → ∃ c ∈ t, c ≠ '(' ∧ c ≠ ')')
    (hv : v.volume = none) (x : Str) (hx : v.page = some x) (hp : Plain C (C.upper x)) (hx0 : x ≠ []) :
    (createCitation C v).parsed.cite.V = some (some "PP".toList) ∧ (createCitation C v).parsed.cite.P = some none := by
  obtain ⟨-, -, -, -, -, h6, h7, -⟩ := cite_fields hC hword v a others ha hname n hy h10 hn j hj hj0 hjc ht
    (fun y hy => by rw [hv] at hy; cases hy) (fun y hy => by
      have := (present_some _ _ hy).1
      rw [hx] at this; cases this; exact hp)
  have hpr : present (some x) = some x := by simp [present, hx0]
  rw [hv, hx, hpr] at h6 h7
  exact ⟨h6, h7⟩

omit hC in
/-- **C77**: a citation that could not be read is given the year of the record, or 0, and its journal and title in upper case; a good one is
left as it was read. -/
theorem C77_bad (v : SVals) :
    ((createCitation C v).parsed.cite.bad = true →
      (createCitation C v).parsed.cite.year = some (some (v.year.getD 0)) ∧
      (createCitation C v).parsed.cite.journal = some (some (C.upper (v.journal.getD []))) ∧
      (createCitation C v).name = some (C.upper (v.title.getD []))) ∧
    ((createCitation C v).parsed.cite.bad = false → (createCitation C v).parsed = parseScopus C (citeString v)) := by
  unfold createCitation mend
  split
  · rename_i h
    exact ⟨fun _ => ⟨rfl, rfl, rfl⟩, fun h2 => by dsimp only at h2; rw [h] at h2; cases h2⟩
  · rename_i h
    exact ⟨fun h2 => absurd h2 h, fun _ => rfl⟩

/-- No match when the first parenthesis comes before the first comma. -/
theorem no_match (x r : Str) (hx : ',' ∉ x) : matchStart (scopusRe C) (x ++ '(' :: r) = none := by
  unfold matchStart
  rw [Option.map_eq_none_iff]
  by_contra hne
  obtain ⟨y, hy⟩ := Option.ne_none_iff_exists'.1 hne
  rw [m_split] at hy
  obtain ⟨s', ⟨s1, ⟨s0, w1, h1, e1, hs1⟩, s2, ⟨e2, -⟩, -⟩, -⟩ := m_sound _ _ _ _ hy
  obtain ⟨w, ew, hp⟩ := name_noParen hC _ _ h1
  have e : x ++ '(' :: r = w ++ ',' :: (' ' :: s2.rest) := by
    have : s0.rest = ", ".toList ++ s2.rest := by rw [← e2, hs1]
    rw [this] at ew
    simpa using ew
  rw [List.append_eq_append_iff] at e
  rcases e with ⟨z, e1, e2⟩ | ⟨z, e1, e2⟩
  · cases z with
    | nil => simp at e2
    | cons c z =>
      simp at e2
      exact hp (by rw [e1, ← e2.1]; simp)
  · cases z with
    | nil => simp at e2
    | cons c z =>
      simp at e2
      exact hx (by rw [e1, ← e2.1]; simp)

/-- **C77 fails for `multiCite`**: nothing separates the author from the title, so none of the citations of a record with a year can be
read, unless there is a comma in the title. There is one for each author (one if there is none), each bad and without an author, its id being
the whole string; year and journal are those of the record. -/
theorem C77_multi_bad (v : SVals) (n : Nat) (hy : v.year = some (n : Int)) (hn : n ≠ 0) (ht : ∀ t, v.title = some t → ',' ∉ t) :
    (createCitations C v).length = max 1 v.authors.length ∧
    ∀ c ∈ createCitations C v, c.parsed.cite.bad = true ∧ c.parsed.cite.author = none ∧ c.parsed.cite.id = c.parsed.cite.original ∧
      c.parsed.cite.year = some (some (n : Int)) ∧ c.parsed.cite.journal = some (some (C.upper (v.journal.getD []))) := by
  constructor
  · unfold createCitations citeStrings
    split
    · rename_i h; simp [h]
    · rename_i h
      have : v.authors.length ≠ 0 := by simpa using h
      simp; omega
  · intro c hc
    have key : ∀ s ∈ citeStrings v, ∃ x r, C.upper s = x ++ '(' :: r ∧ ',' ∉ x := by
      have hvals : ∀ a : Str, ',' ∉ a → ∃ x r, C.upper (a ++ valsStr v) = x ++ '(' :: r ∧ ',' ∉ x := by
        intro a ha
        have h1 : (some (n : Int)).toList.filter (fun i => i ≠ 0) = [(n : Int)] := by simp [hn]
        refine ⟨C.upper a ++ C.upper ((present v.title).elim [] (fun t => noParens t ++ " ".toList)),
          C.upper (showNat n ++ ") ".toList ++ ((truthy v.journal).flatMap (fun j => j ++ ", ".toList)) ++
            ((truthy v.volume).flatMap (fun x => x ++ ", ".toList)) ++ ((truthy v.page).flatMap (fun x => "PP. ".toList ++ x))), ?_, ?_⟩
        · have e : valsStr v = (present v.title).elim [] (fun t => noParens t ++ " ".toList) ++ ("(".toList ++ (showNat n ++ ") ".toList ++
              ((truthy v.journal).flatMap (fun j => j ++ ", ".toList)) ++
              ((truthy v.volume).flatMap (fun x => x ++ ", ".toList)) ++ ((truthy v.page).flatMap (fun x => "PP. ".toList ++ x)))) := by
            unfold valsStr
            rw [flat_present v.title, hy, h1]
            simp only [List.flatMap_cons, List.flatMap_nil, title_eq, showInt, List.append_assoc, List.append_nil]
          rw [e, upper_append, upper_append, upper_append, upper_fixed' hC "(".toList (by decide)]
          simp
        · rw [List.mem_append]
          rintro (h | h)
          · exact upper_mark hC ',' (by decide) a ha h
          · refine upper_mark hC ',' (by decide) _ ?_ h
            cases ht' : present v.title with
            | none => simp
            | some t =>
              have := ht t (present_some _ _ ht').1
              show ',' ∉ noParens t ++ " ".toList
              rw [List.mem_append]
              rintro (h | h)
              · exact this (List.mem_filter.1 h).1
              · revert h; decide
      intro s hs
      unfold citeStrings at hs
      split at hs
      · have := hvals [] (by simp)
        rw [List.mem_singleton.1 hs]; exact this
      · obtain ⟨a, -, rfl⟩ := List.mem_map.1 hs
        refine hvals _ ?_
        rw [plainAuthor_eq]
        intro hm
        have := (List.mem_filter.1 hm).2
        simp at this
    unfold createCitations at hc
    obtain ⟨s, hs, rfl⟩ := List.mem_map.1 hc
    obtain ⟨x, r, e, hx⟩ := key s hs
    have hpar : parseScopus C s = ⟨⟨s, s, none, none, none, none, none, none, true⟩, none⟩ := by
      unfold parseScopus
      rw [e, no_match hC x r hx]
    rw [hpar]
    refine ⟨rfl, rfl, rfl, ?_, rfl⟩
    show some (some (v.year.getD 0)) = _
    rw [hy]; rfl
end

/-! ## Witnesses -/

theorem upAscii_marks : ∀ n, n < 26 → ∀ m ∈ ",()".toList, Char.ofNat (65 + n) ≠ m := by decide
theorem lower_not_digit : ∀ n, n < 26 → isDig (Char.ofNat (97 + n)) = false ∧ Char.ofNat (97 + n) ∉ ",(). P".toList := by decide

open Verif.Props.CiteParse in
/-- ASCII characters are as assumed. -/
theorem ascii_ok : CharsOk ascii where
  word := by decide
  space := by decide
  digits := fun _ h => h
  paren := by decide
  int := fun n => by
    show readInt (showNat n) = _
    rw [readInt_digits _ (showNat_digits n), readNat_showNat]
  ne := by simp [ascii]
  marks := by
    intro k hk c hc h
    simp only [ascii, List.mem_singleton] at h
    rcases upAscii_cases c with ⟨n, hn, -, h2⟩ | h2
    · rw [h2] at h; exact upAscii_marks n hn k hk h.symm
    · rw [h2] at h; exact hc h.symm
  fixed := by
    intro c h
    rcases upAscii_cases c with ⟨n, hn, e, -⟩ | h2
    · have := lower_not_digit n hn
      rw [← e] at this
      rcases h with h | h
      · rw [this.1] at h; cases h
      · exact absurd h this.2
    · simp [ascii, h2]

open Verif.Props.CiteParse (ascii)

/-- A record with all values. -/
def rec1 : SVals := ⟨["Smith J.A.".toList, "Doe A.".toList], some "On (some) things, Foo B., and so on".toList, some 2001, some "Thing Journal".toList, some "4".toList, some "7".toList⟩

example : citeString rec1 = "Smith J.A., On some things, Foo B., and so on (2001) Thing Journal, 4, PP. 7".toList := by decide +kernel
example : (createCitation ascii rec1).parsed.cite.bad = false ∧ (createCitation ascii rec1).parsed.cite.author = some (some "SMITH J.A.".toList) := by
  have h := C77_parses_back_partial ascii_ok (by decide) rec1 "Smith J.A.".toList _ rfl
    ⟨"SMITH".toList, "J.A".toList, by decide +kernel, by decide, by decide, by decide, by decide⟩ 2001 rfl (by decide) (by decide) "Thing Journal".toList rfl (by decide) (by decide)
    (by intro t ht _; cases ht; exact ⟨'O', by decide, by decide, by decide⟩)
    (by intro x hx _; cases hx; exact ⟨by decide, by decide⟩) (by intro x hx _; cases hx; exact ⟨by decide, by decide⟩)
  exact ⟨h.1, h.2.1⟩

/-- A record with a page and no volume. -/
example : (createCitation ascii { rec1 with volume := none }).parsed.cite.V = some (some "PP".toList) := by decide +kernel
example : (createCitations ascii { rec1 with title := some "On things".toList }).map (fun c => c.parsed.cite.id) =
    ["Smith J.A.On things (2001) Thing Journal, 4, PP. 7".toList, "Doe A.On things (2001) Thing Journal, 4, PP. 7".toList] := by decide +kernel

end Verif.Props.ScopusCite
