import Verif.Spec.ScopusEntry
import Verif.Props.ScopusCite

/-!
# C123: references as Scopus writes them
-/
set_option autoImplicit false
set_option linter.unusedSimpArgs false
namespace Verif.Props.ScopusEntry
open Verif.Py Verif.Py.Regex Verif.Spec.ScopusEntry Verif.Props.ScopusCite
open Verif.Model.CiteParse hiding citeString citeStrings
open Verif.Props.CiteParse (upper_append truthy_some ascii)

section
variable {C : Chars} (hC : CharsOk C)
include hC

/-- The match takes the whole inverted author. -/
theorem author_inverted (fam ini : Str) (hf : FamilyName C.word fam) (hi : Initials C.word ini) (r r2 : Str) (s s1 : St)
    (hs : s.rest = fam ++ ", ".toList ++ ini ++ ".".toList ++ ", ".toList ++ r) (h1 : Rel (scopusName C) s s1) (e2 : s1.rest = ", ".toList ++ r2) : r2 = r := by
  obtain ⟨f, i, comma, hcm, e, hfn, hf0, hin⟩ := rel_name hC s s1 h1
  have w1 : C.word ',' = false := hC.word ',' (by decide)
  have hcf : ',' ∉ f := fun hm => nameChar_mark hC _ (hfn _ hm) (by decide)
  have hci : ',' ∉ i := fun hm => initialChar_mark hC _ (hin _ hm) (by decide)
  have hcfam : ',' ∉ fam := by
    intro hm
    rcases hf.2 _ hm with h | h | h
    · rw [w1] at h; cases h
    · revert h; decide
    · revert h; decide
  have hcini : ',' ∉ ini := by
    intro hm
    rcases hi.2 _ hm with h | h | h
    · rw [w1] at h; cases h
    · revert h; decide
    · revert h; decide
  rcases hcm with rfl | rfl
  · exfalso
    have hc2 : ',' ∉ f ++ " ".toList ++ i ++ ".".toList := by
      intro hm
      simp only [List.mem_append] at hm
      rcases hm with ((hm | hm) | hm) | hm
      · exact hcf hm
      · revert hm; decide
      · exact hci hm
      · revert hm; decide
    have : fam ++ ',' :: (" ".toList ++ ini ++ ".".toList ++ ", ".toList ++ r) = (f ++ " ".toList ++ i ++ ".".toList) ++ ',' :: (' ' :: r2) := by
      have e' := hs.symm.trans e
      rw [e2] at e'
      simpa using e'
    have := (before hcfam hc2 this).1
    have hd : '.' ∈ fam := by rw [this]; simp
    rcases hf.2 _ hd with h | h | h
    · rw [hC.word '.' (by decide)] at h; cases h
    · revert h; decide
    · revert h; decide
  · have : fam ++ ',' :: (" ".toList ++ ini ++ ".".toList ++ ", ".toList ++ r) = f ++ ',' :: (" ".toList ++ i ++ ".".toList ++ ", ".toList ++ r2) := by
      have e' := hs.symm.trans e
      rw [e2] at e'
      simpa using e'
    have h2 := (before hcfam hcf this).2
    have h3 : (ini ++ ".".toList) ++ ',' :: (' ' :: r) = (i ++ ".".toList) ++ ',' :: (' ' :: r2) := by simpa using h2
    have := (before (by simp [hcini]) (by simp [hci]) h3).2
    simpa using this.symm

/-- What the front of the pattern takes of a reference. -/
theorem front_takes (fam ini t j : Str) (hf : FamilyName C.word fam) (hi : Initials C.word ini) (ht : '(' ∉ t) (n : Nat) (s' : St)
    (h : Rel (front C) ⟨fam ++ ", ".toList ++ ini ++ ".".toList ++ ", ".toList ++ (t ++ "(".toList ++ showNat n ++ ") ".toList ++ j), []⟩ s') :
    s'.rest = j ∧ group s'.caps 1 = some (fam ++ ", ".toList ++ ini ++ ".".toList) ∧ group s'.caps 5 = some (showNat n) := by
  generalize ha : fam ++ ", ".toList ++ ini ++ ".".toList = a at h ⊢
  obtain ⟨s1, ⟨s0, w1, h1, e1, hs1⟩, s2, h2, s3, h3, s4, h4, s5, ⟨e5, c5⟩, s6, ⟨s7, w5, h5, e6, hs6⟩, e8, c8⟩ := h
  have hs0 : s1.rest = s0.rest := by rw [hs1]
  have u : s2.rest = _ := author_inverted hC fam ini hf hi _ s2.rest ⟨a ++ ", ".toList ++ (t ++ "(".toList ++ showNat n ++ ") ".toList ++ j), []⟩ s0 (by rw [ha]) h1
    (by rw [← hs0]; exact h2.1)
  have hw1 : w1 = a := by
    have : a ++ (", ".toList ++ (t ++ "(".toList ++ showNat n ++ ") ".toList ++ j)) = w1 ++ (", ".toList ++ (t ++ "(".toList ++ showNat n ++ ") ".toList ++ j)) := by
      rw [← u, ← h2.1, hs0, ← e1, ← hs0, h2.1, u]; simp
    exact (List.append_cancel_right this).symm
  obtain ⟨x, ex, px⟩ := names_noParen hC _ _ h3
  obtain ⟨y, ey, py⟩ := title_noParen _ _ h4
  have hx : t ++ '(' :: (showNat n ++ ") ".toList ++ j) = (x ++ y) ++ '(' :: s5.rest := by
    have : s2.rest = x ++ (y ++ ("(".toList ++ s5.rest)) := by rw [ex, ey, e5]
    rw [u] at this
    simpa using this
  have h5r := (before ht (by simp [px, py]) hx).2
  obtain ⟨w, ew, hw, -, -, cw⟩ := h5
  have hw5 : w5 = w := by
    rw [ew] at e6; exact (List.append_cancel_right e6).symm
  have h7 : s7.rest = ") ".toList ++ s'.rest := by rw [← e8, hs6]
  have hx2 : showNat n ++ ')' :: (' ' :: j) = w ++ ')' :: (' ' :: s'.rest) := by
    have : s5.rest = w ++ (") ".toList ++ s'.rest) := by rw [ew, h7]
    rw [← h5r] at this
    simpa using this
  have hp1 : ')' ∉ showNat n := fun hm => by have := showNat_digits n _ hm; revert this; decide
  have hp2 : ')' ∉ w := fun hm => by have := hw _ hm; rw [hC.paren] at this; cases this
  obtain ⟨f1, f2⟩ := before hp1 hp2 hx2
  refine ⟨by simpa using f2.symm, ?_, ?_⟩
  · rw [c8, hs6]
    show group ((5, w5) :: s7.caps) 1 = _
    rw [show group ((5, w5) :: s7.caps) 1 = group s7.caps 1 from rfl, cw, c5, rel_group _ _ _ h4 1 (by simp [groups]),
      rel_group _ _ _ h3 1 (by simp [groups, scopusName, plus]), h2.2, hs1, hw1]
    rfl
  · rw [c8, hs6, hw5, f1]
    rfl

/-- The front matches. -/
theorem front_matches (fam ini : Str) (t : Option Str) (j : Str) (hf : FamilyName C.word fam) (hi : Initials C.word ini) (ht : ∀ x, t = some x → x ≠ [] ∧ '(' ∉ x) (n : Nat)
    (h2 : 2 ≤ (showNat n).length) (h5 : (showNat n).length ≤ 5) (k : St → Option St) (hk : ∀ s, s.rest = j → (k s).isSome = true) :
    (m (front C) k ⟨fam ++ ", ".toList ++ ini ++ ".".toList ++ ", ".toList ++ (t.elim [] (· ++ " ".toList) ++ "(".toList ++ showNat n ++ ") ".toList ++ j), []⟩).isSome = true := by
  generalize hr : t.elim [] (· ++ " ".toList) ++ "(".toList ++ showNat n ++ ") ".toList ++ j = r
  show (m (.grp 1 (scopusName C)) _ _).isSome = true
  refine m_complete (.grp 1 (scopusName C)) rfl _ _ ⟨", ".toList ++ r, [(1, fam ++ ", ".toList ++ ini ++ ".".toList)]⟩ ?_ ?_
  · refine ⟨⟨", ".toList ++ r, []⟩, fam ++ ", ".toList ++ ini ++ ".".toList, ?_, by simp, rfl⟩
    refine ⟨⟨", ".toList ++ ini ++ ".".toList ++ ", ".toList ++ r, []⟩, ⟨fam, by simp, ?_, ?_, by simp, rfl⟩,
      ⟨" ".toList ++ ini ++ ".".toList ++ ", ".toList ++ r, []⟩, Or.inl ⟨by simp, rfl⟩,
      ⟨ini ++ ".".toList ++ ", ".toList ++ r, []⟩, ⟨by simp, rfl⟩, ⟨".".toList ++ ", ".toList ++ r, []⟩, ⟨ini, by simp, ?_, ?_, by simp, rfl⟩, by simp, rfl⟩
    · intro c hc
      have := hf.2 c hc
      simpa [nameChar, or_assoc] using this
    · have : fam.length ≠ 0 := by simpa using hf.1
      omega
    · intro c hc
      have := hi.2 c hc
      simpa [initialChar, or_assoc] using this
    · have : ini.length ≠ 0 := by simpa using hi.1
      omega
  · show (m (.lit ", ".toList) _ _).isSome = true
    refine m_complete (.lit ", ".toList) rfl _ _ ⟨r, [(1, fam ++ ", ".toList ++ ini ++ ".".toList)]⟩ ⟨rfl, rfl⟩ ?_
    generalize [(1, fam ++ ", ".toList ++ ini ++ ".".toList)] = caps
    show (m (.opt _) _ _).isSome = true
    rw [m, Option.isSome_or, Bool.or_eq_true]
    right
    have hrest : ∀ caps, (m (.lit "(".toList ⬝ .grp 5 (.rep C.digit 2 (some 5) false) ⬝ .lit ") ".toList) k
        ⟨"(".toList ++ showNat n ++ ") ".toList ++ j, caps⟩).isSome = true := by
      intro caps
      refine m_complete _ rfl _ _ ⟨j, (5, showNat n) :: caps⟩ ?_ (hk _ rfl)
      refine ⟨⟨showNat n ++ ") ".toList ++ j, caps⟩, ⟨by simp, rfl⟩, ⟨") ".toList ++ j, (5, showNat n) :: caps⟩, ⟨⟨") ".toList ++ j, caps⟩, showNat n, ?_, by simp, rfl⟩, rfl, rfl⟩
      exact ⟨showNat n, by simp, fun c hc => hC.digits c (showNat_digits n c hc), h2, by rintro h ⟨⟩; exact h5, rfl⟩
    show (m (.opt (.grp 4 (.rep noParen 1 none true ⬝ .lit " ".toList))) _ _).isSome = true
    cases t with
    | none =>
      refine m_complete _ rfl _ _ ⟨r, caps⟩ (Or.inr rfl) ?_
      rw [← hr]
      exact hrest caps
    | some x =>
      obtain ⟨hx0, hxp⟩ := ht x rfl
      refine m_complete _ rfl _ _ ⟨"(".toList ++ showNat n ++ ") ".toList ++ j, (4, x ++ " ".toList) :: caps⟩ (Or.inl ?_) (hrest _)
      refine ⟨⟨"(".toList ++ showNat n ++ ") ".toList ++ j, caps⟩, x ++ " ".toList, ⟨⟨" ".toList ++ "(".toList ++ showNat n ++ ") ".toList ++ j, caps⟩, ⟨x, ?_, ?_, ?_, by simp, rfl⟩, by simp, rfl⟩, ?_, rfl⟩
      · rw [← hr]; simp
      · intro c hc
        unfold noParen
        simp only [decide_eq_true_eq]
        rintro rfl; exact hxp hc
      · have : x.length ≠ 0 := by simpa using hx0
        omega
      · rw [← hr]; simp

omit hC in
/-- After the journal the pattern always matches, and leaves the groups before alone. -/
theorem back_takes (j t : Str) (hj : j ≠ [] ∧ ',' ∉ j) (ht : t = [] ∨ ∃ u, t = ',' :: u) (caps : List (Nat × Str)) :
    ∃ x, m (back C) some ⟨j ++ t, caps⟩ = some x ∧ m (volPart C ⬝ pagePart C ⬝ .grp 13 (star dot)) some ⟨t, (6, j) :: caps⟩ = some x ∧
      group x.caps 6 = some j ∧ ∀ g, g < 6 → group x.caps g = group caps g := by
  have hs : (m (volPart C ⬝ pagePart C ⬝ .grp 13 (star dot)) some ⟨t, (6, j) :: caps⟩).isSome = true := by
    refine m_complete _ (by rfl) _ _ ⟨t, (13, []) :: (6, j) :: caps⟩ ?_ rfl
    exact ⟨_, Or.inr rfl, _, Or.inr rfl, ⟨t, (6, j) :: caps⟩, [], ⟨[], by simp, by simp, by simp, by simp, rfl⟩, by simp, rfl⟩
  obtain ⟨x, hx⟩ := Option.isSome_iff_exists.1 hs
  refine ⟨x, ?_, hx, ?_⟩
  · unfold back
    show m (.grp 6 (plus noComma)) _ _ = _
    refine greedy_grp noComma 1 6 j _ caps _ x ?_ ?_ ?_ hx
    · intro c hc; unfold noComma; simp only [decide_eq_true_eq]; rintro rfl; exact hj.2 hc
    · rintro c u rfl
      rcases ht with h | ⟨v, h⟩
      · cases h
      · cases h; decide
    · have : j.length ≠ 0 := by simpa using hj.1
      omega
  · obtain ⟨s', hr, hs'⟩ := m_sound _ _ _ _ hx
    cases hs'
    refine ⟨?_, fun g hg => ?_⟩
    · rw [rel_group _ _ _ hr 6 (by simp [groups, volPart, pagePart, plus, star])]; rfl
    · rw [rel_group _ _ _ hr g (by simp [groups, volPart, pagePart, plus, star]; omega)]
      show group ([(6, j)] ++ caps) g = _
      exact group_append _ _ _ (by simp; omega)

/-- What the pattern takes of a reference. -/
theorem entry_match (fam ini : Str) (t : Option Str) (j u : Str) (hf : FamilyName C.word fam) (hi : Initials C.word ini) (ht : ∀ x, t = some x → x ≠ [] ∧ '(' ∉ x) (n : Nat)
    (h2 : 2 ≤ (showNat n).length) (h5 : (showNat n).length ≤ 5) (hj : j ≠ [] ∧ ',' ∉ j) (hu : u = [] ∨ ∃ v, u = ',' :: v) :
    ∃ caps x, matchStart (scopusRe C) (fam ++ ", ".toList ++ ini ++ ".".toList ++ ", ".toList ++ (t.elim [] (· ++ " ".toList) ++ "(".toList ++ showNat n ++ ") ".toList ++ (j ++ u))) = some x.caps ∧
      (∀ g, 6 < g → group caps g = none) ∧ m (volPart C ⬝ pagePart C ⬝ .grp 13 (star dot)) some ⟨u, (6, j) :: caps⟩ = some x ∧
      group x.caps 1 = some (fam ++ ", ".toList ++ ini ++ ".".toList) ∧ group x.caps 5 = some (showNat n) ∧ group x.caps 6 = some j := by
  have hsome := front_matches hC fam ini t (j ++ u) hf hi ht n h2 h5 (m (back C) some) (by
    rintro ⟨r, caps⟩ rfl
    obtain ⟨x, hx, -⟩ := back_takes (C := C) j u hj hu caps
    rw [hx]; rfl)
  obtain ⟨x, hx⟩ := Option.isSome_iff_exists.1 hsome
  obtain ⟨s', hr, hs'⟩ := m_sound _ _ _ _ hx
  have ht' : '(' ∉ t.elim [] (· ++ " ".toList) := by
    cases t with
    | none => simp
    | some y =>
      have := (ht y rfl).2
      show '(' ∉ y ++ " ".toList
      rw [List.mem_append]
      rintro (h | h)
      · exact this h
      · revert h; decide
  obtain ⟨e1, e2, e3⟩ := front_takes hC fam ini _ _ hf hi ht' n s' hr
  obtain ⟨x', hx', hy, g6, gl⟩ := back_takes (C := C) j u hj hu s'.caps
  have e4 : s' = ⟨j ++ u, s'.caps⟩ := by rw [← e1]
  rw [e4, hx'] at hs'
  have : x' = x := by simpa using hs'
  subst this
  refine ⟨s'.caps, x', ?_, ?_, hy, ?_, ?_, g6⟩
  · unfold matchStart
    rw [m_split, hx]; rfl
  · intro g hg
    rw [rel_group _ _ _ hr g (by simp [front, groups, scopusName, plus]; omega)]
    rfl
  · rw [gl 1 (by omega), e2]
  · rw [gl 5 (by omega), e3]

/-- The reference in upper case. -/
theorem upper_line (e : Entry) :
    C.upper e.line = C.upper e.family ++ ", ".toList ++ C.upper e.initials ++ ".".toList ++ ", ".toList ++
      ((e.middle.map C.upper).elim [] (· ++ " ".toList) ++ "(".toList ++ showNat e.year ++ ") ".toList ++ (C.upper e.journal ++ C.upper e.tail)) := by
  have hb : C.upper e.between = (e.middle.map C.upper).elim [] (· ++ " ".toList) := by
    unfold Entry.between
    cases e.middle with
    | none => rfl
    | some x =>
      show C.upper (x ++ " ".toList) = C.upper x ++ " ".toList
      rw [upper_append, upper_fixed' hC " ".toList (by decide)]
  unfold Entry.line Entry.author
  simp only [upper_append, hb, upper_fixed' hC ", ".toList (by decide), upper_fixed' hC ".".toList (by decide), upper_fixed' hC "(".toList (by decide),
    upper_fixed' hC ") ".toList (by decide), upper_fixed' hC (showNat e.year) (fun c hc => Or.inl (showNat_digits _ c hc))]
  simp only [List.append_assoc]

/-- What the pattern takes of a well-formed reference. -/
theorem entry_caps (e : Entry) (he : Ok C.word C.upper e) :
    ∃ caps x, matchStart (scopusRe C) (C.upper e.line) = some x.caps ∧
      (∀ g, 6 < g → group caps g = none) ∧ m (volPart C ⬝ pagePart C ⬝ .grp 13 (star dot)) some ⟨C.upper e.tail, (6, C.upper e.journal) :: caps⟩ = some x ∧
      group x.caps 1 = some (C.upper e.author) ∧ group x.caps 5 = some (showNat e.year) ∧ group x.caps 6 = some (C.upper e.journal) := by
  have ha : C.upper e.author = C.upper e.family ++ ", ".toList ++ C.upper e.initials ++ ".".toList := by
    unfold Entry.author
    simp only [upper_append, upper_fixed' hC ", ".toList (by decide), upper_fixed' hC ".".toList (by decide)]
  rw [upper_line hC, ha]
  refine entry_match hC _ _ _ _ _ he.family he.initials ?_ e.year (two_digits _ he.long) (showNat_length _ he.short)
    ⟨upper_ne hC _ he.journal.1, upper_mark hC ',' (by decide) _ he.journal.2⟩ ?_
  · intro x hx
    obtain ⟨y, hy, rfl⟩ := Option.map_eq_some_iff.1 hx
    exact ⟨upper_ne hC _ (he.middle y hy).1, upper_mark hC '(' (by decide) _ (he.middle y hy).2⟩
  · rcases he.tail with h | ⟨t, h⟩
    · left; rw [h]; rfl
    · right
      refine ⟨C.upper t, ?_⟩
      rw [h]
      show C.up ',' ++ C.upper t = _
      rw [hC.fixed ',' (Or.inr (by decide))]; rfl

/-- What is read of a well-formed reference. -/
theorem entry_parse (e : Entry) (he : Ok C.word C.upper e) :
    ∃ caps x, (∀ g, 6 < g → group caps g = none) ∧ m (volPart C ⬝ pagePart C ⬝ .grp 13 (star dot)) some ⟨C.upper e.tail, (6, C.upper e.journal) :: caps⟩ = some x ∧
      parseScopus C e.line = ⟨⟨e.label C.upper, e.line, some (some (C.upper e.author)), some (some (e.year : Int)), some (some (C.upper e.journal)),
        some (group x.caps 8), some (group x.caps 12), some (group x.caps 13), false⟩, none⟩ := by
  obtain ⟨caps, x, hm, hc, hb, g1, g5, g6⟩ := entry_caps hC e he
  refine ⟨caps, x, hc, hb, ?_⟩
  have hA0 : C.upper e.author ≠ [] := by
    refine upper_ne hC _ ?_
    unfold Entry.author
    simp
  unfold parseScopus
  rw [hm]
  dsimp only
  rw [g1, g5, g6, truthy_some _ hA0, truthy_some _ (upper_ne hC _ he.journal.1)]
  have h1 : ((some (showNat e.year)).map C.intOf).toList.filter (fun i => i ≠ 0) = [(e.year : Int)] := by
    have : e.year ≠ 0 := by have := he.long; omega
    simp [hC.int e.year, this]
  rw [h1]
  dsimp only
  rw [Option.map_some, hC.int e.year]
  rfl

/-- The volume part takes a volume and an issue. -/
theorem vol_issue (v i r : Str) (hv0 : v ≠ []) (hv : ∀ c ∈ v, wordDash C c = true) (hi : ∀ c ∈ i, wordDash C c = true)
    (caps : List (Nat × Str)) (k : St → Option St) (x : St)
    (h : k ⟨r, (7, ", ".toList ++ v ++ " (".toList ++ i ++ ")".toList) :: (9, " (".toList ++ i ++ ")".toList) :: (10, i) :: (8, v) :: caps⟩ = some x) :
    m (volPart C) k ⟨", ".toList ++ (v ++ (" (".toList ++ (i ++ (")".toList ++ r)))), caps⟩ = some x := by
  unfold volPart
  refine opt_some _ _ _ _ ?_
  rw [grp_of]
  show m (.lit ", ".toList) _ _ = _
  rw [lit_yes]
  show m (.grp 8 (plus (wordDash C))) _ _ = _
  have hsp : wordDash C ' ' = false := by unfold wordDash; rw [hC.space]; decide
  have hcl : wordDash C ')' = false := by unfold wordDash; rw [hC.word ')' (by decide)]; decide
  refine greedy_grp (wordDash C) 1 8 v _ caps _ x hv (fun c t e => ?_) (by
    have : v.length ≠ 0 := by simpa using hv0
    omega) ?_
  · have : c = ' ' := by
      have := congrArg List.head? e
      simpa using this.symm
    rw [this]; exact hsp
  dsimp only
  refine opt_some _ _ _ _ ?_
  rw [grp_of]
  show m (.lit " (".toList) _ _ = _
  rw [lit_yes]
  show m (.grp 10 (star (wordDash C))) _ _ = _
  refine greedy_grp (wordDash C) 0 10 i _ _ _ x hi (fun c t e => ?_) (Nat.zero_le _) ?_
  · have : c = ')' := by
      have := congrArg List.head? e
      simpa using this.symm
    rw [this]; exact hcl
  rw [lit_yes]
  dsimp only
  have take : ∀ a r : Str, (a ++ r).take ((a ++ r).length - r.length) = a := by intro a r; simp
  have t1 := take (" (".toList ++ i ++ ")".toList) r
  have t2 := take (", ".toList ++ v ++ " (".toList ++ i ++ ")".toList) r
  simp only [List.append_assoc] at t1 t2 h ⊢
  rw [t1, t2]
  exact h

omit hC in
theorem wordDash_of (s : Str) (h : Plain C.word s) : ∀ c ∈ s, wordDash C c = true := by
  intro c hc
  have := h c hc
  simpa [wordDash] using this

/-- The groups of volume and page. -/
theorem places_caps (V : Str) (I P : Option Str) (hV : V ≠ [] ∧ Plain C.word V) (hI : ∀ i, I = some i → Plain C.word i) (hP : ∀ p, P = some p → p ≠ [] ∧ Plain C.word p)
    (caps : List (Nat × Str)) (x : St) (h12 : group caps 12 = none)
    (h : m (volPart C ⬝ pagePart C ⬝ .grp 13 (star dot)) some ⟨", ".toList ++ (V ++ (I.elim [] (fun i => " (".toList ++ (i ++ ")".toList)) ++ P.elim [] (fun p => ", PP. ".toList ++ p))), caps⟩ = some x) :
    group x.caps 8 = some V ∧ group x.caps 12 = P := by
  have hcomma := comma_not_wordDash hC
  -- after the volume part
  have key : ∀ (c7 : List (Nat × Str)), group c7 8 = some V → group c7 12 = none →
      ∃ y : St, m (pagePart C ⬝ .grp 13 (star dot)) some ⟨P.elim [] (fun p => ", PP. ".toList ++ p), c7⟩ = some y ∧ group y.caps 8 = some V ∧ group y.caps 12 = P := by
    intro c7 h8 hn
    cases P with
    | none =>
      obtain ⟨w13, h13⟩ := misc_ok [] c7
      refine ⟨⟨List.dropWhile dot [], (13, w13) :: c7⟩, ?_, h8, hn⟩
      show m (pagePart C) _ ⟨[], c7⟩ = _
      rw [page_none hC _ _ _ (by decide)]
      exact h13
    | some p =>
      obtain ⟨w13, h13⟩ := misc_ok [] ((11, ", PP. ".toList ++ p) :: (12, p) :: c7)
      refine ⟨_, page_some hC p (hP p rfl) c7 _ _ _ rfl h13, ?_, ?_⟩
      · exact h8
      · rfl
  have hstop : ∀ c t, P.elim [] (fun p => ", PP. ".toList ++ p) = c :: t → wordDash C c = false ∧ c ≠ ' ' := by
    intro c t e
    cases P with
    | none => cases e
    | some p =>
      have : c = ',' := by have := congrArg List.head? e; simpa using this.symm
      rw [this]; exact ⟨hcomma, by decide⟩
  cases I with
  | none =>
    obtain ⟨y, hy, y8, y12⟩ := key ((7, ", ".toList ++ V) :: (8, V) :: caps) rfl h12
    have := vol_some hC V _ hV.1 (wordDash_of V hV.2) hstop caps _ y hy
    have e := h.symm.trans this
    cases e
    exact ⟨y8, y12⟩
  | some i =>
    obtain ⟨y, hy, y8, y12⟩ := key ((7, ", ".toList ++ V ++ " (".toList ++ i ++ ")".toList) :: (9, " (".toList ++ i ++ ")".toList) :: (10, i) :: (8, V) :: caps) rfl h12
    have := vol_issue hC V i _ hV.1 (wordDash_of V hV.2) (wordDash_of i (hI i rfl)) caps _ y hy
    have e0 : ", ".toList ++ (V ++ ((some i).elim [] (fun i => " (".toList ++ (i ++ ")".toList)) ++ P.elim [] (fun p => ", PP. ".toList ++ p))) =
        ", ".toList ++ (V ++ (" (".toList ++ (i ++ (")".toList ++ P.elim [] (fun p => ", PP. ".toList ++ p))))) := by simp
    rw [e0] at h
    have e := h.symm.trans this
    cases e
    exact ⟨y8, y12⟩

/-! ## C123 -/

/-- **C123 (what is read).** A reference as Scopus writes it, with the family name and the initials of the first author separated by a comma, is read as its first author, its year and its
journal, in upper case; it is not called bad, the string is kept, and it stands for the author, the year and the journal. Other authors and the title do not matter, nor does what follows the journal. -/
theorem C123_read (e : Entry) (he : Ok C.word C.upper e) :
    let c := (parseScopus C e.line).cite
    c.author = some (some (C.upper e.author)) ∧ c.year = some (some (e.year : Int)) ∧ c.journal = some (some (C.upper e.journal)) ∧ c.bad = false ∧
      c.original = e.line ∧ c.id = e.label C.upper := by
  obtain ⟨caps, x, -, -, h⟩ := entry_parse hC e he
  rw [h]
  exact ⟨rfl, rfl, rfl, rfl, rfl, rfl⟩

/-- **C123 (volume and pages).** If volume, issue and pages follow the journal, volume and pages are read. -/
theorem C123_places (hp : C.up 'p' = ['P']) (e : Entry) (he : Ok C.word C.upper e) (volume : Str) (issue pages : Option Str) (ht : e.tail = places volume issue pages)
    (hv0 : volume ≠ []) (hv : Plain C.word (C.upper volume)) (hi : ∀ i, issue = some i → Plain C.word (C.upper i)) (hpg : ∀ p, pages = some p → p ≠ [] ∧ Plain C.word (C.upper p)) :
    (parseScopus C e.line).cite.V = some (some (C.upper volume)) ∧ (parseScopus C e.line).cite.P = some (pages.map C.upper) := by
  obtain ⟨caps, x, hn, hb, h⟩ := entry_parse hC e he
  have hup : C.upper e.tail = ", ".toList ++ (C.upper volume ++ ((issue.map C.upper).elim [] (fun i => " (".toList ++ (i ++ ")".toList)) ++ (pages.map C.upper).elim [] (fun p => ", PP. ".toList ++ p))) := by
    have hpp : C.upper ", pp. ".toList = ", PP. ".toList := by
      show C.up ',' ++ (C.up ' ' ++ (C.up 'p' ++ (C.up 'p' ++ (C.up '.' ++ (C.up ' ' ++ []))))) = _
      rw [hp, hC.fixed ',' (by decide), hC.fixed ' ' (by decide), hC.fixed '.' (by decide)]
      rfl
    rw [ht]
    unfold places
    rw [upper_append, upper_append, upper_append, upper_fixed' hC ", ".toList (by decide)]
    have hI : C.upper (part " (" issue ")") = (issue.map C.upper).elim [] (fun i => " (".toList ++ (i ++ ")".toList)) := by
      cases issue with
      | none => rfl
      | some i =>
        show C.upper (" (".toList ++ i ++ ")".toList) = " (".toList ++ (C.upper i ++ ")".toList)
        rw [upper_append, upper_append, upper_fixed' hC " (".toList (by decide), upper_fixed' hC ")".toList (by decide), List.append_assoc]
    have hP : C.upper (part ", pp. " pages "") = (pages.map C.upper).elim [] (fun p => ", PP. ".toList ++ p) := by
      cases pages with
      | none => rfl
      | some p =>
        show C.upper (", pp. ".toList ++ p ++ []) = ", PP. ".toList ++ C.upper p
        rw [List.append_nil, upper_append, hpp]
    rw [hI, hP]
    simp only [List.append_assoc]
  rw [hup] at hb
  obtain ⟨g8, g12⟩ := places_caps hC (C.upper volume) (issue.map C.upper) (pages.map C.upper) ⟨upper_ne hC _ hv0, hv⟩
    (by intro i h; obtain ⟨j, hj, rfl⟩ := Option.map_eq_some_iff.1 h; exact hi j hj)
    (by intro i h; obtain ⟨j, hj, rfl⟩ := Option.map_eq_some_iff.1 h; exact ⟨upper_ne hC _ (hpg j hj).1, (hpg j hj).2⟩)
    ((6, C.upper e.journal) :: caps) x (hn 12 (by omega)) hb
  rw [h]
  exact ⟨by rw [← g8], by rw [← g12]⟩

/-- **C123 (the same work).** Two such references are equal, and are one node of a network, exactly if their first authors, years and journals are the same up to case: the title does not matter. -/
theorem C123_same (e f : Entry) (he : Ok C.word C.upper e) (hf : Ok C.word C.upper f) :
    (parseScopus C e.line).cite.id = (parseScopus C f.line).cite.id ↔
      C.upper e.family = C.upper f.family ∧ C.upper e.initials = C.upper f.initials ∧ e.year = f.year ∧ C.upper e.journal = C.upper f.journal := by
  rw [(C123_read hC e he).2.2.2.2.2, (C123_read hC f hf).2.2.2.2.2]
  have lab : ∀ e : Entry, e.label C.upper = C.upper e.family ++ ',' :: (' ' :: (C.upper e.initials ++ '.' :: ',' :: ' ' :: (showNat e.year ++ ',' :: ' ' :: C.upper e.journal))) := by
    intro e
    unfold Entry.label Entry.author
    simp only [upper_append, upper_fixed' hC ", ".toList (by decide), upper_fixed' hC ".".toList (by decide)]
    simp
  have w1 : C.word ',' = false := hC.word ',' (by decide)
  have cf : ∀ e : Entry, Ok C.word C.upper e → ',' ∉ C.upper e.family := by
    intro e he hm
    rcases he.family.2 _ hm with h | h | h
    · rw [w1] at h; cases h
    · revert h; decide
    · revert h; decide
  have ci : ∀ e : Entry, Ok C.word C.upper e → ',' ∉ ' ' :: (C.upper e.initials ++ ".".toList) := by
    intro e he hm
    have hm : ',' ∈ C.upper e.initials := by simpa using hm
    rcases he.initials.2 _ hm with h | h | h
    · rw [w1] at h; cases h
    · revert h; decide
    · revert h; decide
  have cy : ∀ n : Nat, ',' ∉ ' ' :: showNat n := by
    intro n hm
    have hm : ',' ∈ showNat n := by simpa using hm
    have := showNat_digits n _ hm
    revert this; decide
  rw [lab, lab]
  constructor
  · intro h
    obtain ⟨h1, h2⟩ := before (cf e he) (cf f hf) h
    have h2 : (' ' :: (C.upper e.initials ++ ".".toList)) ++ ',' :: (' ' :: (showNat e.year ++ ',' :: ' ' :: C.upper e.journal)) =
        (' ' :: (C.upper f.initials ++ ".".toList)) ++ ',' :: (' ' :: (showNat f.year ++ ',' :: ' ' :: C.upper f.journal)) := by simpa using h2
    obtain ⟨h3, h4⟩ := before (ci e he) (ci f hf) h2
    have h4 : (' ' :: showNat e.year) ++ ',' :: (' ' :: C.upper e.journal) = (' ' :: showNat f.year) ++ ',' :: (' ' :: C.upper f.journal) := by simpa using h4
    obtain ⟨h5, h6⟩ := before (cy _) (cy _) h4
    refine ⟨h1, ?_, ?_, by simpa using h6⟩
    · simpa using h3
    · have h5 : showNat e.year = showNat f.year := by simpa using h5
      rw [← readNat_showNat e.year, h5, readNat_showNat]
  · rintro ⟨h1, h2, h3, h4⟩
    rw [h1, h2, h3, h4]

/-- **C123 fails for a title with parentheses.** If the first parenthesis of the reference is followed by something that is no digit, or if there is none, then nothing is read of it: no author, no year
and no journal; it is bad, and stands for nothing but its own string. -/
theorem C123_parenthesis (s : Str) (hs : '(' ∉ s ∨ ∃ a c b, s = a ++ '(' :: c :: b ∧ '(' ∉ a ∧ ∀ d ∈ C.up c, C.digit d = false) :
    parseScopus C s = ⟨⟨s, s, none, none, none, none, none, none, true⟩, none⟩ := by
  have hno : matchStart (scopusRe C) (C.upper s) = none := by
    unfold matchStart
    rw [Option.map_eq_none_iff]
    by_contra hne
    obtain ⟨y, hy⟩ := Option.ne_none_iff_exists'.1 hne
    rw [m_split] at hy
    obtain ⟨s', ⟨s1, ⟨s0, w1, h1, e1, hs1⟩, s2, h2, s3, h3, s4, h4, s5, ⟨e5, c5⟩, s6, ⟨s7, w5, ⟨w, ew, hw, hlo, -, -⟩, -, -⟩, -, -⟩, -⟩ := m_sound _ _ _ _ hy
    obtain ⟨z, ez, pz⟩ := name_noParen hC _ _ h1
    obtain ⟨x, ex, px⟩ := names_noParen hC _ _ h3
    obtain ⟨y, ey, py⟩ := title_noParen _ _ h4
    have e : C.upper s = (z ++ (", ".toList ++ (x ++ y))) ++ '(' :: s5.rest := by
      have h0 : s0.rest = ", ".toList ++ s2.rest := by rw [← h2.1, hs1]
      dsimp only at ez
      rw [ez, h0, ex, ey, e5]
      simp
    have hp : '(' ∉ z ++ (", ".toList ++ (x ++ y)) := by
      simp only [List.mem_append, not_or]
      exact ⟨pz, by decide, px, py⟩
    rcases hs with hs | ⟨a, c, b, rfl, ha, hc⟩
    · exact upper_mark hC '(' (by decide) s hs (by rw [e]; simp)
    · have eu : C.upper (a ++ '(' :: c :: b) = C.upper a ++ '(' :: (C.up c ++ C.upper b) := by
        rw [upper_append]
        show _ ++ (C.up '(' ++ (C.up c ++ C.upper b)) = _
        rw [hC.fixed '(' (Or.inr (by decide))]; rfl
      rw [eu] at e
      have h5 := (before (upper_mark hC '(' (by decide) a ha) hp e).2
      obtain ⟨d, ds, hd⟩ : ∃ d ds, C.up c = d :: ds := by
        cases hz : C.up c with
        | nil => exact absurd hz (hC.ne c)
        | cons d ds => exact ⟨d, ds, rfl⟩
      cases w with
      | nil => simp at hlo
      | cons q w =>
        rw [ew, hd] at h5
        simp only [List.cons_append, List.cons.injEq] at h5
        have := hw q (by simp)
        rw [← h5.1, hc d (by rw [hd]; simp)] at this
        cases this
  unfold parseScopus
  rw [hno]

/-- **C123 fails for a title with a year in parentheses.** The first number in parentheses is read as the year, whatever stands after it, and what follows up to the next comma as the journal. -/
theorem C123_first_year (family initials pre rest : Str) (y : Nat) (hf : FamilyName C.word (C.upper family)) (hi : Initials C.word (C.upper initials))
    (hp : pre ≠ [] ∧ '(' ∉ pre) (hy : 10 ≤ y ∧ y < 100000) (c : Char) (hr : rest.head? = some c) (hc : c ≠ ',') :
    let p := (parseScopus C (family ++ ", ".toList ++ initials ++ "., ".toList ++ pre ++ " (".toList ++ showNat y ++ ") ".toList ++ rest)).cite
    p.year = some (some (y : Int)) ∧ p.journal = some (some (C.upper (rest.takeWhile (· ≠ ',')))) ∧ p.bad = false := by
  have he : Ok C.word C.upper ⟨family, initials, some pre, y, rest.takeWhile (· ≠ ','), rest.dropWhile (· ≠ ',')⟩ := by
    refine ⟨hf, hi, ?_, hy.1, hy.2, ⟨?_, ?_⟩, ?_⟩
    · rintro m ⟨⟩; exact hp
    · cases rest with
      | nil => cases hr
      | cons d t => cases hr; simp [hc]
    · intro hm
      have := Verif.Props.CiteParse.takeWhile_all (fun c : Char => decide (c ≠ ',')) rest _ hm
      simp at this
    · cases hd : rest.dropWhile (fun c : Char => decide (c ≠ ',')) with
      | nil => exact Or.inl rfl
      | cons d t =>
        have := List.head?_dropWhile_not (fun c : Char => decide (c ≠ ',')) rest
        rw [hd] at this
        have hd' : d = ',' := by simpa using this
        exact Or.inr ⟨t, by rw [← hd']⟩
  have h := C123_read hC _ he
  have el : family ++ ", ".toList ++ initials ++ "., ".toList ++ pre ++ " (".toList ++ showNat y ++ ") ".toList ++ rest =
      Entry.line ⟨family, initials, some pre, y, rest.takeWhile (· ≠ ','), rest.dropWhile (· ≠ ',')⟩ := by
    unfold Entry.line Entry.author Entry.between
    have := List.takeWhile_append_dropWhile (p := fun c : Char => decide (c ≠ ',')) (l := rest)
    conv_lhs => rw [← this]
    simp
  dsimp only
  rw [el]
  exact ⟨h.2.1, h.2.2.1, h.2.2.2.1⟩

end

/-! ## Witnesses -/

/-- Two references to one work, with different titles and cases. -/
def weierstrass : Entry := ⟨"Nunez-Diaz".toList, "R.A".toList, some "Edwards, L.D., What did Weierstrass really define?".toList, 1998, "Math Cognition".toList,
  places "4".toList (some "2".toList) (some "85-113".toList)⟩
def short : Entry := ⟨"NUNEZ-DIAZ".toList, "R.A".toList, none, 1998, "MATH COGNITION".toList, []⟩

theorem weierstrass_ok : Ok ascii.word ascii.upper weierstrass :=
  ⟨⟨by decide +kernel, by decide +kernel⟩, ⟨by decide +kernel, by decide +kernel⟩, by rintro m ⟨⟩; exact ⟨by decide, by decide⟩, by decide, by decide, ⟨by decide, by decide⟩, Or.inr ⟨_, rfl⟩⟩
theorem short_ok : Ok ascii.word ascii.upper short :=
  ⟨⟨by decide +kernel, by decide +kernel⟩, ⟨by decide +kernel, by decide +kernel⟩, by rintro m ⟨⟩, by decide, by decide, ⟨by decide, by decide⟩, Or.inl rfl⟩

example : weierstrass.line = "Nunez-Diaz, R.A., Edwards, L.D., What did Weierstrass really define? (1998) Math Cognition, 4 (2), pp. 85-113".toList := by decide +kernel
example : (parseScopus ascii weierstrass.line).cite.id = "NUNEZ-DIAZ, R.A., 1998, MATH COGNITION".toList :=
  (C123_read ascii_ok _ weierstrass_ok).2.2.2.2.2.trans (by decide +kernel)
example : (parseScopus ascii weierstrass.line).cite.id = (parseScopus ascii short.line).cite.id :=
  (C123_same ascii_ok _ _ weierstrass_ok short_ok).2 ⟨by decide +kernel, by decide +kernel, rfl, by decide +kernel⟩
example : (parseScopus ascii weierstrass.line).cite.P = some (some "85-113".toList) :=
  (C123_places ascii_ok (by decide +kernel) _ weierstrass_ok "4".toList (some "2".toList) (some "85-113".toList) rfl (by decide) (by unfold Spec.ScopusEntry.Plain; decide +kernel)
    (by rintro i ⟨⟩; unfold Spec.ScopusEntry.Plain; decide +kernel) (by rintro p ⟨⟩; exact ⟨by decide, by unfold Spec.ScopusEntry.Plain; decide +kernel⟩)).2.trans (by decide +kernel)
/-- A title with parentheses: nothing is read. -/
example := C123_parenthesis ascii_ok "Nunez, R., On (some) things (1998) Math Cognition, 4".toList
  (Or.inr ⟨"Nunez, R., On ".toList, 's', "ome) things (1998) Math Cognition, 4".toList, by decide +kernel, by decide, by decide +kernel⟩)
/-- A title with a year: it is read as the year. -/
example : (parseScopus ascii "Nunez, R., The crash (1929) and us (1998) Math Cognition, 4".toList).cite.year = some (some 1929) :=
  (C123_first_year ascii_ok "Nunez".toList "R".toList "The crash".toList "and us (1998) Math Cognition, 4".toList 1929 ⟨by decide, by decide +kernel⟩ ⟨by decide, by decide +kernel⟩
    ⟨by decide, by decide⟩ ⟨by decide, by decide⟩ 'a' rfl (by decide)).1

end Verif.Props.ScopusEntry
