import Verif.Lemmas.CiteParse

/-!
# C36, C37: identity of citations, and the citation of a record
-/
set_option autoImplicit false
set_option linter.unusedSimpArgs false
namespace Verif.Props.CiteParse
open Verif.Py Verif.Py.Regex Verif.Model.Citation Verif.Model.CiteParse Verif.Lemmas.CiteParse

/-! ## Parsing -/

def authorOf (C : Chars) (o : Option Str) : Option Str := o.map (fun a => C.title (a.filter (fun c => c ≠ '.')))

theorem parse_fields (C : Chars) (s : Str) : ∃ p, parseWos C s = some p ∧ p.cite.original = s ∧
    p.cite.author = some (authorOf C (readCite (C.upper s)).author) ∧ p.cite.year = some ((readCite (C.upper s)).year.map readInt) ∧
    p.cite.journal = some (readCite (C.upper s)).journal ∧ p.cite.V = some (readCite (C.upper s)).V ∧ p.cite.P = some (readCite (C.upper s)).P ∧
    p.cite.misc = some (readCite (C.upper s)).misc ∧
    ((p.cite.bad = true ∧ p.cite.id = partId (authorOf C (readCite (C.upper s)).author) ((readCite (C.upper s)).year.map readInt) (readCite (C.upper s)).journal ∧
        ((readCite (C.upper s)).misc ≠ none ∨ (readCite (C.upper s)).author = none ∨ (readCite (C.upper s)).year = none ∨ (readCite (C.upper s)).journal = none)) ∨
      (p.cite.bad = false ∧ (readCite (C.upper s)).misc = none ∧
        ∃ a y j, p.cite.author = some (some a) ∧ p.cite.year = some (some y) ∧ p.cite.journal = some (some j) ∧ p.cite.id = fullId a y j)) ∧
    p.doi = some (if (readCite (C.upper s)).misc = none then (readCite (C.upper s)).doi else (readCite (C.upper s)).miscDoi) := by
  obtain ⟨caps, hm, h1, h3, h5, h7, h9, h11, h12, h15⟩ := wos_groups (C.upper s)
  obtain ⟨R, hR⟩ : ∃ R, R = readCite (C.upper s) := ⟨_, rfl⟩
  rw [← hR] at h1 h3 h5 h7 h9 h11 h12 h15 ⊢
  unfold parseWos
  rw [hm]
  simp only [h1, h3, h5, h7, h9, h11, h12, h15]
  change ∃ p, (match R.misc, authorOf C R.author, R.year.map readInt, R.journal with
    | some misc, _, _, _ => some _
    | none, some a, some y, some j => some _
    | none, _, _, _ => some _) = some p ∧ _
  rcases hmi : R.misc with _ | mi
  · rcases ha : R.author with _ | a
    · exact ⟨_, rfl, rfl, rfl, rfl, rfl, rfl, rfl, rfl, Or.inl ⟨rfl, rfl, Or.inr (Or.inl rfl)⟩, rfl⟩
    · rcases hy : R.year with _ | y
      · exact ⟨_, rfl, rfl, rfl, rfl, rfl, rfl, rfl, rfl, Or.inl ⟨rfl, rfl, Or.inr (Or.inr (Or.inl rfl))⟩, rfl⟩
      · rcases hj : R.journal with _ | j
        · exact ⟨_, rfl, rfl, rfl, rfl, rfl, rfl, rfl, rfl, Or.inl ⟨rfl, rfl, Or.inr (Or.inr (Or.inr rfl))⟩, rfl⟩
        · exact ⟨_, rfl, rfl, rfl, rfl, rfl, rfl, rfl, rfl, Or.inr ⟨rfl, rfl, _, _, _, rfl, rfl, rfl, rfl⟩, rfl⟩
  · exact ⟨_, rfl, rfl, rfl, rfl, rfl, rfl, rfl, rfl, Or.inl ⟨rfl, rfl, Or.inl (by simp)⟩, by simp⟩

theorem takeWhile_all (p : Char → Bool) (s : Str) : ∀ c ∈ s.takeWhile p, p c = true := by
  intro c hc
  exact takeWhile_prefix p s _ (Nat.le_refl _) c (by
    rw [show s.take (s.takeWhile p).length = s.takeWhile p by
      conv_lhs => rw [← List.takeWhile_append_dropWhile (p := p) (l := s)]
      rw [List.take_append_of_le_length (by simp)]
      conv_lhs => rw [show (s.takeWhile p ++ s.dropWhile p).takeWhile p = s.takeWhile p by rw [List.takeWhile_append_dropWhile]]
      simp]
    exact hc)

theorem journal_form (s : Str) (j : Str) (h : (readCite s).journal = some j) : ',' ∉ j ∧ j ≠ [] := by
  have : ∃ t, (eatJournal t).1 = some j := by
    refine ⟨(eatSep (eatYear (eatSep (eatAuthor s).2).2).2).2, ?_⟩
    rw [← h]
    unfold readCite
    dsimp only
    split
    · rfl
    · split
      · rfl
      · split
        · rfl
        · rfl
  obtain ⟨t, ht⟩ := this
  unfold eatJournal at ht
  split at ht
  · cases ht
  · rename_i hn
    cases ht
    exact ⟨fun hc => by have := takeWhile_all _ _ _ hc; revert this; decide, hn⟩

/-! ## Scopus -/

theorem scopus_match (C : Chars) (s : Str) (caps : List (Nat × Str)) (h : matchStart (scopusRe C) s = some caps) : ∀ j, group caps 6 = some j → ',' ∉ j ∧ j ≠ [] := by
  unfold matchStart at h
  rcases hm : m (scopusRe C) some ⟨s, []⟩ with _ | x
  · rw [hm] at h; cases h
  · rw [hm] at h
    simp at h
    obtain ⟨s', hr, hs'⟩ := m_sound _ _ _ _ hm
    cases hs'
    unfold scopusRe at hr
    obtain ⟨_, -, _, -, _, -, _, -, _, -, _, -, _, -, s8, ⟨s7, w, ⟨w', h1, h2, h3, -, -⟩, h4, rfl⟩, s9, h5, s10, h6, h7⟩ := hr
    intro j hj
    rw [← h, rel_group _ _ _ h7 6 (by simp [groups, star]), rel_group _ _ _ h6 6 (by simp [groups, star]), rel_group _ _ _ h5 6 (by simp [groups, star, plus]), group_cons, if_pos rfl] at hj
    cases hj
    have : w = w' := by
      rw [h1] at h4
      exact (List.append_cancel_right h4).symm
    subst this
    refine ⟨fun hc => ?_, ?_⟩
    · have := h2 _ hc; revert this; decide
    · rintro rfl; simp at h3

/-! ## Identity -/

/-- `p` is what a citation string becomes, in either mode. -/
def IsCitation (C : Chars) (p : Parsed) : Prop := ∃ s, parseWos C s = some p ∨ parseScopus C s = p

theorem truthy_some (s : Str) (h : s ≠ []) : truthy (some s) = [s] := by unfold truthy; simp [h]

theorem truthy_single (o : Option Str) (a : Str) (h : truthy o = [a]) : o = some a ∧ a ≠ [] := by
  unfold truthy at h
  cases o with
  | none => simp at h
  | some b =>
    by_cases hb : b = []
    · simp [hb] at h
    · simp [hb] at h; subst h; exact ⟨rfl, hb⟩

theorem year_single (o : Option Int) (y : Int) (h : o.toList.filter (fun i => i ≠ 0) = [y]) : o = some y ∧ y ≠ 0 := by
  cases o with
  | none => simp at h
  | some b =>
    by_cases hb : b = 0
    · simp [hb] at h
    · simp [hb] at h; subst h; exact ⟨rfl, hb⟩

theorem partId_full (a : Str) (y : Int) (j : Str) (ha : a ≠ []) (hy : y ≠ 0) (hj : j ≠ []) : partId (some a) (some y) (some j) = fullId a y j := by
  unfold partId fullId
  rw [truthy_some _ ha, truthy_some _ hj]
  simp [hy, Str.join]

/-- A citation that is not bad: its id is made of its author, year and journal. -/
theorem good_form (C : Chars) (p : Parsed) (hp : IsCitation C p) (hb : p.cite.bad = false) :
    ∃ a y j, p.cite.author = some (some a) ∧ p.cite.year = some (some y) ∧ p.cite.journal = some (some j) ∧ p.cite.id = fullId a y j ∧ ',' ∉ j := by
  obtain ⟨s, hs | hs⟩ := hp
  · obtain ⟨p', h1, h2, h3, h4, h5, h6, h7, h8, h9, h10⟩ := parse_fields C s
    rw [hs] at h1
    cases h1
    rcases h9 with ⟨h9, -⟩ | ⟨-, -, a, y, j, ha, hy, hj, hid⟩
    · rw [hb] at h9; cases h9
    · rw [hj] at h5
      exact ⟨a, y, j, ha, hy, hj, hid, (journal_form _ j (by simpa using h5.symm)).1⟩
  · unfold parseScopus at hs
    split at hs
    · rw [← hs] at hb; cases hb
    · rename_i caps hm
      dsimp only at hs
      split at hs
      · rename_i a y j ha hy hj
        have hj' := (truthy_single _ _ hj).1
        rw [← hs]
        refine ⟨a, y, j, by rw [(truthy_single _ _ ha).1], by rw [(year_single _ _ hy).1], by rw [hj'], rfl, ?_⟩
        exact (scopus_match C _ caps hm j hj').1
      · rw [← hs] at hb; cases hb

theorem last_comma (x x' j j' : Str) (hj : ',' ∉ j) (hj' : ',' ∉ j') (h : x ++ ", ".toList ++ j = x' ++ ", ".toList ++ j') : x = x' ∧ j = j' := by
  have key : ∀ (x x' j j' z : Str), ',' ∉ j → x' = x ++ z → ", ".toList ++ j = z ++ (", ".toList ++ j') → z = [] := by
    intro x x' j j' z hj _ h
    match z with
    | [] => rfl
    | [c] =>
      have h : ',' :: ' ' :: j = c :: ',' :: ' ' :: j' := h
      injection h with _ h
      injection h with h _
      exact absurd h (by decide)
    | c :: d :: z =>
      have h : ',' :: ' ' :: j = c :: d :: (z ++ ',' :: ' ' :: j') := h
      injection h with _ h
      injection h with _ h
      exact absurd (h ▸ (by simp : ',' ∈ z ++ ',' :: ' ' :: j')) hj
  rw [List.append_assoc, List.append_assoc] at h
  rcases List.append_eq_append_iff.1 h with ⟨z, h1, h2⟩ | ⟨z, h1, h2⟩
  · have hz := key x x' j j' z hj h1 h2
    subst hz
    exact ⟨by simpa using h1.symm, by simpa using h2⟩
  · have hz := key x' x j' j z hj' h1 h2
    subst hz
    exact ⟨by simpa using h1, by simpa using h2.symm⟩

theorem fullId_injective (a a' : Str) (y y' : Int) (j j' : Str) (hj : ',' ∉ j) (hj' : ',' ∉ j') (h : fullId a y j = fullId a' y' j') : a = a' ∧ y = y' ∧ j = j' := by
  unfold fullId at h
  obtain ⟨h1, h2⟩ := last_comma _ _ _ _ hj hj' h
  obtain ⟨h3, h4⟩ := last_comma _ _ _ _ (showInt_no_comma y) (showInt_no_comma y') h1
  exact ⟨h3, showInt_injective _ _ h4, h2⟩

/-- **C36, parsing never fails.** Every string gives a citation: the pattern matches all strings, so no exception is raised. -/
theorem C36_total (C : Chars) (s : Str) : ∃ p, parseWos C s = some p ∧ p.cite.original = s :=
  let ⟨p, h, ho, _⟩ := parse_fields C s
  ⟨p, h, ho⟩

/-- **C36, equality.** Equality of citations is an equivalence, equal citations have equal hashes, and when the hash of strings has no collision
citations are equal exactly when their ids are. -/
theorem C36_equality (hash : Str → Int) :
    (∀ c, citeEq hash c c = true) ∧ (∀ c d, citeEq hash c d = true → citeEq hash d c = true) ∧
    (∀ c d e, citeEq hash c d = true → citeEq hash d e = true → citeEq hash c e = true) ∧
    (∀ c d : Cite, citeEq hash c d = true ↔ hash c.id = hash d.id) ∧
    ((∀ s t, hash s = hash t → s = t) → ∀ c d, citeEq hash c d = true ↔ c.id = d.id) := by
  unfold citeEq
  refine ⟨by simp, by intro c d; simp; exact fun h => h.symm, by intro c d e; simp; exact fun h h' => h.trans h', by simp, ?_⟩
  intro hi c d
  simp only [beq_iff_eq]
  exact ⟨hi _ _, fun h => by rw [h]⟩

/-- **C36, identity.** Two citations that are not bad, from strings of either kind, have the same id exactly when they have the same author, year and
journal. -/
theorem C36_identity (C : Chars) (p q : Parsed) (hp : IsCitation C p) (hq : IsCitation C q) (bp : p.cite.bad = false) (bq : q.cite.bad = false) :
    p.cite.id = q.cite.id ↔ p.cite.author = q.cite.author ∧ p.cite.year = q.cite.year ∧ p.cite.journal = q.cite.journal := by
  obtain ⟨a, y, j, h1, h2, h3, h4, h5⟩ := good_form C p hp bp
  obtain ⟨a', y', j', h1', h2', h3', h4', h5'⟩ := good_form C q hq bq
  rw [h1, h2, h3, h4, h1', h2', h3', h4']
  constructor
  · intro h
    obtain ⟨rfl, rfl, rfl⟩ := fullId_injective _ _ _ _ _ _ h5 h5' h
    exact ⟨rfl, rfl, rfl⟩
  · rintro ⟨e1, e2, e3⟩
    cases e1; cases e2; cases e3; rfl

/-- **C36, the id is determined.** Two citations, bad or not, with the same author, year and journal have the same id, unless the author is the empty
string or the year is 0. Citations without these attributes, Scopus strings that did not match, are left out. -/
theorem C36_determined_partial (C : Chars) (p q : Parsed) (hp : IsCitation C p) (hq : IsCitation C q) (ha : p.cite.author = q.cite.author)
    (hy : p.cite.year = q.cite.year) (hj : p.cite.journal = q.cite.journal) (h0 : p.cite.author ≠ none) (ha0 : p.cite.author ≠ some (some [])) (hy0 : p.cite.year ≠ some (some 0)) :
    p.cite.id = q.cite.id := by
  have key : ∀ p, IsCitation C p → p.cite.author ≠ none → p.cite.author ≠ some (some []) → p.cite.year ≠ some (some 0) →
      ∃ a y j, p.cite.author = some a ∧ p.cite.year = some y ∧ p.cite.journal = some j ∧ p.cite.id = partId a y j := by
    intro p hp h0 ha0 hy0
    obtain ⟨s, hs | hs⟩ := hp
    · obtain ⟨p', h1, h2, h3, h4, h5, h6, h7, h8, h9, h10⟩ := parse_fields C s
      rw [hs] at h1
      cases h1
      rcases h9 with ⟨-, h9, -⟩ | ⟨-, -, a, y, j, ha, hy, hj, hid⟩
      · exact ⟨_, _, _, h3, h4, h5, h9⟩
      · refine ⟨_, _, _, ha, hy, hj, ?_⟩
        rw [hj] at h5
        rw [hid, partId_full]
        · rintro rfl; exact ha0 ha
        · rintro rfl; exact hy0 hy
        · exact (journal_form _ j (by simpa using h5.symm)).2
    · unfold parseScopus at hs
      split at hs
      · rw [← hs] at h0; exact absurd rfl h0
      · dsimp only at hs
        split at hs
        · rename_i a y j ha hy hj
          have ha' := truthy_single _ _ ha
          have hy' := year_single _ _ hy
          have hj' := truthy_single _ _ hj
          rw [← hs]
          refine ⟨_, _, _, rfl, rfl, rfl, ?_⟩
          rw [ha'.1, hy'.1, hj'.1]
          exact (partId_full a y j ha'.2 hy'.2 hj'.2).symm
        · rw [← hs]
          exact ⟨_, _, _, rfl, rfl, rfl, rfl⟩
  obtain ⟨a, y, j, h1, h2, h3, h4⟩ := key p hp h0 ha0 hy0
  obtain ⟨a', y', j', h1', h2', h3', h4'⟩ := key q hq (by rw [← ha]; exact h0) (by rw [← ha]; exact ha0) (by rw [← hy]; exact hy0)
  rw [h1, h1'] at ha
  rw [h2, h2'] at hy
  rw [h3, h3'] at hj
  cases ha; cases hy; cases hj
  rw [h4, h4']

/-! ## Examples -/

def upAscii (c : Char) : Char := if 97 ≤ c.toNat ∧ c.toNat < 123 then Char.ofNat (c.toNat - 32) else c

/-- ASCII: upper case, and words with a capital letter. -/
def ascii : Chars where
  up c := [upAscii c]
  title s := (s.foldl (fun (acc : Str × Bool) c => (acc.1 ++ [if acc.2 then c.toLower else upAscii c], c.isAlpha)) ([], false)).1
  word c := c.isAlphanum || c = '_'
  digit := isDig
  intOf := readInt

def parsed (s : String) : Parsed := (parseWos ascii s.toList).getD ⟨⟨[], [], none, none, none, none, none, none, true⟩, none⟩

theorem parsed_is (s : String) (h : (parseWos ascii s.toList).isSome = true) : IsCitation ascii (parsed s) := by
  refine ⟨s.toList, Or.inl ?_⟩
  unfold parsed
  cases hp : parseWos ascii s.toList with
  | none => rw [hp] at h; cases h
  | some p => rfl

theorem parsed_citation (s : String) : IsCitation ascii (parsed s) := by
  apply parsed_is
  obtain ⟨p, hp, -⟩ := C36_total ascii s.toList
  rw [hp]; rfl

example : parsed "Nunez R., 1998, MATH COGNITION, V4, P85, DOI 10.1080/135467998387343" =
    ⟨⟨"Nunez R, 1998, MATH COGNITION".toList, "Nunez R., 1998, MATH COGNITION, V4, P85, DOI 10.1080/135467998387343".toList, some (some "Nunez R".toList), some (some 1998),
      some (some "MATH COGNITION".toList), some (some "V4".toList), some (some "P85".toList), some none, false⟩, some (some "10.1080/135467998387343".toList)⟩ := by decide +kernel

/-- Two spellings of one citation that are not bad. -/
example : (parsed "Nunez R., 1998, Math Cognition, V4").cite.id = (parsed "NUNEZ R, 1998, MATH COGNITION, P85").cite.id :=
  (C36_identity ascii _ _ (parsed_citation _) (parsed_citation _) (by decide +kernel) (by decide +kernel)).2 (by decide +kernel)

/-- A Scopus citation. -/
example : (parseScopus ascii "Smith, J., Doe, A., On things (2001) Thing J, 4 (2), pp. 7-8, extra".toList).cite.id = "SMITH, J., 2001, THING J".toList := by decide +kernel

/-- **C36 fails at the edges.** With the year 0 the id depends on whether anything follows the journal: same author, year and journal, different ids. -/
theorem C36_not_determined : ∃ p q, IsCitation ascii p ∧ IsCitation ascii q ∧ p.cite.author = q.cite.author ∧ p.cite.year = q.cite.year ∧ p.cite.journal = q.cite.journal ∧
    p.cite.author = some (some "Ab".toList) ∧ p.cite.id ≠ q.cite.id :=
  ⟨parsed "AB, 0, J", parsed "AB, 0, J, X", parsed_citation _, parsed_citation _, by decide +kernel, by decide +kernel, by decide +kernel, by decide +kernel, by decide +kernel⟩

/-- Bad citations can be equal although their authors differ: here the author of one is the journal of the other. -/
theorem C36_bad_collision : ∃ p q, IsCitation ascii p ∧ IsCitation ascii q ∧ p.cite.bad = true ∧ q.cite.bad = true ∧ p.cite.id = q.cite.id ∧ p.cite.author ≠ q.cite.author :=
  ⟨parsed "[]", parsed ", []", parsed_citation _, parsed_citation _, by decide +kernel, by decide +kernel, by decide +kernel, by decide +kernel⟩

/-- What follows the known parts is lost: `misc` is its first character. -/
theorem C36_misc_lost : (parsed "SMITH J, 1998, NATURE, UNDER REVIEW, DOI 10.1/x").cite.misc = some (some ",".toList) ∧
    (parsed "SMITH J, 1998, NATURE, UNDER REVIEW, DOI 10.1/x").doi = some none := by decide +kernel

/-! ## C37 -/

/-- What is true of `str.upper`: a character does not disappear, does not become a comma, a new line or a digit, and those and the characters of the
separators stay. -/
structure UpperOk (up : Char → Str) : Prop where
  ne : ∀ c, up c ≠ []
  comma : ∀ c, c ≠ ',' → ',' ∉ up c
  newline : ∀ c, c ≠ '\n' → '\n' ∉ up c
  start : ∀ c, isDig c = false → ∀ d, (up c).head? = some d → isDig d = false
  digit : ∀ c, isDig c = true → up c = [c]
  fixed : ∀ c ∈ ", VPDOI".toList, up c = [c]

theorem upAscii_cases (c : Char) : (∃ n, n < 26 ∧ c = Char.ofNat (97 + n) ∧ upAscii c = Char.ofNat (65 + n)) ∨ upAscii c = c := by
  unfold upAscii
  split
  · rename_i h
    refine Or.inl ⟨c.toNat - 97, by omega, ?_, ?_⟩
    · rw [show 97 + (c.toNat - 97) = c.toNat by omega, Char.ofNat_toNat]
    · congr 1; omega
  · exact Or.inr rfl

theorem upAscii_table : ∀ n, n < 26 → Char.ofNat (65 + n) ≠ ',' ∧ Char.ofNat (65 + n) ≠ '\n' ∧ isDig (Char.ofNat (65 + n)) = false ∧ isDig (Char.ofNat (97 + n)) = false := by decide

theorem ascii_ok : UpperOk ascii.up := by
  refine ⟨by simp [ascii], ?_, ?_, ?_, ?_, by decide⟩
  · intro c hc h
    rcases upAscii_cases c with ⟨n, hn, -, h2⟩ | h2 <;> simp only [ascii, List.mem_singleton] at h
    · rw [h2] at h; exact (upAscii_table n hn).1 h.symm
    · rw [h2] at h; exact hc h.symm
  · intro c hc h
    rcases upAscii_cases c with ⟨n, hn, -, h2⟩ | h2 <;> simp only [ascii, List.mem_singleton] at h
    · rw [h2] at h; exact (upAscii_table n hn).2.1 h.symm
    · rw [h2] at h; exact hc h.symm
  · intro c hc d h
    rcases upAscii_cases c with ⟨n, hn, -, h2⟩ | h2 <;> simp only [ascii, List.head?_cons, Option.some.injEq] at h
    · rw [← h, h2]; exact (upAscii_table n hn).2.2.1
    · rw [← h, h2]; exact hc
  · intro c hc
    rcases upAscii_cases c with ⟨n, hn, h1, h2⟩ | h2
    · have := (upAscii_table n hn).2.2.2
      rw [← h1, hc] at this; cases this
    · simp [ascii, h2]

/-- A value that is there and not empty. -/
def present (o : Option Str) : Option Str := o.filter (fun s => s ≠ [])

/-- The journal a record is cited with: its abbreviation, or else its title. -/
def JournalIs (v : Vals) (j : Str) : Prop := v.j9 = some j ∨ (present v.j9 = none ∧ v.title = some j)

/-- An author that can be read back: after commas are removed two characters or more, the first not a digit. -/
def GoodAuthor (a : Str) : Prop := ∃ c d t, a.filter (fun c => c ≠ ',') = c :: d :: t ∧ isDig c = false

/-- What the author of the citation is: without commas and full stops, in title case. -/
def shownAuthor (C : Chars) (a : Str) : Str := C.title ((C.upper (a.filter (fun c => c ≠ ','))).filter (fun c => c ≠ '.'))

/-! ### The upper case string -/

variable {C : Chars}

theorem upper_append (a b : Str) : C.upper (a ++ b) = C.upper a ++ C.upper b := by unfold Chars.upper; simp

theorem upper_fixed (hC : UpperOk C.up) (s : Str) (h : ∀ c ∈ s, isDig c = true ∨ c ∈ ", VPDOI".toList) : C.upper s = s := by
  unfold Chars.upper
  induction s with
  | nil => rfl
  | cons c s ih =>
    rw [List.flatMap_cons, ih (fun d hd => h d (by simp [hd]))]
    rcases h c (by simp) with hc | hc
    · rw [hC.digit c hc]; rfl
    · rw [hC.fixed c hc]; rfl

theorem upper_comma (hC : UpperOk C.up) (s : Str) (h : ',' ∉ s) : ',' ∉ C.upper s := by
  unfold Chars.upper
  intro hm
  obtain ⟨c, hc, hm⟩ := List.mem_flatMap.1 hm
  exact hC.comma c (fun e => h (e ▸ hc)) hm

theorem upper_newline (hC : UpperOk C.up) (s : Str) (h : '\n' ∉ s) : '\n' ∉ C.upper s := by
  unfold Chars.upper
  intro hm
  obtain ⟨c, hc, hm⟩ := List.mem_flatMap.1 hm
  exact hC.newline c (fun e => h (e ▸ hc)) hm

theorem upper_ne_nil (hC : UpperOk C.up) (s : Str) (h : s ≠ []) : C.upper s ≠ [] := by
  cases s with
  | nil => exact absurd rfl h
  | cons c s =>
    unfold Chars.upper
    rw [List.flatMap_cons]
    simp [hC.ne c]

theorem upper_author (hC : UpperOk C.up) (c d : Char) (t : Str) (hc : isDig c = false) (hn : ',' ∉ c :: d :: t) :
    ∃ c' d' t', C.upper (c :: d :: t) = c' :: d' :: t' ∧ authStart c' = true ∧ ',' ∉ c' :: d' :: t' := by
  have h1 : C.upper (c :: d :: t) = C.up c ++ C.upper (d :: t) := by unfold Chars.upper; rw [List.flatMap_cons]
  have h2 := upper_ne_nil hC (d :: t) (by simp)
  have h3 := upper_comma hC _ hn
  obtain ⟨c', l, hl⟩ := List.exists_cons_of_ne_nil (hC.ne c)
  have h4 := hC.start c hc c' (by rw [hl]; rfl)
  have hc' : c' ≠ ',' := by
    rintro rfl
    exact hC.comma c (by rintro rfl; simp at hn) (by rw [hl]; simp)
  rw [hl] at h1
  have hne : l ++ C.upper (d :: t) ≠ [] := by simp [h2]
  obtain ⟨d', t', ht⟩ := List.exists_cons_of_ne_nil hne
  have h5 : C.upper (c :: d :: t) = c' :: d' :: t' := by rw [h1, List.cons_append, ht]
  exact ⟨c', d', t', h5, by unfold authStart; simp [h4, hc'], by rw [← h5]; exact h3⟩

/-! ### Reading the parts -/

theorem takeWhile_stop (A r : Str) (hA : ',' ∉ A) (hr : Stop r) : (A ++ r).takeWhile noComma = A ∧ (A ++ r).dropWhile noComma = r := by
  have h1 : ∀ c ∈ A, noComma c = true := by
    intro c hc
    unfold noComma
    simp only [ne_eq, decide_eq_true_eq]
    rintro rfl; exact hA hc
  have h2 : r.takeWhile noComma = [] ∧ r.dropWhile noComma = r := by
    rcases hr with rfl | ⟨t, rfl⟩
    · exact ⟨rfl, rfl⟩
    · exact ⟨by rw [List.takeWhile_cons_of_neg (by decide)], by rw [List.dropWhile_cons_of_neg (by decide)]⟩
  constructor
  · rw [List.takeWhile_append_of_pos h1, h2.1, List.append_nil]
  · rw [List.dropWhile_append_of_pos h1, h2.2]

theorem eat_author (c d : Char) (t r : Str) (hc : authStart c = true) (hn : ',' ∉ c :: d :: t) (hr : Stop r) : eatAuthor (c :: d :: t ++ r) = (some (c :: d :: t), r) := by
  have hd : noComma d = true := by unfold noComma; simp only [ne_eq, decide_eq_true_eq]; rintro rfl; simp at hn
  obtain ⟨h1, h2⟩ := takeWhile_stop (d :: t) r (by intro h; exact hn (List.mem_cons_of_mem _ h)) hr
  show eatAuthor (c :: d :: (t ++ r)) = _
  rw [eatAuthor, if_pos (by simp [hc, hd])]
  rw [show d :: (t ++ r) = d :: t ++ r from rfl, h1, h2]

theorem eat_no_author (c : Char) (t : Str) (hc : isDig c = true) : eatAuthor (c :: t) = (none, c :: t) := by
  cases t with
  | nil => rfl
  | cons d t => rw [eatAuthor, if_neg (by simp [authStart, hc])]

theorem eat_sep (r : Str) : eatSep (", ".toList ++ r) = (some ", ".toList, r) := rfl

theorem eat_sep_digit (c : Char) (t : Str) (hc : isDig c = true) : eatSep (c :: t) = (none, c :: t) := by
  apply eatSep_neg
  rw [Bool.eq_false_iff]
  intro h
  obtain ⟨u, hu⟩ := List.isPrefixOf_iff_prefix.1 h
  have := congrArg List.head? hu
  simp at this
  exact isDig_ne_comma c hc this.symm

theorem digits5_eq (D r : Str) (hD : ∀ c ∈ D, isDig c = true) (hlen : D.length ≤ 5) (hr : Stop r) : digits5 (D ++ r) = D.length := by
  have h2 : r.takeWhile isDig = [] := by
    rcases hr with rfl | ⟨t, rfl⟩
    · rfl
    · rw [List.takeWhile_cons_of_neg (by decide)]
  unfold digits5 most
  dsimp only
  rw [List.takeWhile_append_of_pos hD, h2, List.append_nil]
  omega

theorem eat_year (n : Nat) (hn : n < 100000) (r : Str) (hr : Stop r) : eatYear (showNat n ++ r) = (some (showNat n), r) := by
  have h1 := digits5_eq (showNat n) r (showNat_digits n) (showNat_length n hn) hr
  have hne := showNat_ne_nil n
  have hdig := showNat_digits n
  obtain ⟨D, hD⟩ : ∃ D, D = showNat n := ⟨_, rfl⟩
  rw [← hD] at h1 hne hdig ⊢
  have hlen : D.length ≠ 0 := by simpa using hne
  unfold eatYear
  split
  · rename_i t heq
    cases D with
    | nil => exact absurd rfl hne
    | cons c D =>
      have : c = '-' := by injection heq
      subst this
      have := hdig '-' (by simp)
      rw [dash_not_dig] at this; cases this
  · rw [h1, if_neg hlen]
    simp

theorem eat_journal (J r : Str) (hJ : J ≠ []) (hn : ',' ∉ J) (hr : Stop r) : eatJournal (J ++ r) = (some J, r) := by
  obtain ⟨h1, h2⟩ := takeWhile_stop J r hn hr
  unfold eatJournal
  rw [h1, h2, if_neg hJ]

theorem eat_tag (tag : Char) (w r : Str) (hw : w ≠ []) (hn : ',' ∉ w) (hr : Stop r) : eatTag tag (", ".toList ++ tag :: w ++ r) = (some (tag :: w), r) := by
  obtain ⟨h1, h2⟩ := takeWhile_stop w r hn hr
  show eatTag tag (',' :: ' ' :: tag :: (w ++ r)) = _
  rw [eatTag, h1, h2, if_pos ⟨rfl, hw⟩]

theorem eat_tag_none (tag : Char) (r : Str) (h : r = [] ∨ ∃ c t, r = ',' :: ' ' :: c :: t ∧ c ≠ tag) : eatTag tag r = (none, r) := by
  rcases h with rfl | ⟨c, t, rfl, hc⟩
  · rfl
  · rw [eatTag, if_neg (fun h => hc h.1)]

theorem eat_doi (d : Str) (hd : d ≠ []) (hn : '\n' ∉ d) : eatDoi (", DOI ".toList ++ d) = some d := by
  have h1 : ∀ c ∈ d, dot c = true := by
    intro c hc
    unfold dot
    simp only [ne_eq, decide_eq_true_eq]
    rintro rfl; exact hn hc
  have h2 : d.takeWhile dot = d := by simpa using List.takeWhile_append_of_pos (l₂ := []) h1
  unfold eatDoi
  rw [show (", DOI ".toList ++ d).drop 6 = d from rfl, h2, if_pos ⟨List.isPrefixOf_iff_prefix.2 (List.prefix_append _ _), hd⟩]

/-- A part after the journal, as it is written. -/
def tagged (t : Str) (o : Option Str) : Str := match o with | some w => ", ".toList ++ t ++ w | none => []

/-- The author, as it is written. -/
def lead (o : Option Str) : Str := match o with | some w => w ++ ", ".toList | none => []

theorem tagged_stop (t : Str) (o : Option Str) (r : Str) (hr : Stop r) : Stop (tagged t o ++ r) := by
  cases o with
  | none => exact hr
  | some w => exact Or.inr ⟨_, rfl⟩

theorem read_tail (v p d : Option Str) (hv : ∀ w, v = some w → w ≠ [] ∧ ',' ∉ w) (hp : ∀ w, p = some w → w ≠ [] ∧ ',' ∉ w) (hd : ∀ w, d = some w → w ≠ [] ∧ '\n' ∉ w) :
    eatTag 'V' (tagged "V".toList v ++ (tagged "P".toList p ++ tagged "DOI ".toList d)) = (v.map ('V' :: ·), tagged "P".toList p ++ tagged "DOI ".toList d) ∧
    eatTag 'P' (tagged "P".toList p ++ tagged "DOI ".toList d) = (p.map ('P' :: ·), tagged "DOI ".toList d) ∧
    (match tagged "DOI ".toList d with | [] => none | c :: t => eatDoi (c :: t)) = d ∧ (d ≠ none → tagged "DOI ".toList d ≠ []) := by
  have hsD : Stop (tagged "DOI ".toList d) := by simpa using tagged_stop "DOI ".toList d [] (Or.inl rfl)
  have hsP : Stop (tagged "P".toList p ++ tagged "DOI ".toList d) := tagged_stop _ _ _ hsD
  refine ⟨?_, ?_, ?_, ?_⟩
  · cases v with
    | some w => exact eat_tag 'V' w _ (hv w rfl).1 (hv w rfl).2 hsP
    | none =>
      apply eat_tag_none
      cases p with
      | some w => exact Or.inr ⟨'P', _, rfl, by decide⟩
      | none =>
        cases d with
        | some w => exact Or.inr ⟨'D', _, rfl, by decide⟩
        | none => exact Or.inl rfl
  · cases p with
    | some w => exact eat_tag 'P' w _ (hp w rfl).1 (hp w rfl).2 hsD
    | none =>
      apply eat_tag_none
      cases d with
      | some w => exact Or.inr ⟨'D', _, rfl, by decide⟩
      | none => exact Or.inl rfl
  · cases d with
    | some w => exact eat_doi w (hd w rfl).1 (hd w rfl).2
    | none => rfl
  · cases d with
    | some w => intro _ h; cases h
    | none => intro h; exact absurd rfl h

/-- The parts of a citation that has all its commas in the right places. -/
theorem read_parts (a : Option Str) (n : Nat) (j : Str) (v p d : Option Str) (hn : n < 100000) (ha : ∀ w, a = some w → ∃ c d t, w = c :: d :: t ∧ authStart c = true ∧ ',' ∉ w)
    (hj : j ≠ [] ∧ ',' ∉ j) (hv : ∀ w, v = some w → w ≠ [] ∧ ',' ∉ w) (hp : ∀ w, p = some w → w ≠ [] ∧ ',' ∉ w) (hd : ∀ w, d = some w → w ≠ [] ∧ '\n' ∉ w) :
    let R := readCite (lead a ++ (showNat n ++ (", ".toList ++ (j ++ (tagged "V".toList v ++ (tagged "P".toList p ++ tagged "DOI ".toList d))))))
    R.author = a ∧ R.year = some (showNat n) ∧ R.journal = some j ∧ R.V = v.map ('V' :: ·) ∧ R.P = p.map ('P' :: ·) ∧ R.doi = d ∧ R.misc = none := by
  obtain ⟨t1, t2, t3, t4⟩ := read_tail v p d hv hp hd
  have hsT : Stop (tagged "V".toList v ++ (tagged "P".toList p ++ tagged "DOI ".toList d)) := by
    apply tagged_stop; apply tagged_stop; simpa using tagged_stop "DOI ".toList d [] (Or.inl rfl)
  obtain ⟨T, hT⟩ : ∃ T, T = tagged "V".toList v ++ (tagged "P".toList p ++ tagged "DOI ".toList d) := ⟨_, rfl⟩
  rw [← hT] at hsT t1 ⊢
  have hj1 := eat_journal j T hj.1 hj.2 hsT
  have hy1 := eat_year n hn (", ".toList ++ (j ++ T)) (Or.inr ⟨_, rfl⟩)
  have hstart : ∃ A S, eatAuthor (lead a ++ (showNat n ++ (", ".toList ++ (j ++ T)))) = (A, S) ∧ A = a ∧
      (eatSep S).2 = showNat n ++ (", ".toList ++ (j ++ T)) := by
    obtain ⟨c, D, hD⟩ := List.exists_cons_of_ne_nil (showNat_ne_nil n)
    have hc : isDig c = true := showNat_digits n c (by rw [hD]; simp)
    cases a with
    | none =>
      refine ⟨none, showNat n ++ (", ".toList ++ (j ++ T)), ?_, rfl, ?_⟩
      · rw [hD]; exact eat_no_author c _ hc
      · rw [hD]; show (eatSep (c :: (D ++ _))).2 = _
        rw [eat_sep_digit c _ hc]; rfl
    | some w =>
      obtain ⟨c1, c2, t, rfl, h1, h2⟩ := ha w rfl
      refine ⟨_, ", ".toList ++ (showNat n ++ (", ".toList ++ (j ++ T))), ?_, rfl, ?_⟩
      · unfold lead
        dsimp only
        rw [List.append_assoc]
        exact eat_author c1 c2 t _ h1 h2 (Or.inr ⟨_, rfl⟩)
      · rw [eat_sep]
  obtain ⟨A, S, hA, rfl, hS⟩ := hstart
  intro R
  have hR : R = readCite (lead A ++ (showNat n ++ (", ".toList ++ (j ++ T)))) := rfl
  unfold readCite at hR
  dsimp only at hR
  rw [hA] at hR
  dsimp only at hR
  rw [hS, hy1] at hR
  dsimp only at hR
  rw [eat_sep] at hR
  dsimp only at hR
  rw [hj1] at hR
  dsimp only at hR
  rw [t1] at hR
  dsimp only at hR
  rw [t2] at hR
  dsimp only at hR
  rcases hD : tagged "DOI ".toList d with _ | ⟨c, t⟩
  · rw [hD] at hR t4
    dsimp only at hR
    rw [hR]
    refine ⟨rfl, rfl, rfl, rfl, rfl, ?_, rfl⟩
    by_contra hne
    exact t4 (fun e => hne e.symm) rfl
  · rw [hD] at hR t3
    dsimp only at hR t3
    rw [t3] at hR
    cases d with
    | none => cases hD
    | some w => rw [hR]; exact ⟨rfl, rfl, rfl, rfl, rfl, rfl, rfl⟩

/-! ### The string of a record -/

theorem join_flat (sep x : Str) (l : List Str) : Str.join sep (x :: l) = x ++ l.flatMap (sep ++ ·) := by
  induction l generalizing x with
  | nil => simp [Str.join]
  | cons y l ih => rw [Str.join_cons sep x (y :: l) (by simp), ih, List.flatMap_cons]; simp

theorem truthy_present (o : Option Str) : truthy o = (present o).toList := by
  cases o with
  | none => rfl
  | some w => by_cases h : w = [] <;> simp [truthy, present, h, Option.filter]

theorem present_some (o : Option Str) (w : Str) (h : present o = some w) : o = some w ∧ w ≠ [] := by
  cases o with
  | none => cases h
  | some x =>
    by_cases hx : x = []
    · simp [present, Option.filter, hx] at h
    · simp [present, Option.filter, hx] at h; subst h; exact ⟨rfl, hx⟩

theorem flat_tagged (t : Str) (o : Option Str) (rest : List Str) : ((o.toList.map (t ++ ·)) ++ rest).flatMap (", ".toList ++ ·) = tagged t o ++ rest.flatMap (", ".toList ++ ·) := by
  cases o <;> simp [tagged]

theorem tailVals_eq (v : Vals) (n : Nat) (hy : v.year = some (n : Int)) (hn : n ≠ 0) (j : Str) (hj : JournalIs v j) (hj0 : j ≠ []) :
    tailVals v = showNat n :: j :: (((present v.volume).toList.map ("V".toList ++ ·)) ++ (((present v.page).toList.map ("P".toList ++ ·)) ++
      (((present v.doi).toList.map ("DOI ".toList ++ ·)) ++ []))) := by
  unfold tailVals
  have h1 : (v.year.toList.filter (fun i => i ≠ 0)).map showInt = [showNat n] := by
    have : ((n : Int)) ≠ 0 := by omega
    rw [hy, Option.toList_some, List.filter_cons_of_pos (by simpa using this)]
    rfl
  have h2 : (if truthy v.j9 ≠ [] then truthy v.j9 else truthy v.title) = [j] := by
    rcases hj with h | ⟨h, h'⟩
    · rw [h, truthy_some _ hj0]; simp
    · rw [truthy_present, h, h', truthy_some _ hj0]; simp
  rw [h1, h2, truthy_present, truthy_present, truthy_present]
  simp

theorem upper_tagged (hC : UpperOk C.up) (t : Str) (ht : ∀ c ∈ t, c ∈ ", VPDOI".toList) (o : Option Str) : C.upper (tagged t o) = tagged t (o.map C.upper) := by
  cases o with
  | none => rfl
  | some w =>
    show C.upper (", ".toList ++ t ++ w) = ", ".toList ++ t ++ C.upper w
    rw [upper_append, upper_fixed hC (", ".toList ++ t)]
    intro c hc
    rcases List.mem_append.1 hc with h | h
    · right
      have : ∀ c ∈ ", ".toList, c ∈ ", VPDOI".toList := by decide
      exact this c h
    · exact Or.inr (ht c h)

theorem upper_cite (hC : UpperOk C.up) (v : Vals) (n : Nat) (hy : v.year = some (n : Int)) (hn : n ≠ 0) (j : Str) (hj : JournalIs v j) (hj0 : j ≠ []) :
    C.upper (citeString v) = lead (v.authors.head?.map (fun a => C.upper (citeAuthor a))) ++
      (showNat n ++ (", ".toList ++ (C.upper j ++ (tagged "V".toList ((present v.volume).map C.upper) ++ (tagged "P".toList ((present v.page).map C.upper) ++
        tagged "DOI ".toList ((present v.doi).map C.upper)))))) := by
  have htail : ∀ l : List Str, l = (((present v.volume).toList.map ("V".toList ++ ·)) ++ (((present v.page).toList.map ("P".toList ++ ·)) ++
      (((present v.doi).toList.map ("DOI ".toList ++ ·)) ++ []))) → C.upper (l.flatMap (", ".toList ++ ·)) =
      tagged "V".toList ((present v.volume).map C.upper) ++ (tagged "P".toList ((present v.page).map C.upper) ++ tagged "DOI ".toList ((present v.doi).map C.upper)) := by
    rintro l rfl
    rw [flat_tagged, flat_tagged, flat_tagged]
    simp only [List.flatMap_nil, List.append_nil]
    rw [upper_append, upper_append, upper_tagged hC _ (by decide), upper_tagged hC _ (by decide), upper_tagged hC _ (by decide)]
  have hsep : C.upper ", ".toList = ", ".toList := upper_fixed hC _ (by decide)
  have hyear : C.upper (showNat n) = showNat n := upper_fixed hC _ (fun c hc => Or.inl (showNat_digits n c hc))
  unfold citeString
  rw [tailVals_eq v n hy hn j hj hj0]
  obtain ⟨l, hl⟩ : ∃ l, l = (((present v.volume).toList.map ("V".toList ++ ·)) ++ (((present v.page).toList.map ("P".toList ++ ·)) ++
      (((present v.doi).toList.map ("DOI ".toList ++ ·)) ++ []))) := ⟨_, rfl⟩
  rw [← hl, ← htail l hl]
  cases v.authors with
  | nil =>
    simp only [List.take_nil, List.map_nil, List.nil_append, List.head?_nil, Option.map_none]
    rw [join_flat, List.flatMap_cons, upper_append, upper_append, upper_append, hsep, hyear]
    simp [lead]
  | cons a as =>
    simp only [List.take_succ_cons, List.take_zero, List.map_cons, List.map_nil, List.singleton_append, List.head?_cons, Option.map_some]
    rw [join_flat, List.flatMap_cons, List.flatMap_cons, upper_append, upper_append, upper_append, upper_append, upper_append, hsep, hyear]
    simp [lead]

/-- **C37.** If the record has a year from 1 to 99999, a journal or title without commas, a first author of two characters or more that does not begin
with a digit (or no author), no comma in volume and page and no new line in the DOI, the citation `createCitation` makes has the author, year, journal,
volume, page and DOI of the record, in upper case, and is good if there is an author. -/
theorem C37_parses_back (hC : UpperOk C.up) (v : Vals) (n : Nat) (hy : v.year = some (n : Int)) (h0 : 0 < n) (hn : n < 100000) (j : Str) (hj : JournalIs v j) (hj0 : j ≠ [])
    (hjc : ',' ∉ j) (ha : ∀ a, v.authors.head? = some a → GoodAuthor a) (hv : ∀ w, v.volume = some w → ',' ∉ w) (hp : ∀ w, v.page = some w → ',' ∉ w)
    (hd : ∀ w, v.doi = some w → '\n' ∉ w) :
    ∃ p, parseWos C (citeString v) = some p ∧ p.cite.bad = v.authors.isEmpty ∧ p.cite.author = some (v.authors.head?.map (shownAuthor C)) ∧
      p.cite.year = some (some (n : Int)) ∧ p.cite.journal = some (some (C.upper j)) ∧ p.cite.V = some ((present v.volume).map (fun w => 'V' :: C.upper w)) ∧
      p.cite.P = some ((present v.page).map (fun w => 'P' :: C.upper w)) ∧ p.doi = some ((present v.doi).map C.upper) ∧ p.cite.misc = some none := by
  have hgood : ∀ o : Option Str, (∀ w, o = some w → ',' ∉ w) → ∀ w, (present o).map C.upper = some w → w ≠ [] ∧ ',' ∉ w := by
    intro o ho w hw
    rcases hpo : present o with _ | x
    · rw [hpo] at hw; cases hw
    · rw [hpo] at hw
      cases hw
      obtain ⟨h1, h2⟩ := present_some o x hpo
      exact ⟨upper_ne_nil hC x h2, upper_comma hC x (ho x h1)⟩
  obtain ⟨r1, r2, r3, r4, r5, r6, r7⟩ := read_parts (v.authors.head?.map (fun a => C.upper (citeAuthor a))) n (C.upper j) ((present v.volume).map C.upper)
    ((present v.page).map C.upper) ((present v.doi).map C.upper) hn (by
      intro w hw
      rcases hh : v.authors.head? with _ | a
      · rw [hh] at hw; cases hw
      · rw [hh] at hw
        cases hw
        obtain ⟨c, d, t, h1, h2⟩ := ha a hh
        have hnc : ',' ∉ c :: d :: t := by rw [← h1]; simp
        obtain ⟨c', d', t', h3, h4, h5⟩ := upper_author hC c d t h2 hnc
        have : C.upper (citeAuthor a) = c' :: d' :: t' := by rw [← h3, ← h1]; rfl
        exact ⟨c', d', t', this, h4, by show ',' ∉ C.upper (citeAuthor a); rw [this]; exact h5⟩) ⟨upper_ne_nil hC j hj0, upper_comma hC j hjc⟩ (hgood _ hv) (hgood _ hp) (by
      intro w hw
      rcases hpo : present v.doi with _ | x
      · rw [hpo] at hw; cases hw
      · rw [hpo] at hw
        cases hw
        obtain ⟨h1, h2⟩ := present_some v.doi x hpo
        exact ⟨upper_ne_nil hC x h2, upper_newline hC x (hd x h1)⟩)
  rw [← upper_cite hC v n hy (by omega) j hj hj0] at r1 r2 r3 r4 r5 r6 r7
  obtain ⟨p, h1, h2, h3, h4, h5, h6, h7, h8, h9, h10⟩ := parse_fields C (citeString v)
  rw [r1] at h3
  rw [r2] at h4
  rw [r3] at h5
  rw [r4] at h6
  rw [r5] at h7
  rw [r7] at h8
  rw [r7, if_pos rfl, r6] at h10
  have hyr : (some (showNat n)).map readInt = some (n : Int) := by
    have := readInt_showInt (n : Int)
    exact congrArg some this
  rw [hyr] at h4
  refine ⟨p, h1, ?_, ?_, h4, h5, ?_, ?_, h10, h8⟩
  · rcases h9 with ⟨hb, -, h9⟩ | ⟨hb, -, a, y, j', e1, -⟩
    · rw [r7, r1, r2, r3] at h9
      rw [hb]
      rcases h9 with h | h | h | h
      · exact absurd rfl h
      · cases hA : v.authors with
        | nil => rfl
        | cons a as => rw [hA] at h; cases h
      · cases h
      · cases h
    · rw [hb]
      cases hA : v.authors with
      | nil => rw [h3, hA] at e1; cases e1
      | cons a as => rfl
  · rw [h3]
    cases v.authors.head? with
    | none => rfl
    | some a => rfl
  · rw [h6]; simp [Option.map_map, Function.comp_def]
  · rw [h7]; simp [Option.map_map, Function.comp_def]

/-- **C37, one citation per author.** With `multiCite` there is one citation for each author, in order, and it is the one the record would have if that
author were its only one. -/
theorem C37_multi (v : Vals) (h : v.authors ≠ []) : citeStrings v = v.authors.map (fun a => citeString { v with authors := [a] }) := by
  unfold citeStrings
  rw [if_neg h]
  rfl

/-- **C37, no author.** Without authors there is one citation, with `multiCite` as without. -/
theorem C37_multi_no_author (v : Vals) (h : v.authors = []) : citeStrings v = [citeString v] := by
  unfold citeStrings citeString
  rw [if_pos h, h]
  rfl

/-- A record that meets all conditions. -/
example : ∃ p, parseWos ascii (citeString ⟨["Nunez, R.".toList, "Doe, A.".toList], some 1998, some "Math Cognition".toList, none, some "4".toList, some "85".toList, some "10.1080/1".toList⟩) = some p ∧
    p.cite.author = some (some "Nunez R".toList) := by
  obtain ⟨p, h1, -, h3, -⟩ := C37_parses_back (C := ascii) ascii_ok ⟨["Nunez, R.".toList, "Doe, A.".toList], some 1998, some "Math Cognition".toList, none, some "4".toList, some "85".toList,
    some "10.1080/1".toList⟩ 1998 rfl (by decide) (by decide) "Math Cognition".toList (Or.inl rfl) (by decide) (by decide)
    (by intro a h; cases h; exact ⟨'N', 'u', _, rfl, by decide⟩) (by intro w h; cases h; decide) (by intro w h; cases h; decide) (by intro w h; cases h; decide)
  exact ⟨p, h1, h3.trans (by decide +kernel)⟩

def citeOf (v : Vals) : Parsed := (parseWos ascii (citeString v)).getD ⟨⟨[], [], none, none, none, none, none, none, true⟩, none⟩

/-- **C37 fails outside these conditions.** An author of one letter: the citation is bad and the author becomes the journal. -/
theorem C37_short_author : (citeOf ⟨["X".toList], some 1998, some "NATURE".toList, none, none, none, none⟩).cite.bad = true ∧
    (citeOf ⟨["X".toList], some 1998, some "NATURE".toList, none, none, none, none⟩).cite.journal = some (some "X".toList) ∧
    (citeOf ⟨["X".toList], some 1998, some "NATURE".toList, none, none, none, none⟩).cite.year = some none := by decide +kernel

/-- Without a journal and a title the volume becomes the journal. -/
theorem C37_no_journal : (citeOf ⟨["Smith, J".toList], some 1998, none, none, some "4".toList, some "85".toList, none⟩).cite.journal = some (some "V4".toList) ∧
    (citeOf ⟨["Smith, J".toList], some 1998, none, none, some "4".toList, some "85".toList, none⟩).cite.V = some none ∧
    (citeOf ⟨["Smith, J".toList], some 1998, none, none, some "4".toList, some "85".toList, none⟩).cite.bad = false := by decide +kernel

/-- Without a year, the digits a journal begins with become the year. -/
theorem C37_no_year : (citeOf ⟨["Smith, J".toList], none, some "2D MATERIALS".toList, none, none, none, none⟩).cite.year = some (some 2) ∧
    (citeOf ⟨["Smith, J".toList], none, some "2D MATERIALS".toList, none, none, none, none⟩).cite.journal = some (some "D MATERIALS".toList) := by decide +kernel

/-- A title with a comma is cut there, and volume, page and DOI are lost. -/
theorem C37_comma_in_title : (citeOf ⟨["Smith, J".toList], some 1998, none, some "Men, Women".toList, some "4".toList, some "85".toList, some "10.1/2".toList⟩).cite.journal = some (some "MEN".toList) ∧
    (citeOf ⟨["Smith, J".toList], some 1998, none, some "Men, Women".toList, some "4".toList, some "85".toList, some "10.1/2".toList⟩).cite.V = some none ∧
    (citeOf ⟨["Smith, J".toList], some 1998, none, some "Men, Women".toList, some "4".toList, some "85".toList, some "10.1/2".toList⟩).doi = some none := by decide +kernel

end Verif.Props.CiteParse
