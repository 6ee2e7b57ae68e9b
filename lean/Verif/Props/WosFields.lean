import Verif.Model.WosFields
import Verif.Model.TagNames
import Verif.Props.TagNames

/-! # C69: the values of the fields of a WOS record -/
set_option autoImplicit false
set_option linter.unusedSimpArgs false
namespace Verif.Props.WosFields
open Verif.Py Verif.Model.WosFields
open Verif.Spec.TagTable (Wos)

/-! ## Helpers -/

theorem join_eq (sep : Str) (l : List Str) : Str.join sep l = sep.intercalate l := by
  induction l with
  | nil => rfl
  | cons a l ih =>
    cases l with
    | nil => simp [Str.join, List.intercalate]
    | cons b l => rw [Str.join, ih]; simp [List.intercalate, List.intersperse]

/-- A separator of two different characters is not completed by its first one. -/
theorem no_sep_append (x y : Char) (h : x ≠ y) (p : Str) (hp : ¬ [x, y] <:+: p) : ¬ [x, y] <:+: p ++ [x, y].dropLast := by
  rintro ⟨a, b, hab⟩
  rcases List.eq_nil_or_concat b with rfl | ⟨b', c, rfl⟩
  · have : (a ++ [x, y] ++ []).getLast? = (p ++ [x]).getLast? := by rw [hab]; rfl
    simp at this
    exact h this.symm
  · refine hp ⟨a, b', ?_⟩
    have h2 : (a ++ [x, y] ++ b') ++ [c] = p ++ [x] := by simpa using hab
    exact (List.append_inj' h2 rfl).1

theorem split_intercalate (x y : Char) (h : x ≠ y) (l : List Str) (hl : l ≠ []) (hp : ∀ p ∈ l, ¬ [x, y] <:+: p) :
    Str.split [x, y] ([x, y].intercalate l) = l := by
  rw [← join_eq]
  exact Str.split_join _ (by simp) l hl fun p hpl => no_sep_append x y h p (hp p hpl)

theorem intercalate_split (sep s : Str) (h : sep ≠ []) : sep.intercalate (Str.split sep s) = s := by
  rw [← join_eq, Str.join_split _ _ h]

/-- String functions good enough for the examples: ASCII. -/
def ascii : Prims where
  upper s := s.map Char.toUpper
  lower s := s.map Char.toLower
  ws c := c = ' '
  isdigit s := !s.isEmpty && s.all isDig
  int s := if !s.isEmpty && s.all isDig then some (readNat s : Int) else none

theorem kind_of (P : Prims) {tag : Str} {k : Kind} (h : wosKinds.get? tag = some k) (val : List Str) : wosValue P tag val = process P k val := by
  unfold wosValue; rw [h]

/-! ## Texts -/

/-- Titles, conference names, funding texts and addresses of publishers: the lines joined by blanks, so nothing is lost and it does not matter where the
file breaks a line. -/
theorem C69_text (P : Prims) (tag : Str) (htag : tag ∈ ["TI", "SE", "BS", "CT", "HO", "CL", "FX", "PA", "SU"].map String.toList) (val : List Str) :
    wosValue P tag val = .ok (.text ([' '].intercalate val)) := by
  have h : wosKinds.get? tag = some .joined := by revert tag; decide
  rw [kind_of P h, ← join_eq]; rfl

/-- Journals and publishers: the same, in upper case. -/
theorem C69_text_upper (P : Prims) (tag : Str) (htag : tag ∈ ["SO", "PU", "PI", "JI"].map String.toList) (val : List Str) :
    wosValue P tag val = .ok (.text (P.upper ([' '].intercalate val))) := by
  have h : wosKinds.get? tag = some .joinedUpper := by revert tag; decide
  rw [kind_of P h, ← join_eq]; rfl

/-- The abstract keeps its line breaks, and languages are put in one text. -/
theorem C69_abstract (P : Prims) (val : List Str) : wosValue P "AB".toList val = .ok (.text (['\n'].intercalate val)) ∧
    wosValue P "LA".toList val = .ok (.text ([',', ' '].intercalate val)) := by
  rw [← join_eq, ← join_eq]; exact ⟨rfl, rfl⟩

/-- Authors and editors: one entry per line, unchanged; and one citation per line. -/
theorem C69_lines (P : Prims) (tag : Str) (htag : tag ∈ ["AF", "BE", "AU", "BA", "BF", "ED"].map String.toList) (val : List Str) :
    wosValue P tag val = .ok (.texts val) ∧ wosValue P "CR".toList val = .ok (.cites val) := by
  have h : wosKinds.get? tag = some .whole := by revert tag; decide
  rw [kind_of P h]; exact ⟨rfl, rfl⟩

/-! ## Lists written in one text -/

/-- The tags of lists separated by `'; '`. -/
def listTags : List Str := ["EM", "RI", "OI", "FU", "SC", "BN", "WC"].map String.toList

theorem list_kind {tag : Str} (h : tag ∈ listTags) : wosKinds.get? tag = some .semiList := by revert tag; decide

/-- A list of e-mail addresses, identifiers, grants or subjects is recovered, wherever the file breaks the lines. -/
theorem C69_lists (P : Prims) (tag : Str) (htag : tag ∈ listTags) (items val : List Str) (hne : items ≠ [])
    (hsep : ∀ p ∈ items, ¬ "; ".toList <:+: p) (hval : [' '].intercalate val = "; ".toList.intercalate items) :
    wosValue P tag val = .ok (.texts items) := by
  rw [kind_of P (list_kind htag)]
  show Except.ok (FVal.texts (Str.split [';', ' '] (Str.join [' '] val))) = _
  rw [join_eq, hval]
  exact congrArg _ (congrArg _ (split_intercalate ';' ' ' (by decide) items hne hsep))

/-- Keywords are the same list, in lower case for the author's and in upper case for the others. -/
theorem C69_keywords (P : Prims) (items val : List Str) (hne : items ≠ []) (hsep : ∀ p ∈ items, ¬ "; ".toList <:+: p) :
    (P.lower ([' '].intercalate val) = "; ".toList.intercalate items → wosValue P "DE".toList val = .ok (.texts items)) ∧
    (P.upper ([' '].intercalate val) = "; ".toList.intercalate items → wosValue P "ID".toList val = .ok (.texts items)) := by
  constructor
  · intro h
    show Except.ok (FVal.texts (Str.split [';', ' '] (P.lower (Str.join [' '] val)))) = _
    rw [join_eq, h]
    exact congrArg _ (congrArg _ (split_intercalate ';' ' ' (by decide) items hne hsep))
  · intro h
    show Except.ok (FVal.texts (Str.split [';', ' '] (P.upper (Str.join [' '] val)))) = _
    rw [join_eq, h]
    exact congrArg _ (congrArg _ (split_intercalate ';' ' ' (by decide) items hne hsep))

/-- Whatever the lines, such a value is a list that is not empty, whose entries do not contain the separator and put together give the text. -/
theorem C69_lists_lossless (P : Prims) (tag : Str) (htag : tag ∈ listTags) (val : List Str) :
    ∃ items, wosValue P tag val = .ok (.texts items) ∧ items ≠ [] ∧ (∀ p ∈ items, ¬ "; ".toList <:+: p) ∧
      "; ".toList.intercalate items = [' '].intercalate val := by
  refine ⟨Str.split [';', ' '] (Str.join [' '] val), ?_, Str.split_ne_nil _ _, Str.split_pieces _ _ (by simp), ?_⟩
  · rw [kind_of P (list_kind htag)]; rfl
  · rw [← join_eq [' '] val]; exact intercalate_split [';', ' '] _ (by simp)

/-- The sponsors of a conference: each line holds some of them, separated by `', '`. -/
theorem C69_sponsors (P : Prims) (groups : List (List Str)) (hne : groups ≠ []) (hg : ∀ g ∈ groups, g ≠ [])
    (hsep : ∀ g ∈ groups, ∀ p ∈ g, ¬ ", ".toList <:+: p) :
    wosValue P "SP".toList (groups.map (", ".toList.intercalate ·)) = .ok (.texts groups.flatten) := by
  show Except.ok (FVal.texts (Str.split [',', ' '] (Str.join [',', ' '] (groups.map (", ".toList.intercalate ·))))) = _
  have key : ∀ gs : List (List Str), (∀ g ∈ gs, g ≠ []) → Str.join [',', ' '] (gs.map ([',', ' '].intercalate ·)) = Str.join [',', ' '] gs.flatten := by
    intro gs h
    induction gs with
    | nil => rfl
    | cons g gs ih =>
      have ih := ih fun g' h' => h g' (List.mem_cons_of_mem _ h')
      cases gs with
      | nil => simp [Str.join, join_eq]
      | cons g2 gs =>
        rw [List.map_cons, Str.join_cons _ _ _ (by simp), ih, List.flatten_cons (l := g), ← join_eq]
        have hne2 : (g2 :: gs).flatten ≠ [] := by
          have := h g2 (by simp)
          simp [this]
        have : ∀ (g : List Str), g ≠ [] → Str.join [',', ' '] (g ++ (g2 :: gs).flatten) = Str.join [',', ' '] g ++ [',', ' '] ++ Str.join [',', ' '] (g2 :: gs).flatten := by
          intro g hg
          induction g with
          | nil => exact absurd rfl hg
          | cons a g ihg =>
            cases g with
            | nil => rw [List.singleton_append, Str.join_cons _ _ _ hne2]; rfl
            | cons b g =>
              rw [List.cons_append, Str.join_cons _ _ _ (by simp), ihg (by simp), Str.join_cons _ _ (b :: g) (by simp)]
              simp
        rw [this g (h g (by simp))]
  have hk := key groups hg
  rw [show groups.map (", ".toList.intercalate ·) = groups.map ([',', ' '].intercalate ·) from rfl, hk, join_eq]
  refine congrArg _ (congrArg _ (split_intercalate ',' ' ' (by decide) _ ?_ ?_))
  · cases groups with
    | nil => exact absurd rfl hne
    | cons g gs => simp [hg g (by simp)]
  · intro p hp
    obtain ⟨g, hgm, hpg⟩ := List.mem_flatten.1 hp
    exact hsep g hgm p hpg

/-! ## One line only -/

/-- The tags whose value is the first line. -/
def firstTags : List Str :=
  ["PT", "GP", "CA", "DT", "CY", "RP", "SN", "EI", "J9", "IS", "PN", "SI", "MA", "AR", "DI", "D2", "GA", "UT", "PM"].map String.toList

/-- Identifiers, abbreviations and dates are the first line of the field; volume and pages are stripped. -/
theorem C69_first (P : Prims) (v : Str) (rest : List Str) :
    (∀ tag ∈ firstTags, wosValue P tag (v :: rest) = .ok (.text v)) ∧
    (∀ tag ∈ ["VL", "BP", "EP"].map String.toList, wosValue P tag (v :: rest) = .ok (.text (Str.strip P.ws v))) := by
  constructor
  · intro tag htag
    have h : wosKinds.get? tag = some .first := by revert tag; decide
    rw [kind_of P h]; rfl
  · intro tag htag
    have h : wosKinds.get? tag = some .firstStripped := by revert tag; decide
    rw [kind_of P h]; rfl

/-- So what a file writes on the following lines of such a field, for example the end of a long reprint address, is lost. -/
theorem C69_continuation_lost (P : Prims) : ∃ tag ∈ firstTags, ∃ val val' : List Str,
    [' '].intercalate val ≠ [' '].intercalate val' ∧ wosValue P tag val = wosValue P tag val' :=
  ⟨"RP".toList, by decide, ["Smith, J (reprint author), Univ Waterloo,".toList, "Waterloo, ON, Canada.".toList],
    ["Smith, J (reprint author), Univ Waterloo,".toList], by decide, rfl⟩

/-! ## Numbers -/

/-- The counts are the integers written in the field, and `ValueError` is raised exactly when the first line is not one. -/
theorem C69_counts (P : Prims) (tag : Str) (htag : tag ∈ ["NR", "TC", "Z9", "PG"].map String.toList) (v : Str) (rest : List Str) :
    (∀ n, P.int v = some n → wosValue P tag (v :: rest) = .ok (.num n)) ∧
    (P.int v = none → wosValue P tag (v :: rest) = .error .valueError) := by
  have h : wosKinds.get? tag = some .number := by revert tag; decide
  rw [kind_of P h]
  show (∀ n, _ → toInt P v = _) ∧ (_ → toInt P v = _)
  unfold toInt
  constructor
  · intro n hn; rw [hn]
  · intro hn; rw [hn]

/-- The year is the integer written in four characters; anything longer or shorter raises `ValueError`. -/
theorem C69_year (P : Prims) (v : Str) (rest : List Str) :
    (∀ n, v.length = 4 → P.int v = some n → wosValue P "PY".toList (v :: rest) = .ok (.num n)) ∧
    (v.length ≠ 4 ∨ P.int v = none → wosValue P "PY".toList (v :: rest) = .error .valueError) := by
  show (∀ n, _ → _ → year P v = _) ∧ (_ → year P v = _)
  unfold year toInt
  constructor
  · intro n hl hn; rw [if_pos hl, hn]
  · intro h
    by_cases hl : v.length = 4
    · rw [if_pos hl, h.resolve_left (fun h' => h' hl)]
    · rw [if_neg hl]

/-- Every year of four digits is read as written. -/
theorem C69_year_digits (P : Prims) (hint : ∀ n : Nat, P.int (showNat n) = some (n : Int)) (y : Nat) (hy : 1000 ≤ y ∧ y < 10000) (rest : List Str) :
    wosValue P "PY".toList (showNat y :: rest) = .ok (.num y) := by
  refine (C69_year P _ rest).1 y ?_ (hint y)
  have h1 : (showNat y).length ≤ 4 := showAux_length (y + 1) y 3 (by omega) (by omega)
  have hlow : ∀ f n k : Nat, n < f → 10 ^ k ≤ n → k + 1 ≤ (showAux f n).length := by
    intro f
    induction f with
    | zero => intro n k h; omega
    | succ f ih =>
      intro n k hf hk
      rw [showAux]
      split
      · cases k with
        | zero => simp
        | succ k => rw [Nat.pow_succ] at hk; have : 0 < 10 ^ k := Nat.pow_pos (by omega); omega
      · cases k with
        | zero => simp
        | succ k =>
          have := ih (n / 10) k (by omega) (by rw [Nat.pow_succ] at hk; omega)
          simp; omega
  have h2 := hlow (y + 1) y 3 (by omega) (by omega)
  unfold showNat at *
  omega

/-! ## Months -/

/-- Months and seasons and their numbers, as the documentation of the field has them. -/
def MonthNumber (name : Str) (n : Nat) : Prop :=
  (name, n) ∈ [("JAN".toList, 1), ("FEB".toList, 2), ("MAR".toList, 3), ("APR".toList, 4), ("MAY".toList, 5), ("JUN".toList, 6), ("JUL".toList, 7),
    ("AUG".toList, 8), ("SEP".toList, 9), ("OCT".toList, 10), ("NOV".toList, 11), ("DEC".toList, 12),
    ("SPR".toList, 3), ("SUM".toList, 6), ("FAL".toList, 9), ("WIN".toList, 12)]

instance (name : Str) (n : Nat) : Decidable (MonthNumber name n) := inferInstanceAs (Decidable (_ ∈ _))

theorem month_get? {name : Str} {n : Nat} (h : MonthNumber name n) : monthDict.get? name = some n := by
  have : ∀ p ∈ [("JAN".toList, 1), ("FEB".toList, 2), ("MAR".toList, 3), ("APR".toList, 4), ("MAY".toList, 5), ("JUN".toList, 6), ("JUL".toList, 7),
    ("AUG".toList, 8), ("SEP".toList, 9), ("OCT".toList, 10), ("NOV".toList, 11), ("DEC".toList, 12),
    ("SPR".toList, 3), ("SUM".toList, 6), ("FAL".toList, 9), ("WIN".toList, 12)], monthDict.get? p.1 = some p.2 := by decide
  exact this _ h

theorem get?_month {name : Str} {n : Nat} (h : monthDict.get? name = some n) : MonthNumber name n := by
  have hm := Dict.mem_of_get? h
  have : ∀ p ∈ monthDict, MonthNumber p.1 p.2 := by decide
  exact this _ hm

theorem split_head_none (c : Char) (m tail : Str) (hm : c ∉ m) (ht : tail = [] ∨ ∃ t, tail = c :: t) : (Str.split [c] (m ++ tail)).headD [] = m := by
  have hp : ¬ [c] <:+: m ++ [c].dropLast := by
    rintro ⟨a, b, h⟩
    refine hm ?_
    have : c ∈ a ++ [c] ++ b := by simp
    rw [h] at this; simpa using this
  rcases ht with rfl | ⟨t, rfl⟩
  · rw [List.append_nil, Str.split_none]
    · rfl
    · simpa using hp
  · have := Str.splitGo_append [c] (by simp) [] m t hp
    unfold Str.split
    rw [show m ++ c :: t = m ++ [c] ++ t by simp, this]; rfl

/-- The documented forms `Month`, `Month Day`, `Month Year`, `Month-Month` and `Season`, in any case: the number of the first month. -/
theorem C69_month (P : Prims) (m tail : Str) (rest : List Str) (n : Nat) (hn : MonthNumber (P.upper m) n) (hb : ' ' ∉ m) (hd : '-' ∉ m)
    (ht : tail = [] ∨ (∃ t, tail = ' ' :: t) ∨ ∃ t, tail = '-' :: t) : wosValue P "PD".toList ((m ++ tail) :: rest) = .ok (.num n) := by
  show getMonth P ((Str.split [' '] (m ++ tail)).headD []) = _
  have hfin : ∀ t', (t' = [] ∨ ∃ t, t' = '-' :: t) → getMonth P (m ++ t') = .ok (.num n) := by
    intro t' h'
    unfold getMonth
    dsimp only
    rw [split_head_none '-' m t' hd h', month_get? hn]
  rcases ht with rfl | ⟨t, rfl⟩ | ⟨t, rfl⟩
  · rw [split_head_none ' ' m [] hb (.inl rfl)]
    simpa using hfin [] (.inl rfl)
  · rw [split_head_none ' ' m _ hb (.inr ⟨t, rfl⟩)]
    simpa using hfin [] (.inl rfl)
  · -- the first word is `m-` and what follows up to a blank
    have hex : ∃ t', (Str.split [' '] (m ++ '-' :: t)).headD [] = m ++ '-' :: t' := by
      by_cases hbt : ' ' ∈ t
      · obtain ⟨a, b, hab, hna⟩ := List.eq_append_cons_of_mem hbt
        refine ⟨a, ?_⟩
        have := split_head_none ' ' (m ++ '-' :: a) (' ' :: b) (by simp [hb, hna]) (.inr ⟨b, rfl⟩)
        rw [← this, hab]; simp
      · refine ⟨t, ?_⟩
        have := split_head_none ' ' (m ++ '-' :: t) [] (by simp [hb, hbt]) (.inl rfl)
        rwa [List.append_nil] at this
    obtain ⟨t', ht'⟩ := hex
    rw [ht']
    exact hfin _ (.inr ⟨t', rfl⟩)

/-- A month that is a number lies between 1 and 12. The other results are a text of digits and `KeyError`. -/
theorem C69_month_range (P : Prims) (v : Str) (rest : List Str) :
    (∃ n : Nat, 1 ≤ n ∧ n ≤ 12 ∧ wosValue P "PD".toList (v :: rest) = .ok (.num n)) ∨
    (∃ s, P.isdigit s = true ∧ wosValue P "PD".toList (v :: rest) = .ok (.text s)) ∨
    wosValue P "PD".toList (v :: rest) = .error .keyError := by
  show (∃ n : Nat, 1 ≤ n ∧ n ≤ 12 ∧ getMonth P _ = _) ∨ (∃ s, P.isdigit s = true ∧ getMonth P _ = _) ∨ getMonth P _ = _
  have hr : ∀ name n, monthDict.get? name = some n → 1 ≤ n ∧ n ≤ 12 := by
    intro name n h
    have hm := Dict.mem_of_get? h
    have : ∀ p ∈ monthDict, 1 ≤ p.2 ∧ p.2 ≤ 12 := by decide
    exact this _ hm
  unfold getMonth
  dsimp only
  cases h : monthDict.get? (P.upper ((Str.split ['-'] ((Str.split [' '] v).headD [])).headD [])) with
  | some n => exact .inl ⟨n, (hr _ n h).1, (hr _ n h).2, rfl⟩
  | none =>
    dsimp only
    split
    · rename_i hd
      exact .inr (.inl ⟨_, hd, rfl⟩)
    · cases h2 : monthDict.get? (P.upper ((Str.split ['-'] ((Str.split [' '] v).headD [])).getLastD [])) with
      | some n => exact .inl ⟨n, (hr _ n h2).1, (hr _ n h2).2, rfl⟩
      | none => exact .inr (.inr rfl)

/-- The documentation promises an integer. A date such as `2010-05` gives the text `'05'`, and the documented form `Year Month Day` gives the year. -/
theorem C69_month_not_a_number :
    wosValue ascii "PD".toList ["2010-05".toList] = .ok (.text "05".toList) ∧
    wosValue ascii "PD".toList ["2010 05 21".toList] = .ok (.text "2010".toList) := ⟨rfl, rfl⟩

/-! ## Addresses -/

/-- An address is what follows the bracketed names of its authors, or the whole line when there are none; the addresses keep their order. -/
theorem C69_addresses (P : Prims) (lines : List (Option Str × Str))
    (hn : ∀ p ∈ lines, ∀ names, p.1 = some names → ¬ "] ".toList <:+: names)
    (ha : ∀ p ∈ lines, p.1 = none → ∃ c cs, p.2 = c :: cs ∧ c ≠ '[') :
    wosValue P "C1".toList (lines.map fun p => match p.1 with | some names => '[' :: names ++ "] ".toList ++ p.2 | none => p.2) =
      .ok (.texts (lines.map Prod.snd)) := by
  show (do .ok (FVal.texts (← (lines.map _).mapM address1)) : Except VErr FVal) = _
  have key : (lines.map fun p => match p.1 with | some names => '[' :: names ++ "] ".toList ++ p.2 | none => p.2).mapM address1 =
      .ok (lines.map Prod.snd) := by
    induction lines with
    | nil => rfl
    | cons p lines ih =>
      have ih := ih (fun q hq => hn q (List.mem_cons_of_mem _ hq)) (fun q hq => ha q (List.mem_cons_of_mem _ hq))
      rw [List.map_cons, List.mapM_cons, ih, List.map_cons]
      have h1 : address1 (match p.1 with | some names => '[' :: names ++ "] ".toList ++ p.2 | none => p.2) = .ok p.2 := by
        obtain ⟨o, a⟩ := p
        cases o with
        | none =>
          obtain ⟨c, cs, hc, hb⟩ := ha _ (List.mem_cons_self ..) rfl
          dsimp only at hc ⊢
          subst hc
          show (if c = '[' then _ else Except.ok (c :: cs)) = _
          rw [if_neg hb]
        | some names =>
          have hnn := hn _ (List.mem_cons_self ..) names rfl
          have hp : ¬ [']', ' '] <:+: ('[' :: names) ++ [']', ' '].dropLast := by
            refine no_sep_append ']' ' ' (by decide) _ ?_
            rintro ⟨x, y, hxy⟩
            cases x with
            | nil => simp at hxy
            | cons x0 x =>
              simp at hxy
              exact hnn ⟨x, y, by simpa using hxy.2⟩
          show (if '[' = '[' then Except.ok (Str.join [']', ' '] ((Str.split [']', ' '] ('[' :: names ++ "] ".toList ++ a)).tail)) else Except.ok ('[' :: names ++ "] ".toList ++ a)) = _
          rw [if_pos rfl]
          have hs : Str.split [']', ' '] ('[' :: names ++ "] ".toList ++ a) = ([] ++ ('[' :: names)) :: Str.splitGo [']', ' '] 0 [] a :=
            Str.splitGo_append [']', ' '] (by simp) [] ('[' :: names) a hp
          rw [hs, List.tail_cons, show Str.splitGo [']', ' '] 0 [] a = Str.split [']', ' '] a from rfl, Str.join_split _ _ (by simp)]
      rw [h1]; rfl
  rw [key]; rfl

/-- A bracket that is never closed swallows the address; an empty line raises `IndexError`. -/
theorem C69_address_swallowed (P : Prims) (names : Str) (h : ¬ "] ".toList <:+: names) :
    wosValue P "C1".toList ['[' :: names] = .ok (.texts [[]]) ∧ wosValue P "C1".toList [[]] = .error .indexError := by
  refine ⟨?_, rfl⟩
  show (do .ok (FVal.texts (← ['[' :: names].mapM address1)) : Except VErr FVal) = _
  have hh : ¬ [']', ' '] <:+: '[' :: names := by
    rintro ⟨x, y, hxy⟩
    cases x with
    | nil => simp at hxy
    | cons x0 x => simp at hxy; exact h ⟨x, y, by simpa using hxy.2⟩
  have : address1 ('[' :: names) = .ok [] := by
    show (if '[' = '[' then Except.ok (Str.join [']', ' '] ((Str.split [']', ' '] ('[' :: names)).tail)) else Except.ok ('[' :: names)) = _
    rw [if_pos rfl, Str.split_none _ _ hh]; rfl
  rw [List.mapM_cons, this]; rfl

/-! ## Errors and unknown tags -/

theorem address_ok (val : List Str) (h : ∀ v ∈ val, v ≠ []) : ∃ l, val.mapM address1 = .ok l := by
  induction val with
  | nil => exact ⟨[], rfl⟩
  | cons v val ih =>
    obtain ⟨l, hl⟩ := ih fun w hw => h w (List.mem_cons_of_mem _ hw)
    cases v with
    | nil => exact absurd rfl (h [] (by simp))
    | cons c cs =>
      have : ∃ a, address1 (c :: cs) = .ok a := by
        unfold address1
        dsimp only
        split
        · exact ⟨_, rfl⟩
        · exact ⟨_, rfl⟩
      obtain ⟨a, ha⟩ := this
      exact ⟨a :: l, by rw [List.mapM_cons, ha, hl]; rfl⟩

/-- For a field with at least one line and no empty line, only the counts, the month and the year can raise. -/
theorem C69_raises (P : Prims) (tag : Str) (val : List Str) (hne : val ≠ []) (hv : ∀ v ∈ val, v ≠ []) (e : VErr)
    (he : wosValue P tag val = .error e) : tag ∈ ["NR", "TC", "Z9", "PG", "PD", "PY"].map String.toList := by
  obtain ⟨v, rest, rfl⟩ := List.exists_cons_of_ne_nil hne
  cases hk : wosKinds.get? tag with
  | none => unfold wosValue at he; rw [hk] at he; cases he
  | some k =>
    have hm : (tag, k) ∈ wosKinds := Dict.mem_of_get? hk
    have htab : ∀ p ∈ wosKinds, (p.2 = .number ∨ p.2 = .month ∨ p.2 = .year) → p.1 ∈ ["NR", "TC", "Z9", "PG", "PD", "PY"].map String.toList := by decide
    refine htab _ hm ?_
    rw [kind_of P hk] at he
    cases k <;> first | (exact .inl rfl) | (exact .inr (.inl rfl)) | (exact .inr (.inr rfl)) | (exfalso; cases he) | skip
    exfalso
    obtain ⟨l, hl⟩ := address_ok (v :: rest) hv
    have : process P .authAddress (v :: rest) = .ok (.texts l) := by
      show (do .ok (FVal.texts (← (v :: rest).mapM address1)) : Except VErr FVal) = _
      rw [hl]; rfl
    rw [this] at he; cases he

/-- The tags that are processed are exactly those that have a long name; under any other tag the lines are given as they are. -/
theorem C69_known (P : Prims) (tag : Str) : (wosKinds.get? tag ≠ none ↔ ∃ name, Wos tag name) ∧
    ((∀ name, ¬ Wos tag name) → ∀ val, wosValue P tag val = .ok (.texts val)) := by
  have hm : (∃ name, Wos tag name) ↔ tag ∈ Verif.Model.TagNames.wosTags.keys := by
    simp only [← Verif.Props.mem_wos, Dict.keys, List.mem_map]
    exact ⟨fun ⟨n, h⟩ => ⟨_, h, rfl⟩, fun ⟨p, h, e⟩ => ⟨p.2, e ▸ h⟩⟩
  rw [← not_exists, hm]
  have hk : wosKinds.keys = Verif.Model.TagNames.wosTags.keys := by decide
  have h1 : wosKinds.get? tag ≠ none ↔ tag ∈ Verif.Model.TagNames.wosTags.keys := by
    rw [← hk, ne_eq, Dict.get?_eq_none_iff, not_not]
  refine ⟨h1, fun h val => ?_⟩
  have : wosKinds.get? tag = none := by
    by_contra h'; exact h (h1.1 h')
  unfold wosValue; rw [this]

/-- Every tag that has a long name is in one of the lists of the theorems above, so there is no tag whose value is not known, and in one
of them only, so no two disagree. -/
theorem C69_every_tag (tag : Str) : (∃ name, Wos tag name) ↔
    tag ∈ (["TI", "SE", "BS", "CT", "HO", "CL", "FX", "PA", "SU"] ++ ["SO", "PU", "PI", "JI"] ++ ["AB", "LA"] ++
      ["AF", "BE", "AU", "BA", "BF", "ED", "CR"] ++ ["EM", "RI", "OI", "FU", "SC", "BN", "WC"] ++ ["DE", "ID"] ++ ["SP"] ++
      ["PT", "GP", "CA", "DT", "CY", "RP", "SN", "EI", "J9", "IS", "PN", "SI", "MA", "AR", "DI", "D2", "GA", "UT", "PM"] ++
      ["VL", "BP", "EP"] ++ ["NR", "TC", "Z9", "PG"] ++ ["PY"] ++ ["PD"] ++ ["C1"]).map String.toList := by
  have hm : (∃ name, Wos tag name) ↔ tag ∈ Verif.Model.TagNames.wosTags.keys := by
    simp only [← Verif.Props.mem_wos, Dict.keys, List.mem_map]
    exact ⟨fun ⟨n, h⟩ => ⟨_, h, rfl⟩, fun ⟨p, h, e⟩ => ⟨p.2, e ▸ h⟩⟩
  rw [hm]
  clear hm
  constructor
  · revert tag; decide +kernel
  · revert tag; decide +kernel

/-! ## The hypotheses can be met -/

example : wosValue ascii "FU".toList ["NSF [1]; SSHRC".toList, "Canada [2]".toList] = .ok (.texts ["NSF [1]".toList, "SSHRC Canada [2]".toList]) :=
  C69_lists ascii _ (by decide) ["NSF [1]".toList, "SSHRC Canada [2]".toList] _ (by decide)
    (by intro p hp; simp at hp; rcases hp with rfl | rfl <;> decide) (by decide)

example : wosValue ascii "PD".toList ["Sum-Fal 2010".toList] = .ok (.num 6) :=
  C69_month ascii "Sum".toList "-Fal 2010".toList [] 6 (by decide) (by decide) (by decide) (.inr (.inr ⟨_, rfl⟩))

example : wosValue ascii "SP".toList ["IEEE, ACM".toList, "NSF".toList] = .ok (.texts ["IEEE".toList, "ACM".toList, "NSF".toList]) :=
  C69_sponsors ascii [["IEEE".toList, "ACM".toList], ["NSF".toList]] (by decide) (by decide) (by decide)

example : wosValue ascii "C1".toList ["[Smith, J.; Doe, A.] Univ X, Y] Z".toList, "Univ W".toList] = .ok (.texts ["Univ X, Y] Z".toList, "Univ W".toList]) := by
  exact C69_addresses ascii [(some "Smith, J.; Doe, A.".toList, "Univ X, Y] Z".toList), (none, "Univ W".toList)]
    (by intro p hp names h; simp at hp; rcases hp with rfl | rfl <;> simp at h; subst h; decide)
    (by intro p hp h; simp at hp; rcases hp with rfl | rfl <;> simp at h; exact ⟨'U', _, rfl, by decide⟩)

end Verif.Props.WosFields
