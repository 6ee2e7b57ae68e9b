import Verif.Model.MedlineFields
import Verif.Model.TagNames
import Verif.Props.WosFields

/-! # C70: the values of the fields of a Medline record -/
set_option autoImplicit false
set_option linter.unusedSimpArgs false
namespace Verif.Props.MedlineFields
open Verif.Py Verif.Model.Medline Verif.Model.MedlineFields
open Verif.Model.WosFields hiding process year
open Verif.Props.WosFields (ascii split_head_none)
open Verif.Spec.TagTable (Medline)

/-! ## Single fields -/

/-- Fields of one line: titles, abstracts, dates, volumes and pages are the first line. -/
theorem C70_first (R : Fields) (tag : Str) (htag : tag ∈ ["PG", "VI", "DP", "TI", "OTO", "AB", "TA", "JT"].map String.toList) (v : Str) (rest : List Str)
    (h : R.get? tag = some (v :: rest)) : item R tag = .ok (.text v) := by
  have hk : medlineKinds.get? tag = some .first := by clear h; revert tag; decide
  unfold item; rw [h, hk]; rfl

/-- Authors, identifiers, keywords, terms and every other tag that has a long name, but for those of one line, the affiliations and identifiers
of authors, the grants and the identifier of the record: one entry per line. -/
theorem C70_lines (R : Fields) (val : List Str) :
    (∀ tag name, Medline tag name →
      tag ∉ ["PG", "VI", "DP", "TI", "OTO", "AB", "TA", "JT", "PMID", "AD", "AUID", "GR"].map String.toList →
      R.get? tag = some val → item R tag = .ok (.texts val)) ∧
    (∀ v rest, R.get? "PMID".toList = some (v :: rest) → item R "PMID".toList = .ok (.text ("PMID:".toList ++ v))) ∧
    (R.get? "GR".toList = some val → item R "GR".toList = .ok (.grants val)) := by
  refine ⟨?_, ?_, ?_⟩
  · intro tag name hm htag h
    have hall : ∀ t ∈ Verif.Model.TagNames.medlineTags.map Prod.snd,
        t ∉ ["PG", "VI", "DP", "TI", "OTO", "AB", "TA", "JT", "PMID", "AD", "AUID", "GR"].map String.toList →
        medlineKinds.get? t = some .whole := by decide +kernel
    have hk := hall tag (List.mem_map.2 ⟨_, (Verif.Props.mem_medline _ _).2 hm, rfl⟩) htag
    unfold item; rw [h, hk]; rfl
  · intro v rest h; unfold item; rw [h]; rfl
  · intro h; unfold item; rw [h]; rfl

/-- The tags that can be read are those that have a long name. A field of the file with any other tag, such as the editors `ED`, is in the record but
raises `KeyError` when it is read. -/
theorem C70_unreadable (R : Fields) :
    (∀ tag, medlineKinds.get? tag ≠ none ↔ ∃ name, Medline tag name) ∧
    (∀ tag, (∀ name, ¬ Medline tag name) → item R tag = .error .keyError) ∧ ∀ name, ¬ Medline "ED".toList name := by
  have hm : ∀ tag, (∃ name, Medline tag name) ↔ tag ∈ Verif.Model.TagNames.medlineTags.map Prod.snd := by
    intro tag
    simp only [← Verif.Props.mem_medline, List.mem_map]
    exact ⟨fun ⟨n, h⟩ => ⟨_, h, rfl⟩, fun ⟨p, h, e⟩ => ⟨p.1, e ▸ h⟩⟩
  simp only [← not_exists, hm]
  have h1 : ∀ tag ∈ medlineKinds.keys, tag ∈ Verif.Model.TagNames.medlineTags.map Prod.snd := by decide +kernel
  have h2 : ∀ tag ∈ Verif.Model.TagNames.medlineTags.map Prod.snd, tag ∈ medlineKinds.keys := by decide +kernel
  have h3 : ∀ tag, medlineKinds.get? tag ≠ none ↔ tag ∈ Verif.Model.TagNames.medlineTags.map Prod.snd := by
    intro tag
    rw [ne_eq, Dict.get?_eq_none_iff, not_not]
    exact ⟨h1 tag, h2 tag⟩
  refine ⟨h3, ?_, by decide +kernel⟩
  intro tag h
  have : medlineKinds.get? tag = none := by by_contra h'; exact h ((h3 tag).1 h')
  unfold item
  rw [this]
  cases R.get? tag <;> rfl

/-! ## Affiliations and identifiers of authors -/

theorem split_colon (a t : Str) (h : ¬ " : ".toList <:+: a ++ " :".toList) : Str.split colon (a ++ " : ".toList ++ t) = a :: Str.split colon t := by
  exact Str.splitGo_append colon (by decide) [] a t h

theorem foldl_last {α β : Type} (key : α → Str) (g : α → β) (l : List α) (d : Dict Str β) (a : Str) :
    (l.foldl (fun d v => d.set (key v) (g v)) d).get? a = ((l.reverse.find? (fun v => key v = a)).map g).or (d.get? a) := by
  induction l generalizing d with
  | nil => simp
  | cons v l ih =>
    rw [List.foldl_cons, ih, List.reverse_cons, List.find?_append]
    cases h : l.reverse.find? (fun v => key v = a) with
    | some w => simp
    | none =>
      by_cases hv : key v = a
      · simp [hv, Dict.get?_set]
      · simp [hv, Dict.get?_set]

/-- The text of a line that gives an affiliation or an identifier of an author. -/
def lineOf (p : Str × Str) : Str := p.1 ++ " : ".toList ++ p.2

theorem find_lineOf {β : Type} (key : Str → Str) (f : Str → β) (ps : List (Str × Str)) (a : Str) (hk : ∀ p ∈ ps, key (lineOf p) = p.1) :
    ((ps.map lineOf).reverse.find? (fun v => key v = a)).map f = (ps.reverse.find? (fun p => p.1 = a)).map (fun p => f (lineOf p)) := by
  rw [← List.map_reverse, List.find?_map, Option.map_map]
  congr 1
  have hk' : ∀ p ∈ ps.reverse, key (lineOf p) = p.1 := fun p hp => hk p (List.mem_reverse.1 hp)
  generalize ps.reverse = l at hk'
  induction l with
  | nil => rfl
  | cons p l ih =>
    rw [List.find?_cons, List.find?_cons]
    simp only [Function.comp, hk' p (by simp)]
    rw [← ih fun q hq => hk' q (List.mem_cons_of_mem _ hq)]

/-- The addresses of an affiliation: the pieces between semicolons that are not empty, without the line breaks. -/
def addressesOf (affiliation : Str) : List Str := (Str.split [';'] (Str.replace ['\n'] [] affiliation)).filter (· ≠ [])

/-- Reading the affiliations gives, for each author, the addresses of the **last** affiliation that the record has for them, and the identifier given
last. Nobody else is listed. -/
theorem C70_authors (R : Fields) (ps : List (Str × Str)) (hsep : ∀ p ∈ ps, ¬ " : ".toList <:+: p.1 ++ " :".toList) :
    (R.get? "AD".toList = some (ps.map lineOf) → ∃ d, item R "AD".toList = .ok (.addresses d) ∧
      ∀ a, d.get? a = (ps.reverse.find? (fun p => p.1 = a)).map (fun p => addressesOf p.2)) ∧
    (R.get? "AUID".toList = some (ps.map lineOf) → ∃ d, item R "AUID".toList = .ok (.ids d) ∧
      ∀ a, d.get? a = (ps.reverse.find? (fun p => p.1 = a)).map (fun p => p.2)) := by
  have hj : ∀ p ∈ ps, (Str.split colon (lineOf p)).headD [] = p.1 ∧ Str.join colon (Str.split colon (lineOf p)).tail = p.2 := by
    intro p hp
    unfold lineOf
    rw [split_colon _ _ (hsep p hp)]
    exact ⟨rfl, Str.join_split _ _ (by decide)⟩
  have hcong : ∀ {β : Type} (f g : Str × Str → β) (a : Str), (∀ p ∈ ps, f p = g p) →
      (ps.reverse.find? (fun p => p.1 = a)).map f = (ps.reverse.find? (fun p => p.1 = a)).map g := by
    intro β f g a hfg
    cases h : ps.reverse.find? (fun p => p.1 = a) with
    | none => rfl
    | some p => exact congrArg some (hfg p (List.mem_reverse.1 (List.mem_of_find?_eq_some h)))
  constructor
  · intro h
    refine ⟨ad (ps.map lineOf), by unfold item; rw [h]; rfl, fun a => ?_⟩
    unfold ad
    rw [foldl_last (fun v => (adLine v).1) (fun v => (adLine v).2), Dict.get?_nil, Option.or_none,
      find_lineOf (fun v => (adLine v).1) _ ps a (fun p hp => (hj p hp).1)]
    refine hcong _ _ a fun p hp => ?_
    unfold adLine addressesOf
    rw [(hj p hp).2]
  · intro h
    refine ⟨auid (ps.map lineOf), by unfold item; rw [h]; rfl, fun a => ?_⟩
    unfold auid
    rw [foldl_last (fun v => (auidLine v).1) (fun v => (auidLine v).2), Dict.get?_nil, Option.or_none,
      find_lineOf (fun v => (auidLine v).1) _ ps a (fun p hp => (hj p hp).1)]
    refine hcong _ _ a fun p hp => ?_
    unfold auidLine
    rw [(hj p hp).2]

/-- What an address keeps: the affiliation's text without line breaks and semicolons. -/
theorem C70_addresses_text (aff : Str) : (addressesOf aff).flatten = aff.filter (fun c => c ≠ '\n' ∧ c ≠ ';') ∧ ∀ a ∈ addressesOf aff, a ≠ [] ∧ ';' ∉ a := by
  have hflat : ∀ l : List Str, (l.filter (· ≠ [])).flatten = l.flatten := by
    intro l
    induction l with
    | nil => rfl
    | cons a l ih =>
      rw [List.filter_cons]
      split
      · rw [List.flatten_cons, List.flatten_cons, ih]
      · rename_i h
        have : a = [] := by simpa using h
        rw [ih, this]; rfl
  have hjoin : ∀ (l : List Str), Str.join [] l = l.flatten := by
    intro l
    induction l with
    | nil => rfl
    | cons a l ih => cases l with
      | nil => simp [Str.join]
      | cons b l => rw [Str.join, ih]; simp
  have hdrop : ∀ (c : Char) (l : List Str), (∀ p ∈ l, c ∉ p) → (Str.join [c] l).filter (· ≠ c) = l.flatten := by
    intro c l h
    induction l with
    | nil => rfl
    | cons a l ih =>
      have ha : a.filter (· ≠ c) = a := List.filter_eq_self.2 fun x hx => by
        have := h a (by simp)
        simp only [ne_eq, decide_not, Bool.not_eq_true', decide_eq_false_iff_not]
        rintro rfl; exact this hx
      cases l with
      | nil => simp only [Str.join, List.flatten_cons, List.flatten_nil, List.append_nil]; exact ha
      | cons b l =>
        have ih := ih fun p hp => h p (List.mem_cons_of_mem _ hp)
        rw [Str.join, List.filter_append, List.filter_append, ha, ih]
        simp
  have hsplit : ∀ (c : Char) (s : Str), (Str.split [c] s).flatten = s.filter (· ≠ c) := by
    intro c s
    rw [← hdrop c _ (Str.split_char_pieces c s), Str.join_split _ _ (by simp)]
  constructor
  · unfold addressesOf Str.replace
    rw [hflat, hsplit, hjoin, hsplit, List.filter_filter]
    congr 1
    funext c
    by_cases h1 : c = '\n' <;> by_cases h2 : c = ';' <;> simp [h1, h2]
  · intro a ha
    unfold addressesOf at ha
    obtain ⟨h1, h2⟩ := List.mem_filter.1 ha
    exact ⟨by simpa using h2, Str.split_char_pieces ';' _ a h1⟩

/-- An author with two affiliations, each on a line of its own, is left with the second one only. -/
theorem C70_affiliation_lost (a x y : Str) (ha : ¬ " : ".toList <:+: a ++ " :".toList) (R : Fields)
    (h : R.get? "AD".toList = some [lineOf (a, x), lineOf (a, y)]) :
    ∃ d, item R "AD".toList = .ok (.addresses d) ∧ d.get? a = some (addressesOf y) := by
  obtain ⟨d, h1, h2⟩ := (C70_authors R [(a, x), (a, y)] (by intro p hp; simp at hp; rcases hp with rfl | rfl <;> exact ha)).1 h
  exact ⟨d, h1, by rw [h2]; simp⟩

/-- The address of a record is the first address of its first author; it raises `KeyError` when there is none for them. -/
theorem C70_address (R : Fields) (ps : List (Str × Str)) (hsep : ∀ p ∈ ps, ¬ " : ".toList <:+: p.1 ++ " :".toList) (a : Str) (rest : List Str)
    (had : R.get? "AD".toList = some (ps.map lineOf)) (hau : R.get? "AU".toList = some (a :: rest)) :
    (∀ p x xs, ps.reverse.find? (fun p => p.1 = a) = some p → addressesOf p.2 = x :: xs → address R = .ok x) ∧
    ((∀ p ∈ ps, p.1 ≠ a) → address R = .error .keyError) := by
  obtain ⟨d, h1, h2⟩ := (C70_authors R ps hsep).1 had
  have hd : d = ad (ps.map lineOf) := by
    have h0 : item R "AD".toList = .ok (.addresses (ad (ps.map lineOf))) := by unfold item; rw [had]; rfl
    rw [h0] at h1
    exact (MVal.addresses.inj (Except.ok.inj h1)).symm
  have hadr : address R = (match d.get? a with | none => .error .keyError | some l => line0 l) := by
    unfold address lines
    rw [show (['A', 'D'] : Str) = "AD".toList from rfl, show (['A', 'U'] : Str) = "AU".toList from rfl, had, hau, hd]
    rfl
  constructor
  · intro p x xs hp hx
    rw [hadr, h2, hp]
    simp [hx, line0]
  · intro h
    have : ps.reverse.find? (fun p => p.1 = a) = none := by
      rw [List.find?_eq_none]
      intro p hp
      simpa using h p (List.mem_reverse.1 hp)
    rw [hadr, h2, this]; rfl

/-! ## The year -/

/-- `text` is what `R['DP']` and the other one line fields give. -/
theorem text_item (R : Fields) (tag : Str) (htag : tag ∈ ["PG", "VI", "DP"].map String.toList) (s : Str) :
    item R tag = .ok (.text s) ↔ text R tag = .ok s := by
  have hk : medlineKinds.get? tag = some .first := by revert tag; decide
  unfold item text
  cases h : R.get? tag with
  | none => simp
  | some val => cases val <;> simp [hk, process, line0, bind, Except.bind]

theorem yearAt_none (dig : Char → Bool) (hm : dig '-' = false) (c : Char) (cs : Str) (hc : dig c = false) (h2 : c = '-' → cs.takeWhile dig = []) :
    yearAt dig (c :: cs) = none := by
  unfold yearAt
  split
  · rename_i cs' heq
    obtain ⟨rfl, rfl⟩ := List.cons.inj heq
    simp [h2 rfl]
  · simp [List.takeWhile_cons, hc]

/-- The search skips everything up to the first digit. -/
theorem yearSearch_skip (dig : Char → Bool) (hm : dig '-' = false) (pre s : Str) (hpre : ∀ c ∈ pre, dig c = false)
    (hlast : pre.getLast? ≠ some '-') : yearSearch dig (pre ++ s) = yearSearch dig s := by
  induction pre with
  | nil => rfl
  | cons c cs ih =>
    have hc := hpre c (by simp)
    have hcs : ∀ x ∈ cs, dig x = false := fun x hx => hpre x (List.mem_cons_of_mem _ hx)
    have hnone : yearAt dig (c :: (cs ++ s)) = none := by
      refine yearAt_none dig hm c _ hc ?_
      rintro rfl
      cases cs with
      | nil => simp at hlast
      | cons d ds => simp [List.takeWhile_cons, hcs d (by simp)]
    rw [List.cons_append, yearSearch, hnone]
    dsimp only
    refine ih hcs ?_
    intro h
    cases cs with
    | nil => simp at h
    | cons d ds => exact hlast (by rw [List.getLast?_cons_cons]; exact h)

theorem takeWhile_run (dig : Char → Bool) (ds post : Str) (hds : ∀ c ∈ ds, dig c = true) (hpost : ∀ c, post.head? = some c → dig c = false) :
    (ds ++ post).takeWhile dig = ds := by
  induction ds with
  | nil =>
    cases post with
    | nil => rfl
    | cons c cs => simp [List.takeWhile_cons, hpost c rfl]
  | cons d ds ih => simp [List.takeWhile_cons, hds d (by simp), ih fun c hc => hds c (List.mem_cons_of_mem _ hc)]

/-- When the date begins with a word that is a number, the year is that number. -/
theorem C70_year (P : Prims) (dig : Char → Bool) (R : Fields) (w tail : Str) (n : Int) (hDP : item R "DP".toList = .ok (.text (w ++ tail)))
    (hw : ' ' ∉ w) (ht : tail = [] ∨ ∃ t, tail = ' ' :: t) (hn : P.int w = some n) : year P dig R = .ok n := by
  have h := (text_item R "DP".toList (by decide) _).1 hDP
  unfold year
  rw [show (['D', 'P'] : Str) = "DP".toList from rfl, h]
  show (match P.int (word0 (w ++ tail)) with | some n => Except.ok n | none => _) = _
  rw [show word0 (w ++ tail) = w from split_head_none ' ' w tail hw ht, hn]

/-- When it is not a number, as in `1998-1999`, the year is written by the first one to four digits in it; without any digit the year is 0. -/
theorem C70_year_in_word (P : Prims) (dig : Char → Bool) (hm : dig '-' = false) (R : Fields) (w tail : Str)
    (hDP : item R "DP".toList = .ok (.text (w ++ tail))) (hw : ' ' ∉ w) (ht : tail = [] ∨ ∃ t, tail = ' ' :: t) (hno : P.int w = none) :
    (∀ pre ds post n, w = pre ++ ds ++ post → (∀ c ∈ pre, dig c = false) → pre.getLast? ≠ some '-' → ds ≠ [] → ds.length ≤ 4 → (∀ c ∈ ds, dig c = true) →
      (∀ c, post.head? = some c → dig c = false) → P.int ds = some n → year P dig R = .ok n) ∧
    ((∀ c ∈ w, dig c = false) → year P dig R = .ok 0) := by
  have h := (text_item R "DP".toList (by decide) _).1 hDP
  have hyear : year P dig R = (match yearSearch dig w with
      | none => .ok 0
      | some y => match P.int y with | some n => .ok n | none => .error .valueError) := by
    unfold year
    rw [show (['D', 'P'] : Str) = "DP".toList from rfl, h]
    show (match P.int (word0 (w ++ tail)) with | some n => Except.ok n | none => _) = _
    rw [show word0 (w ++ tail) = w from split_head_none ' ' w tail hw ht, hno]
    rfl
  rw [hyear]
  constructor
  · intro pre ds post n hwd hpre hlast hds h4 hdig hpost hn
    have hs : yearSearch dig w = some ds := by
      rw [hwd, List.append_assoc, yearSearch_skip dig hm pre _ hpre hlast]
      have hrun := takeWhile_run dig ds post hdig hpost
      cases ds with
      | nil => exact absurd rfl hds
      | cons d ds =>
        have hd := hdig d (by simp)
        have hat : yearAt dig (d :: ds ++ post) = some (d :: ds) := by
          unfold yearAt
          split
          · rename_i cs' heq
            obtain ⟨rfl, _⟩ := List.cons.inj heq
            rw [hm] at hd; cases hd
          · rw [hrun]
            simp only [List.isEmpty_cons, Bool.false_eq_true, if_false]
            rw [List.take_of_length_le h4]
        rw [List.cons_append] at hat ⊢
        rw [yearSearch, hat]
    rw [hs]
    dsimp only
    rw [hn]
  · intro hall
    have : yearSearch dig w = none := by
      clear hDP hw ht hno h hyear
      induction w with
      | nil => rfl
      | cons c cs ih =>
        have hcs : ∀ x ∈ cs, dig x = false := fun x hx => hall x (List.mem_cons_of_mem _ hx)
        rw [yearSearch, yearAt_none dig hm c cs (hall c (by simp))]
        · exact ih hcs
        · intro _
          cases cs with
          | nil => rfl
          | cons d ds => simp [List.takeWhile_cons, hcs d (by simp)]
    rw [this]

/-- So the year of a record that has a date never raises, if `int` accepts up to four digits after an optional sign. -/
theorem C70_year_total (P : Prims) (dig : Char → Bool) (R : Fields) (s : Str) (hDP : item R "DP".toList = .ok (.text s))
    (hint : ∀ ds : Str, ds ≠ [] → (∀ c ∈ ds, dig c = true) → (∃ n, P.int ds = some n) ∧ ∃ n, P.int ('-' :: ds) = some n) :
    ∃ n, year P dig R = .ok n := by
  have h := (text_item R "DP".toList (by decide) _).1 hDP
  have hall : ∀ (l : Str), ∀ c ∈ (l.takeWhile dig).take 4, dig c = true := by
    intro l c hc
    have : ∀ (l : Str), ∀ c ∈ l.takeWhile dig, dig c = true := by
      intro l
      induction l with
      | nil => simp
      | cons a l ih =>
        intro c hc
        rw [List.takeWhile_cons] at hc
        split at hc
        · rename_i ha
          rcases List.mem_cons.1 hc with rfl | hc
          · exact ha
          · exact ih c hc
        · simp at hc
    exact this l c (List.mem_of_mem_take hc)
  have hne : ∀ (l : Str), (l.takeWhile dig).isEmpty = false → (l.takeWhile dig).take 4 ≠ [] := by
    intro l hl
    cases hx : l.takeWhile dig with
    | nil => rw [hx] at hl; simp at hl
    | cons a b => simp
  have hat : ∀ l y, yearAt dig l = some y → ∃ n, P.int y = some n := by
    intro l y hy
    unfold yearAt at hy
    split at hy
    · rename_i cs
      split at hy
      · cases hy
      · rename_i hx
        cases hy
        exact (hint _ (hne cs (by simpa using hx)) (hall cs)).2
    · split at hy
      · cases hy
      · rename_i hx
        cases hy
        exact (hint _ (hne l (by simpa using hx)) (hall l)).1
  have hsearch : ∀ l y, yearSearch dig l = some y → ∃ n, P.int y = some n := by
    intro l
    induction l with
    | nil => intro y hy; cases hy
    | cons c cs ih =>
      intro y hy
      rw [yearSearch] at hy
      cases hx : yearAt dig (c :: cs) with
      | some w => rw [hx] at hy; cases hy; exact hat _ _ hx
      | none => rw [hx] at hy; exact ih y hy
  unfold year
  rw [show (['D', 'P'] : Str) = "DP".toList from rfl, h]
  show ∃ n, (match P.int (word0 s) with
    | some n => Except.ok n
    | none => match yearSearch dig (word0 s) with
      | none => Except.ok 0
      | some y => match P.int y with | some n => Except.ok n | none => Except.error VErr.valueError) = .ok n
  cases h1 : P.int (word0 s) with
  | some n => exact ⟨n, rfl⟩
  | none =>
    dsimp only
    cases h2 : yearSearch dig (word0 s) with
    | none => exact ⟨0, rfl⟩
    | some y =>
      obtain ⟨n, hn⟩ := hsearch _ _ h2
      exact ⟨n, by dsimp only; rw [hn]⟩

/-- `int` with a sign, for examples. -/
def asciiSigned : Prims := { ascii with int := fun s => match s with
  | '-' :: cs => if !cs.isEmpty && cs.all isDig then some (-(readNat cs : Int)) else none
  | s => if !s.isEmpty && s.all isDig then some (readNat s : Int) else none }

/-- A hyphen in front of the digits is taken for a sign, so a date such as `Winter-1998` has a negative year. -/
theorem C70_year_negative : year asciiSigned isDig [("DP".toList, ["Winter-1998".toList])] = .ok (-1998) := rfl

/-! ## Volume, page, DOI, month -/

/-- The month is read from the second word of the date, as in a WOS record, and raises `KeyError` when there is only one word. -/
theorem C70_month (P : Prims) (R : Fields) (y m tail : Str) (hy : ' ' ∉ y) (hm : ' ' ∉ m) (ht : tail = [] ∨ ∃ t, tail = ' ' :: t) :
    (item R "DP".toList = .ok (.text (y ++ ' ' :: m ++ tail)) → month P R = wosValue P "PD".toList [m]) ∧
    (item R "DP".toList = .ok (.text y) → month P R = .error .keyError) := by
  have hw : wosValue P "PD".toList [m] = getMonth P m := by
    show getMonth P ((Str.split [' '] m).headD []) = _
    have := split_head_none ' ' m [] hm (.inl rfl)
    rw [List.append_nil] at this
    rw [this]
  have hno : ∀ x : Str, ' ' ∉ x → ¬ [' '] <:+: x ++ [' '].dropLast := by
    rintro x hx ⟨a, b, h⟩
    refine hx ?_
    have : ' ' ∈ a ++ [' '] ++ b := by simp
    rw [h] at this; simpa using this
  constructor
  · intro h
    have h := (text_item R "DP".toList (by decide) _).1 h
    unfold month
    rw [show (['D', 'P'] : Str) = "DP".toList from rfl, h, hw]
    show (match (Str.split [' '] (y ++ ' ' :: m ++ tail))[1]? with | none => _ | some m => getMonth P m) = _
    have h1 : Str.split [' '] (y ++ ' ' :: m ++ tail) = y :: Str.split [' '] (m ++ tail) := by
      have := Str.splitGo_append [' '] (by simp) [] y (m ++ tail) (hno y hy)
      unfold Str.split
      rw [show y ++ ' ' :: m ++ tail = y ++ [' '] ++ (m ++ tail) by simp, this]; simp
    rw [h1, List.getElem?_cons_succ]
    have h2 := split_head_none ' ' m tail hm ht
    cases h3 : Str.split [' '] (m ++ tail) with
    | nil => exact absurd h3 (Str.split_ne_nil _ _)
    | cons a l => rw [h3] at h2; simp at h2; subst h2; rfl
  · intro h
    have h := (text_item R "DP".toList (by decide) _).1 h
    unfold month
    rw [show (['D', 'P'] : Str) = "DP".toList from rfl, h]
    show (match (Str.split [' '] y)[1]? with | none => _ | some m => getMonth P m) = _
    rw [Str.split_none _ _ (by simpa using hno y hy)]
    rfl

/-- The volume is the first word of the field, so `49 Suppl 20` gives `49`. -/
theorem C70_volume (R : Fields) (w tail : Str) (hV : item R "VI".toList = .ok (.text (w ++ tail))) (hw : ' ' ∉ w)
    (ht : tail = [] ∨ ∃ t, tail = ' ' :: t) : volume R = .ok w := by
  have h := (text_item R "VI".toList (by decide) _).1 hV
  unfold volume
  rw [show (['V', 'I'] : Str) = "VI".toList from rfl, h]
  show Except.ok (word0 (w ++ tail)) = _
  rw [show word0 (w ++ tail) = w from split_head_none ' ' w tail hw ht]

/-- The first page of `p-q`, of `p q` and of `p`, with or without `suppl ` in front. -/
theorem C70_page (R : Fields) (p tail sup : Str) (hsup : sup = [] ∨ sup = "suppl ".toList)
    (hP : item R "PG".toList = .ok (.text (sup ++ p ++ tail)))
    (hns : sup = [] → ¬ "suppl ".toList <+: p ++ tail) (hb : ' ' ∉ p) (hd : '-' ∉ p) (hs : ';' ∉ p)
    (ht : tail = [] ∨ (∃ t, tail = ' ' :: t) ∨ ∃ t, tail = '-' :: t) : beginningPage R = .ok p := by
  have h := (text_item R "PG".toList (by decide) _).1 hP
  unfold beginningPage
  rw [show (['P', 'G'] : Str) = "PG".toList from rfl, h]
  show Except.ok (firstPage (sup ++ p ++ tail)) = _
  refine congrArg _ ?_
  unfold firstPage
  dsimp only
  have hcut : (if suppl.isPrefixOf (sup ++ p ++ tail) then (sup ++ p ++ tail).drop 6 else sup ++ p ++ tail) = p ++ tail := by
    rcases hsup with rfl | rfl
    · rw [if_neg]
      · rfl
      · rw [List.isPrefixOf_iff_prefix]; exact hns rfl
    · rw [if_pos]
      · rfl
      · rw [List.isPrefixOf_iff_prefix, List.append_assoc]; exact List.prefix_append _ _
  rw [hcut]
  have hfin : ∀ t', (t' = [] ∨ ∃ t, t' = '-' :: t) → Str.replace [';'] [] ((Str.split ['-'] (p ++ t')).headD []) = p := by
    intro t' h'
    rw [split_head_none '-' p t' hd h']
    unfold Str.replace
    rw [Str.split_none]
    · rfl
    · rintro ⟨a, b, hab⟩; exact hs (by rw [← hab]; simp)
  unfold word0
  rcases ht with rfl | ⟨t, rfl⟩ | ⟨t, rfl⟩
  · rw [split_head_none ' ' p [] hb (.inl rfl)]
    simpa using hfin [] (.inl rfl)
  · rw [split_head_none ' ' p _ hb (.inr ⟨t, rfl⟩)]
    simpa using hfin [] (.inl rfl)
  · have hex : ∃ t', (Str.split [' '] (p ++ '-' :: t)).headD [] = p ++ '-' :: t' := by
      by_cases hbt : ' ' ∈ t
      · obtain ⟨a, b, hab, hna⟩ := List.eq_append_cons_of_mem hbt
        refine ⟨a, ?_⟩
        have := split_head_none ' ' (p ++ '-' :: a) (' ' :: b) (by simp [hb, hna]) (.inr ⟨b, rfl⟩)
        rw [← this, hab]; simp
      · refine ⟨t, ?_⟩
        have := split_head_none ' ' (p ++ '-' :: t) [] (by simp [hb, hbt]) (.inl rfl)
        rwa [List.append_nil] at this
    obtain ⟨t', ht'⟩ := hex
    rw [ht']
    exact hfin _ (.inr ⟨t', rfl⟩)

/-- The DOI is the first identifier marked `[doi]`, without the mark; `KeyError` is raised exactly when no identifier is marked so. -/
theorem C70_doi (R : Fields) (ids : List Str) (h : R.get? "AID".toList = some ids) :
    (∀ pre d post, ids = pre ++ (d ++ " [doi]".toList) :: post → (∀ a ∈ pre, ¬ " [doi]".toList <:+ a) → DOI R = .ok d) ∧
    (DOI R = .error .keyError ↔ ∀ a ∈ ids, ¬ " [doi]".toList <:+ a) := by
  have hD : DOI R = (match ids.find? (fun a => doiMark.isSuffixOf a) with | some a => .ok (a.take (a.length - 6)) | none => .error .keyError) := by
    unfold DOI lines
    rw [show (['A', 'I', 'D'] : Str) = "AID".toList from rfl, h]; rfl
  have hsuf : ∀ a : Str, doiMark.isSuffixOf a = true ↔ " [doi]".toList <:+ a := fun a => List.isSuffixOf_iff_suffix
  constructor
  · intro pre d post hids hpre
    have hf : ids.find? (fun a => doiMark.isSuffixOf a) = some (d ++ " [doi]".toList) := by
      rw [hids, List.find?_append, List.find?_eq_none.2, Option.none_or, List.find?_cons_of_pos]
      · exact (hsuf _).2 (List.suffix_append _ _)
      · intro a ha hx; exact hpre a ha ((hsuf a).1 hx)
    rw [hD, hf]
    dsimp only
    refine congrArg _ ?_
    rw [show (d ++ " [doi]".toList).length - 6 = d.length by simp]
    simp
  · rw [hD]
    cases hf : ids.find? (fun a => doiMark.isSuffixOf a) with
    | none =>
      simp only [true_iff]
      intro a ha hx
      exact List.find?_eq_none.1 hf a ha ((hsuf a).2 hx)
    | some a =>
      constructor
      · intro hx; cases hx
      · intro hx
        have := List.find?_some hf
        exact absurd ((hsuf a).1 this) (hx a (List.mem_of_find?_eq_some hf))

/-! ## The hypotheses can be met -/

/-- A record for the examples. -/
def sample : Fields :=
  [("PMID".toList, ["123".toList]), ("DP".toList, ["1998-1999 Winter".toList]), ("VI".toList, ["49 Suppl 20".toList]), ("PG".toList, ["suppl 12-5".toList]),
   ("AID".toList, ["S01 [pii]".toList, "10.1/ab [doi]".toList]), ("AU".toList, ["Doe A".toList, "Roe B".toList]),
   ("AD".toList, [lineOf ("Doe A".toList, "Univ X;".toList), lineOf ("Doe A".toList, "Univ Y; : Z\n W;".toList)])]

example : year ascii isDig sample = .ok 1998 :=
  (C70_year_in_word ascii isDig (by decide) sample "1998-1999".toList " Winter".toList rfl (by decide) (.inr ⟨_, rfl⟩) rfl).1
    [] "1998".toList "-1999".toList 1998 rfl (by decide) (by decide) (by decide) (by decide) (by decide) (by decide) rfl

example : month ascii sample = .error .keyError := rfl
example : month ascii [("DP".toList, ["1998 Win".toList])] = .ok (.num 12) := rfl
example : volume sample = .ok "49".toList := C70_volume sample "49".toList " Suppl 20".toList rfl (by decide) (.inr ⟨_, rfl⟩)
example : beginningPage sample = .ok "12".toList :=
  C70_page sample "12".toList "-5".toList "suppl ".toList (.inr rfl) rfl (by decide) (by decide) (by decide) (by decide) (.inr (.inr ⟨_, rfl⟩))
example : DOI sample = .ok "10.1/ab".toList :=
  (C70_doi sample _ rfl).1 ["S01 [pii]".toList] "10.1/ab".toList [] rfl (by decide)
example : address sample = .ok "Univ Y".toList :=
  (C70_address sample [("Doe A".toList, "Univ X;".toList), ("Doe A".toList, "Univ Y; : Z\n W;".toList)] (by decide) "Doe A".toList ["Roe B".toList] rfl rfl).1
    _ _ [" : Z W".toList] rfl rfl

end Verif.Props.MedlineFields
