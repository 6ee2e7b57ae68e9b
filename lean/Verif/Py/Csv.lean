import Verif.Py.Str
import Verif.Py.Dict

/-!
# Python's `csv` module and text files

`csv.writer` with `quoting = QUOTE_NONNUMERIC` and `csv.reader` with its default dialect, as state machine over the text; `open`'s
translation of line ends; `csv.DictReader`. Nothing here models a particular file of /repo.
-/
set_option autoImplicit false
namespace Verif.Py

/-- A number or a string. -/
inductive Cell where
  | num (n : Int)
  | str (s : Str)
deriving DecidableEq, Repr

namespace Csv

/-- `str(n)` for an integer. -/
def showInt (n : Int) : Str :=
  if n < 0 then '-' :: Nat.toDigits 10 n.natAbs else Nat.toDigits 10 n.natAbs

/-- `str(c)` -/
def text : Cell → Str
  | .num n => showInt n
  | .str s => s

/-- Quotes inside a quoted field are doubled. -/
def escape (s : Str) : Str := s.flatMap (fun c => if c = '"' then ['"', '"'] else [c])

/-- One field of the writer. -/
def field : Cell → Str
  | .num n => showInt n
  | .str s => '"' :: escape s ++ ['"']

/-- One row of the writer, with the line terminator `\r\n`. -/
def row : List Cell → Str
  | [] => ['\r', '\n']
  | [c] => field c ++ ['\r', '\n']
  | c :: cs => field c ++ ',' :: row cs

/-- The text of several rows. -/
def rows (l : List (List Cell)) : Str := l.flatMap row

/-- Reading a text file with the default `newline`: `\r\n` and `\r` become `\n`. -/
def universal : Str → Str
  | [] => []
  | '\r' :: '\n' :: rest => '\n' :: universal rest
  | '\r' :: rest => '\n' :: universal rest
  | c :: rest => c :: universal rest

/-- The states of the reader. -/
inductive St where
  | startRecord | startField | inField | inQuoted | quoteInQuoted
deriving DecidableEq

/-- `csv.reader` over the text of a file: the fields of each row; an empty line gives an empty row. -/
def parse : Str → St → Str → List Str → List (List Str)
  | [], .startRecord, _, _ => []
  | [], _, cur, fs => [fs ++ [cur]]
  | c :: rest, .startRecord, _, _ =>
    if c = '\n' then [] :: parse rest .startRecord [] []
    else if c = '"' then parse rest .inQuoted [] []
    else if c = ',' then parse rest .startField [] [[]]
    else parse rest .inField [c] []
  | c :: rest, .startField, _, fs =>
    if c = '\n' then (fs ++ [[]]) :: parse rest .startRecord [] []
    else if c = '"' then parse rest .inQuoted [] fs
    else if c = ',' then parse rest .startField [] (fs ++ [[]])
    else parse rest .inField [c] fs
  | c :: rest, .inField, cur, fs =>
    if c = '\n' then (fs ++ [cur]) :: parse rest .startRecord [] []
    else if c = ',' then parse rest .startField [] (fs ++ [cur])
    else parse rest .inField (cur ++ [c]) fs
  | c :: rest, .inQuoted, cur, fs =>
    if c = '"' then parse rest .quoteInQuoted cur fs
    else parse rest .inQuoted (cur ++ [c]) fs
  | c :: rest, .quoteInQuoted, cur, fs =>
    if c = '"' then parse rest .inQuoted (cur ++ ['"']) fs
    else if c = ',' then parse rest .startField [] (fs ++ [cur])
    else if c = '\n' then (fs ++ [cur]) :: parse rest .startRecord [] []
    else parse rest .inField (cur ++ [c]) fs

/-- The rows of a file. -/
def read (t : Str) : List (List Str) := parse (universal t) .startRecord [] []

/-- `csv.DictReader`: the first row gives the keys, empty rows are skipped. Rows shorter or longer than the header, which the writer never
makes, are cut to the shorter length. -/
def dictRead (t : Str) : List (Dict Str Str) :=
  match (read t).filter (fun r => !r.isEmpty) with
  | [] => []
  | header :: rs => rs.map (fun r => Dict.update [] (header.zip r))

/-! ## Writing and reading back -/

theorem digit_plain {c : Char} (h : c.isDigit = true) : c ≠ '\n' ∧ c ≠ '"' ∧ c ≠ ',' ∧ c ≠ '\r' := by
  refine ⟨?_, ?_, ?_, ?_⟩ <;> rintro rfl <;> revert h <;> decide

theorem showInt_plain (n : Int) : ∀ c ∈ showInt n, c ≠ '\n' ∧ c ≠ '"' ∧ c ≠ ',' ∧ c ≠ '\r' := by
  intro c hc
  unfold showInt at hc
  split at hc
  · rcases List.mem_cons.1 hc with rfl | hc
    · decide
    · exact digit_plain (Nat.isDigit_of_mem_toDigits (by decide) (by decide) hc)
  · exact digit_plain (Nat.isDigit_of_mem_toDigits (by decide) (by decide) hc)

theorem showInt_ne_nil (n : Int) : showInt n ≠ [] := by
  unfold showInt
  split
  · simp
  · exact Nat.toDigits_ne_nil

theorem parse_plain (s : Str) (hs : ∀ c ∈ s, c ≠ '\n' ∧ c ≠ '"' ∧ c ≠ ',' ∧ c ≠ '\r') (cur rest : Str) (fs : List Str) :
    parse (s ++ rest) .inField cur fs = parse rest .inField (cur ++ s) fs := by
  induction s generalizing cur with
  | nil => simp
  | cons c s ih =>
    obtain ⟨h1, _, h3, _⟩ := hs c (by simp)
    simp only [List.cons_append, parse, h1, h3, if_false]
    rw [ih (fun c hc => hs c (by simp [hc]))]
    simp

theorem parse_escape (s cur rest : Str) (fs : List Str) :
    parse (escape s ++ rest) .inQuoted cur fs = parse rest .inQuoted (cur ++ s) fs := by
  induction s generalizing cur with
  | nil => simp [escape]
  | cons c s ih =>
    by_cases h : c = '"'
    · subst h
      have : escape ('"' :: s) = '"' :: '"' :: escape s := by simp [escape]
      rw [this]
      simp only [List.cons_append, parse, if_true]
      rw [ih]; simp
    · have : escape (c :: s) = c :: escape s := by simp [escape, h]
      rw [this]
      simp only [List.cons_append, parse, h, if_false]
      rw [ih]; simp

/-- A field followed by a comma or a line end, at the start of a field. -/
theorem parse_field (c : Cell) (rest : Str) (st : St) (fs : List Str) (hst : st = .startField ∨ (st = .startRecord ∧ fs = [])) :
    parse (field c ++ ',' :: rest) st [] fs = parse rest .startField [] (fs ++ [text c]) ∧
    parse (field c ++ '\n' :: rest) st [] fs = (fs ++ [text c]) :: parse rest .startRecord [] [] := by
  cases c with
  | str s =>
    have hq : ∀ t, parse (('"' :: escape s ++ ['"']) ++ t) st [] fs = parse t .quoteInQuoted s fs := by
      intro t
      have : ('"' :: escape s ++ ['"']) ++ t = '"' :: (escape s ++ ('"' :: t)) := by simp
      rw [this]
      rcases hst with rfl | ⟨rfl, rfl⟩
      · simp only [parse]
        rw [if_neg (by decide), if_pos trivial, parse_escape]
        simp [parse]
      · simp only [parse]
        rw [if_neg (by decide), if_pos trivial, parse_escape]
        simp [parse]
    simp only [field, text]
    rw [hq, hq]
    simp [parse]
  | num n =>
    simp only [field, text]
    have hp := showInt_plain n
    cases hs : showInt n with
    | nil => exact absurd hs (showInt_ne_nil n)
    | cons c s =>
      rw [hs] at hp
      obtain ⟨h1, h2, h3, h4⟩ := hp c (by simp)
      have hq : ∀ t, parse ((c :: s) ++ t) st [] fs = parse t .inField (c :: s) fs := by
        intro t
        rcases hst with rfl | ⟨rfl, rfl⟩
        · simp only [List.cons_append, parse, h1, h2, h3, if_false]
          rw [parse_plain s (fun c hc => hp c (by simp [hc]))]; simp
        · simp only [List.cons_append, parse, h1, h2, h3, if_false]
          rw [parse_plain s (fun c hc => hp c (by simp [hc]))]; simp
      rw [hq, hq]
      simp [parse]

/-- A row with `\n` as line end. -/
def rowN : List Cell → Str
  | [] => ['\n']
  | [c] => field c ++ ['\n']
  | c :: cs => field c ++ ',' :: rowN cs

theorem parse_rowN (cs : List Cell) (hne : cs ≠ []) (rest : Str) (st : St) (fs : List Str)
    (hst : st = .startField ∨ (st = .startRecord ∧ fs = [])) :
    parse (rowN cs ++ rest) st [] fs = (fs ++ cs.map text) :: parse rest .startRecord [] [] := by
  induction cs generalizing st fs with
  | nil => exact absurd rfl hne
  | cons c cs ih =>
    cases cs with
    | nil =>
      have : rowN [c] ++ rest = field c ++ '\n' :: rest := by simp [rowN]
      rw [this, (parse_field c rest st fs hst).2]; simp
    | cons d cs =>
      have : rowN (c :: d :: cs) ++ rest = field c ++ ',' :: (rowN (d :: cs) ++ rest) := by simp [rowN]
      rw [this, (parse_field c _ st fs hst).1, ih (by simp) _ _ (Or.inl rfl)]
      simp

theorem parse_rows (l : List (List Cell)) (hl : ∀ r ∈ l, r ≠ []) :
    parse (l.flatMap rowN) .startRecord [] [] = l.map (fun r => r.map text) := by
  induction l with
  | nil => rfl
  | cons r l ih =>
    rw [List.flatMap_cons, parse_rowN r (hl r (by simp)) _ _ _ (Or.inr ⟨rfl, rfl⟩), ih (fun r hr => hl r (by simp [hr]))]
    simp

/-- No carriage return. -/
def NoCr (s : Str) : Prop := '\r' ∉ s

theorem universal_cons (c : Char) (h : c ≠ '\r') (t : Str) : universal (c :: t) = c :: universal t := by
  conv_lhs => unfold universal
  split
  · rename_i heq; simp only [List.cons.injEq, reduceCtorEq] at heq
  · rename_i heq; simp only [List.cons.injEq] at heq; exact absurd heq.1 h
  · rename_i heq; simp only [List.cons.injEq] at heq; exact absurd heq.1 h
  · rename_i heq; simp only [List.cons.injEq] at heq; rw [heq.1, heq.2]

theorem universal_append (s t : Str) (h : NoCr s) : universal (s ++ t) = s ++ universal t := by
  induction s with
  | nil => rfl
  | cons c s ih =>
    unfold NoCr at h
    simp only [List.mem_cons, not_or] at h
    rw [List.cons_append, universal_cons c (fun hc => h.1 hc.symm), ih h.2, List.cons_append]

/-- The strings of a cell have no carriage return. -/
def CellOk : Cell → Prop
  | .num _ => True
  | .str s => NoCr s

theorem field_noCr (c : Cell) (h : CellOk c) : NoCr (field c) := by
  cases c with
  | num n => intro hc; exact (showInt_plain n '\r' hc).2.2.2 rfl
  | str s =>
    unfold field NoCr escape
    simp only [List.cons_append, List.mem_cons, List.mem_append, List.mem_flatMap, List.not_mem_nil, or_false, not_or]
    refine ⟨by decide, ?_, by decide⟩
    rintro ⟨c, hc, hm⟩
    split at hm
    · simp at hm
    · simp only [List.mem_singleton] at hm; subst hm; exact h hc

theorem universal_row (cs : List Cell) (h : ∀ c ∈ cs, CellOk c) (t : Str) : universal (row cs ++ t) = rowN cs ++ universal t := by
  induction cs with
  | nil => rfl
  | cons c cs ih =>
    have hc := field_noCr c (h c (by simp))
    cases cs with
    | nil =>
      have : row [c] ++ t = field c ++ ('\r' :: '\n' :: t) := by simp [row]
      rw [this, universal_append _ _ hc]
      simp [universal, rowN]
    | cons d cs =>
      have : row (c :: d :: cs) ++ t = field c ++ (',' :: (row (d :: cs) ++ t)) := by simp [row]
      rw [this, universal_append _ _ hc, universal_cons _ (by decide), ih (fun c hc => h c (by simp [hc]))]
      simp [rowN]

/-- What the writer wrote is read back, numbers as their decimal text, when no string has a carriage return. -/
theorem read_rows (l : List (List Cell)) (hne : ∀ r ∈ l, r ≠ []) (hok : ∀ r ∈ l, ∀ c ∈ r, CellOk c) :
    read (rows l) = l.map (fun r => r.map text) := by
  have : universal (rows l) = l.flatMap rowN := by
    unfold rows
    clear hne
    induction l with
    | nil => rfl
    | cons r l ih =>
      rw [List.flatMap_cons, List.flatMap_cons, universal_row r (hok r (by simp)), ih (fun r hr => hok r (by simp [hr]))]
  unfold read
  rw [this, parse_rows l hne]

theorem dictRead_rows (header : List Cell) (l : List (List Cell)) (hh : header ≠ []) (hhok : ∀ c ∈ header, CellOk c)
    (hne : ∀ r ∈ l, r ≠ []) (hok : ∀ r ∈ l, ∀ c ∈ r, CellOk c) :
    dictRead (rows (header :: l)) = l.map (fun r => Dict.update [] ((header.map text).zip (r.map text))) := by
  unfold dictRead
  rw [read_rows (header :: l)]
  · have : (List.map (fun r => r.map text) (header :: l)).filter (fun r => !r.isEmpty) = List.map (fun r => r.map text) (header :: l) := by
      rw [List.filter_eq_self]
      intro r hr
      obtain ⟨r', h1, rfl⟩ := List.mem_map.1 hr
      have : r' ≠ [] := by
        rcases List.mem_cons.1 h1 with rfl | h1
        · exact hh
        · exact hne _ h1
      cases r' with
      | nil => exact absurd rfl this
      | cons _ _ => rfl
    rw [this]
    simp [Function.comp_def]
  · intro r hr
    rcases List.mem_cons.1 hr with rfl | hr
    · exact hh
    · exact hne r hr
  · intro r hr
    rcases List.mem_cons.1 hr with rfl | hr
    · exact hhok
    · exact hok r hr

end Csv
end Verif.Py
