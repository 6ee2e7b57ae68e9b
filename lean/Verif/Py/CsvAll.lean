import Verif.Py.Str
import Verif.Py.Dict

/-!
# Python's `csv` module with `quoting = QUOTE_ALL`

The writer and the reader for any delimiter and quote character, files opened with `newline = ''` on both sides, so no line end is
translated. Nothing here models a particular file of /repo.
-/
set_option autoImplicit false
namespace Verif.Py.CsvAll

/-- Delimiter and quote character. -/
structure Dialect where
  delim : Char
  quote : Char

/-- The two differ and neither is a line end. -/
def Dialect.Ok (d : Dialect) : Prop :=
  d.delim ≠ d.quote ∧ d.delim ≠ '\r' ∧ d.delim ≠ '\n' ∧ d.quote ≠ '\r' ∧ d.quote ≠ '\n'

instance (d : Dialect) : Decidable d.Ok := by unfold Dialect.Ok; infer_instance

/-- Quotes inside a field are doubled. -/
def escape (d : Dialect) (s : Str) : Str := s.flatMap (fun c => if c = d.quote then [d.quote, d.quote] else [c])

/-- One field of the writer. -/
def field (d : Dialect) (s : Str) : Str := d.quote :: escape d s ++ [d.quote]

/-- One row of the writer, with the line terminator `\r\n`. -/
def row (d : Dialect) : List Str → Str
  | [] => ['\r', '\n']
  | [s] => field d s ++ ['\r', '\n']
  | s :: ss => field d s ++ d.delim :: row d ss

/-- The text of several rows. -/
def rows (d : Dialect) (l : List (List Str)) : Str := l.flatMap (row d)

/-- The states of the reader. -/
inductive St where
  | startRecord | startField | inField | inQuoted | quoteInQuoted | afterCr
deriving DecidableEq

/-- `csv.reader`: the fields of each row; an empty line gives an empty row. In the state `afterCr` a row has just been ended by a carriage
return, and a line feed belongs to the same line end. -/
def parse (d : Dialect) : Str → St → Str → List Str → List (List Str)
  | [], .startRecord, _, _ => []
  | [], .afterCr, _, _ => []
  | [], _, cur, fs => [fs ++ [cur]]
  | c :: rest, .afterCr, _, _ =>
    if c = '\n' then parse d rest .startRecord [] []
    else if c = '\r' then [] :: parse d rest .afterCr [] []
    else if c = d.quote then parse d rest .inQuoted [] []
    else if c = d.delim then parse d rest .startField [] [[]]
    else parse d rest .inField [c] []
  | c :: rest, .startRecord, _, _ =>
    if c = '\n' then [] :: parse d rest .startRecord [] []
    else if c = '\r' then [] :: parse d rest .afterCr [] []
    else if c = d.quote then parse d rest .inQuoted [] []
    else if c = d.delim then parse d rest .startField [] [[]]
    else parse d rest .inField [c] []
  | c :: rest, .startField, _, fs =>
    if c = '\n' then (fs ++ [[]]) :: parse d rest .startRecord [] []
    else if c = '\r' then (fs ++ [[]]) :: parse d rest .afterCr [] []
    else if c = d.quote then parse d rest .inQuoted [] fs
    else if c = d.delim then parse d rest .startField [] (fs ++ [[]])
    else parse d rest .inField [c] fs
  | c :: rest, .inField, cur, fs =>
    if c = '\n' then (fs ++ [cur]) :: parse d rest .startRecord [] []
    else if c = '\r' then (fs ++ [cur]) :: parse d rest .afterCr [] []
    else if c = d.delim then parse d rest .startField [] (fs ++ [cur])
    else parse d rest .inField (cur ++ [c]) fs
  | c :: rest, .inQuoted, cur, fs =>
    if c = d.quote then parse d rest .quoteInQuoted cur fs
    else parse d rest .inQuoted (cur ++ [c]) fs
  | c :: rest, .quoteInQuoted, cur, fs =>
    if c = d.quote then parse d rest .inQuoted (cur ++ [d.quote]) fs
    else if c = d.delim then parse d rest .startField [] (fs ++ [cur])
    else if c = '\n' then (fs ++ [cur]) :: parse d rest .startRecord [] []
    else if c = '\r' then (fs ++ [cur]) :: parse d rest .afterCr [] []
    else parse d rest .inField (cur ++ [c]) fs

/-- The rows of a file. -/
def read (d : Dialect) (t : Str) : List (List Str) := parse d t .startRecord [] []

theorem parse_escape (d : Dialect) (s cur rest : Str) (fs : List Str) :
    parse d (escape d s ++ rest) .inQuoted cur fs = parse d rest .inQuoted (cur ++ s) fs := by
  induction s generalizing cur with
  | nil => simp [escape]
  | cons c s ih =>
    by_cases h : c = d.quote
    · subst h
      have : escape d (d.quote :: s) = d.quote :: d.quote :: escape d s := by simp [escape]
      rw [this]
      simp only [List.cons_append, parse, if_true]
      rw [ih]; simp
    · have : escape d (c :: s) = c :: escape d s := by simp [escape, h]
      rw [this]
      simp only [List.cons_append, parse, h, if_false]
      rw [ih]; simp

/-- A field, at the start of a field. -/
theorem parse_field (d : Dialect) (hd : d.Ok) (s t : Str) (st : St) (fs : List Str)
    (hst : st = .startField ∨ (st = .startRecord ∧ fs = [])) :
    parse d (field d s ++ t) st [] fs = parse d t .quoteInQuoted s fs := by
  obtain ⟨h1, h2, h3, h4, h5⟩ := hd
  have : field d s ++ t = d.quote :: (escape d s ++ (d.quote :: t)) := by simp [field]
  rw [this]
  rcases hst with rfl | ⟨rfl, rfl⟩
  · simp only [parse, h4, h5, if_false, if_true]
    rw [parse_escape]; simp [parse]
  · simp only [parse, h4, h5, if_false, if_true]
    rw [parse_escape]; simp [parse]

theorem parse_row_field (d : Dialect) (hd : d.Ok) (ss : List Str) (hne : ss ≠ []) (rest : Str) (st : St) (fs : List Str)
    (hst : st = .startField ∨ (st = .startRecord ∧ fs = [])) :
    parse d (row d ss ++ rest) st [] fs = (fs ++ ss) :: parse d rest .startRecord [] [] := by
  have hd' := hd
  obtain ⟨h1, h2, h3, h4, h5⟩ := hd
  induction ss generalizing st fs with
  | nil => exact absurd rfl hne
  | cons s ss ih =>
    cases ss with
    | nil =>
      have : row d [s] ++ rest = field d s ++ ('\r' :: '\n' :: rest) := by simp [row]
      rw [this, parse_field d hd' _ _ _ _ hst]
      simp [parse, h4.symm, h2.symm]
    | cons s' ss =>
      have : row d (s :: s' :: ss) ++ rest = field d s ++ (d.delim :: (row d (s' :: ss) ++ rest)) := by simp [row]
      rw [this, parse_field d hd' _ _ _ _ hst]
      simp only [parse, h1, if_false, if_true]
      rw [ih (by simp) _ _ (Or.inl rfl)]
      simp

theorem parse_row (d : Dialect) (hd : d.Ok) (ss : List Str) (rest : Str) :
    parse d (row d ss ++ rest) .startRecord [] [] = ss :: parse d rest .startRecord [] [] := by
  cases ss with
  | nil => simp [row, parse]
  | cons s ss => rw [parse_row_field d hd (s :: ss) (by simp) _ _ _ (Or.inr ⟨rfl, rfl⟩)]; rfl

/-- What the writer wrote is read back. -/
theorem read_rows (d : Dialect) (hd : d.Ok) (l : List (List Str)) : read d (rows d l) = l := by
  unfold read rows
  induction l with
  | nil => rfl
  | cons r l ih => rw [List.flatMap_cons, parse_row d hd r, ih]

end Verif.Py.CsvAll
