import Verif.Py.CsvAll

/-!
# Python's `csv` module with `quoting = QUOTE_MINIMAL`

The writer of the dialect `excel` (any delimiter and quote character): a field is quoted only if it has to be. The reader is that of
`Verif.Py.CsvAll`. `windows` is what a file opened without `newline = ''` makes of the text under Windows. Nothing here models a particular file
of /repo.
-/
set_option autoImplicit false
namespace Verif.Py.CsvMin
open Verif.Py.CsvAll

/-- The field has a delimiter, a quote or a line end. -/
def needsQuote (d : Dialect) (s : Str) : Bool := s.any (fun c => c = d.delim || c = d.quote || c = '\r' || c = '\n')

/-- One field of the writer. -/
def field (d : Dialect) (s : Str) : Str := if needsQuote d s then CsvAll.field d s else s

/-- The fields of a row, with delimiters between them. -/
def fields (d : Dialect) : List Str → Str
  | [] => []
  | [s] => field d s
  | s :: ss => field d s ++ d.delim :: fields d ss

/-- One row of the writer, without the line terminator: a single empty field is quoted. -/
def body (d : Dialect) (ss : List Str) : Str := if ss = [[]] then CsvAll.field d [] else fields d ss

/-- One row of the writer, with the line terminator `\r\n`. -/
def row (d : Dialect) (ss : List Str) : Str := body d ss ++ ['\r', '\n']

/-- The text of several rows. -/
def rows (d : Dialect) (l : List (List Str)) : Str := l.flatMap (row d)

/-- Writing a text file with the default `newline` where the line end is `\r\n`. -/
def windows (t : Str) : Str := t.flatMap (fun c => if c = '\n' then ['\r', '\n'] else [c])

/-- The comma and the double quote. -/
def excel : Dialect := ⟨',', '"'⟩

theorem excel_ok : excel.Ok := by decide

theorem parse_plain (d : Dialect) (s : Str) (hs : needsQuote d s = false) (cur rest : Str) (fs : List Str) :
    parse d (s ++ rest) .inField cur fs = parse d rest .inField (cur ++ s) fs := by
  induction s generalizing cur with
  | nil => simp
  | cons c s ih =>
    simp only [needsQuote, List.any_cons, Bool.or_eq_false_iff, decide_eq_false_iff_not] at hs
    obtain ⟨⟨⟨⟨h1, h2⟩, h3⟩, h4⟩, h5⟩ := hs
    simp only [List.cons_append, parse, h1, h3, h4, if_false]
    rw [ih h5]
    simp

/-- A field that is not empty, followed by a delimiter or a carriage return, at the start of a field. -/
theorem parse_field (d : Dialect) (hd : d.Ok) (s rest : Str) (st : St) (fs : List Str) (hst : st = .startField ∨ (st = .startRecord ∧ fs = [])) :
    parse d (field d s ++ d.delim :: rest) st [] fs = parse d rest .startField [] (fs ++ [s]) ∧
    ((st = .startRecord → s ≠ []) → parse d (field d s ++ '\r' :: rest) st [] fs = (fs ++ [s]) :: parse d rest .afterCr [] []) := by
  have hd' := hd
  obtain ⟨h1, h2, h3, h4, h5⟩ := hd
  unfold field
  by_cases hq : needsQuote d s = true
  · rw [if_pos hq, CsvAll.parse_field d hd' _ _ _ _ hst, CsvAll.parse_field d hd' _ _ _ _ hst]
    refine ⟨by simp [parse, h1], fun _ => by simp [parse, h4.symm, h2.symm]⟩
  · rw [if_neg hq]
    have hq' : needsQuote d s = false := by simpa using hq
    cases s with
    | nil =>
      rcases hst with rfl | ⟨rfl, rfl⟩
      · simp [parse, h1, h2, h3, h4]
      · simp [parse, h1, h2, h3]
    | cons c s =>
      have hq2 := hq'
      simp only [needsQuote, List.any_cons, Bool.or_eq_false_iff, decide_eq_false_iff_not] at hq2
      obtain ⟨⟨⟨⟨c1, c2⟩, c3⟩, c4⟩, c5⟩ := hq2
      have key : ∀ t, parse d ((c :: s) ++ t) st [] fs = parse d t .inField (c :: s) fs := by
        intro t
        rcases hst with rfl | ⟨rfl, rfl⟩
        · simp only [List.cons_append, parse, c1, c2, c3, c4, if_false]
          rw [parse_plain d s c5]; simp
        · simp only [List.cons_append, parse, c1, c2, c3, c4, if_false]
          rw [parse_plain d s c5]; simp
      rw [key, key]
      refine ⟨by simp [parse, h2, h3], fun _ => by simp [parse]⟩

theorem parse_fields (d : Dialect) (hd : d.Ok) (ss : List Str) (hne : ss ≠ []) (rest : Str) (st : St) (fs : List Str)
    (hst : st = .startField ∨ (st = .startRecord ∧ fs = [] ∧ ss ≠ [[]])) :
    parse d (fields d ss ++ '\r' :: rest) st [] fs = (fs ++ ss) :: parse d rest .afterCr [] [] := by
  induction ss generalizing st fs with
  | nil => exact absurd rfl hne
  | cons s ss ih =>
    have hst' : st = .startField ∨ (st = .startRecord ∧ fs = []) := hst.imp_right fun h => ⟨h.1, h.2.1⟩
    cases ss with
    | nil =>
      refine (parse_field d hd s rest st fs hst').2 (fun h => ?_)
      rcases hst with rfl | h'
      · cases h
      · rintro rfl; exact h'.2.2 rfl
    | cons s' ss =>
      have : fields d (s :: s' :: ss) ++ '\r' :: rest = field d s ++ d.delim :: (fields d (s' :: ss) ++ '\r' :: rest) := by simp [fields]
      rw [this, (parse_field d hd s _ st fs hst').1, ih (by simp) _ _ (Or.inl rfl)]
      simp

theorem parse_body (d : Dialect) (hd : d.Ok) (ss : List Str) (rest : Str) :
    parse d (body d ss ++ '\r' :: rest) .startRecord [] [] = ss :: parse d rest .afterCr [] [] := by
  unfold body
  split
  · rename_i h
    subst h
    have hd' := hd
    obtain ⟨h1, h2, h3, h4, h5⟩ := hd
    rw [CsvAll.parse_field d hd' _ _ _ _ (Or.inr ⟨rfl, rfl⟩)]
    simp [parse, h4.symm, h2.symm]
  · rename_i h
    cases ss with
    | nil => simp [fields, parse]
    | cons s ss => rw [parse_fields d hd (s :: ss) (by simp) rest _ _ (Or.inr ⟨rfl, rfl, h⟩)]; rfl

/-- What the writer wrote is read back. -/
theorem read_rows (d : Dialect) (hd : d.Ok) (l : List (List Str)) : read d (rows d l) = l := by
  unfold CsvAll.read rows
  induction l with
  | nil => rfl
  | cons r l ih =>
    have : (r :: l).flatMap (row d) = body d r ++ '\r' :: ('\n' :: l.flatMap (row d)) := by simp [row]
    rw [this, parse_body d hd r]
    simp only [parse, if_true]
    rw [ih]

/-- Where the file translates line ends, and no field has one, every row is followed by an empty one. -/
theorem read_windows (d : Dialect) (hd : d.Ok) (l : List (List Str)) (hl : ∀ r ∈ l, ∀ s ∈ r, '\n' ∉ s) :
    read d (windows (rows d l)) = l.flatMap (fun r => [r, []]) := by
  have hplain : ∀ t : Str, '\n' ∉ t → windows t = t := by
    intro t
    induction t with
    | nil => intro; rfl
    | cons c t ih =>
      intro h
      have hc : c ≠ '\n' := fun e => h (by simp [e])
      have ht := ih (fun e => h (List.mem_cons_of_mem _ e))
      unfold windows at ht ⊢
      rw [List.flatMap_cons, ht, if_neg hc]; rfl
  have hesc : ∀ s : Str, '\n' ∉ s → '\n' ∉ CsvAll.field d s := by
    intro s hs h
    obtain ⟨h1, h2, h3, h4, h5⟩ := hd
    simp only [CsvAll.field, List.cons_append, List.mem_cons, List.mem_append, List.not_mem_nil, or_false] at h
    rcases h with h | h | h
    · exact h5 h.symm
    · unfold CsvAll.escape at h
      obtain ⟨c, c1, c2⟩ := List.mem_flatMap.1 h
      split at c2
      · rename_i e
        simp only [List.mem_cons, List.not_mem_nil, or_false, or_self] at c2
        exact h5 c2.symm
      · simp only [List.mem_cons, List.not_mem_nil, or_false] at c2
        exact hs (c2 ▸ c1)
    · exact h5 h.symm
  have hfield : ∀ s : Str, '\n' ∉ s → '\n' ∉ field d s := by
    intro s hs
    unfold field
    split
    · exact hesc s hs
    · exact hs
  have hfields : ∀ ss : List Str, (∀ s ∈ ss, '\n' ∉ s) → '\n' ∉ fields d ss := by
    intro ss
    induction ss with
    | nil => intro _; simp [fields]
    | cons s ss ih =>
      intro h
      cases ss with
      | nil => exact hfield s (h s (by simp))
      | cons s' ss =>
        intro hm
        simp only [fields, List.mem_append, List.mem_cons] at hm
        rcases hm with hm | hm | hm
        · exact hfield s (h s (by simp)) hm
        · exact hd.2.2.1 hm.symm
        · exact ih (fun t ht => h t (List.mem_cons_of_mem _ ht)) hm
  have hbody : ∀ ss : List Str, (∀ s ∈ ss, '\n' ∉ s) → '\n' ∉ body d ss := by
    intro ss h
    unfold body
    split
    · exact hesc [] (by simp)
    · exact hfields ss h
  unfold CsvAll.read rows
  induction l with
  | nil => rfl
  | cons r l ih =>
    have hw : windows ((r :: l).flatMap (row d)) = body d r ++ '\r' :: ('\r' :: '\n' :: windows (l.flatMap (row d))) := by
      have : (r :: l).flatMap (row d) = body d r ++ (['\r', '\n'] ++ l.flatMap (row d)) := by simp [row]
      rw [this]
      have happ : ∀ a b : Str, windows (a ++ b) = windows a ++ windows b := fun a b => List.flatMap_append
      rw [happ, happ, hplain _ (hbody r (hl r (by simp)))]
      rfl
    rw [hw, parse_body d hd r]
    have hnr : ¬ ('\r' : Char) = '\n' := by decide
    simp only [parse, hnr, if_false, if_true]
    rw [ih (fun r' h => hl r' (List.mem_cons_of_mem _ h))]
    rfl

end Verif.Py.CsvMin
