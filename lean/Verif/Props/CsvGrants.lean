import Verif.Model.CsvGrants
import Mathlib.Data.List.Nodup
import Mathlib.Data.List.Perm.Subperm

/-! # C68: grants from csv files -/
set_option autoImplicit false
set_option linter.unusedSimpArgs false
namespace Verif.Props.CsvGrants
open Verif.Py Verif.Py.Csv Verif.Model.CsvGrants

/-! ## Reading by lines is reading the text -/

/-- What `parse` does with the rest of a text after a line. -/
def after (rest : Str) : LineEnd → List (List Str)
  | .more st cur fs => parse rest st cur fs
  | .row r => r :: parse rest .startRecord [] []

theorem parse_line (w rest : Str) (hw : '\n' ∉ w) : ∀ (st : St) (cur : Str) (fs : List Str),
    parse (w ++ '\n' :: rest) st cur fs = after rest (lineGo (w ++ ['\n']) st cur fs) := by
  induction w with
  | nil =>
    intro st cur fs
    cases st <;> simp [parse, lineGo, after]
  | cons c w ih =>
    intro st cur fs
    have ih := ih (fun h => hw (List.mem_cons_of_mem _ h))
    have hc : c ≠ '\n' := fun h => hw (by simp [h])
    simp only [List.cons_append]
    cases st <;> simp only [parse, lineGo, hc, if_false] <;> split <;> (try split) <;> exact ih _ _ _

/-- The rows when the text ends there. -/
def lastRows : LineEnd → List (List Str)
  | .more _ cur fs => [fs ++ [cur]]
  | .row r => [r]

theorem parse_last (w : Str) (hw : '\n' ∉ w) : ∀ (st : St) (cur : Str) (fs : List Str), (st = .startRecord → w ≠ []) →
    parse w st cur fs = lastRows (lineGo w st cur fs) := by
  induction w with
  | nil =>
    intro st cur fs hne
    cases st
    · exact absurd rfl (hne rfl)
    all_goals simp [parse, lineGo, lastRows]
  | cons c w ih =>
    intro st cur fs _
    have ih := ih (fun h => hw (List.mem_cons_of_mem _ h))
    have hc : c ≠ '\n' := fun h => hw (by simp [h])
    cases st <;> simp only [parse, lineGo, hc, if_false] <;> split <;> (try split) <;> refine ih _ _ _ (fun h => ?_) <;> cases h

theorem lineGo_more (w : Str) : ∀ (st : St) (cur : Str) (fs : List Str) (st' : St) (cur' : Str) (fs' : List Str),
    lineGo w st cur fs = .more st' cur' fs' → st' = .inQuoted := by
  induction w with
  | nil => intro st cur fs st' cur' fs' h; cases st <;> simp [lineGo] at h; exact h.1.symm
  | cons c w ih =>
    intro st cur fs st' cur' fs' h
    cases st <;> simp only [lineGo] at h <;> split at h <;> (try split at h) <;> (try split at h) <;>
      first | exact ih _ _ _ _ _ _ h | cases h

/-- The rows by lines are the rows of the text. -/
theorem readRows_fields (t : Str) : ∀ (k : Nat) (st : St) (cur : Str) (fs : List Str) (last : Nat × Str),
    (st = .startRecord ∨ st = .inQuoted) →
    (readRows false ((List.range' k (Lines.lines t).length).zip (Lines.lines t)) st cur fs last).1.map Read.fields = parse t st cur fs := by
  have key : ∀ (n : Nat) (t : Str), t.length ≤ n → ∀ (k : Nat) (st : St) (cur : Str) (fs : List Str) (last : Nat × Str),
      (st = .startRecord ∨ st = .inQuoted) →
      (readRows false ((List.range' k (Lines.lines t).length).zip (Lines.lines t)) st cur fs last).1.map Read.fields = parse t st cur fs := by
    intro n
    induction n with
    | zero =>
      intro t ht k st cur fs last hst
      have : t = [] := List.length_eq_zero_iff.1 (by omega)
      subst this
      rcases hst with rfl | rfl <;> simp [Lines.lines, readRows, parse]
    | succ n ih =>
      intro t ht k st cur fs last hst
      by_cases hn : '\n' ∈ t
      · obtain ⟨w, rest, rfl, hw⟩ := List.eq_append_cons_of_mem hn
        rw [Lines.lines_append w rest hw]
        simp only [List.length_cons, List.range'_succ, List.zip_cons_cons, readRows]
        rw [parse_line w rest hw]
        have hlen : rest.length ≤ n := by simp at ht; omega
        cases hg : lineGo (w ++ ['\n']) st cur fs with
        | more st' cur' fs' =>
          have := lineGo_more _ _ _ _ _ _ _ hg
          exact ih rest hlen (k + 1) st' cur' fs' _ (Or.inr this)
        | row r =>
          simp only [List.map_cons, after]
          rw [ih rest hlen (k + 1) .startRecord [] [] _ (Or.inl rfl)]
      · by_cases hne : t = []
        · subst hne
          rcases hst with rfl | rfl <;> simp [Lines.lines, readRows, parse]
        · rw [Lines.lines_last t hn hne]
          simp only [List.length_cons, List.length_nil, List.range'_succ, List.zip_cons_cons, List.range'_zero, List.zip_nil_left, readRows]
          rw [parse_last t hn st cur fs (fun _ => hne)]
          cases hg : lineGo t st cur fs with
          | more st' cur' fs' =>
            have := lineGo_more _ _ _ _ _ _ _ hg
            simp [readRows, this, lastRows]
          | row r => simp [readRows, lastRows]
  exact key t.length t (Nat.le_refl _)

/-! ## Helpers -/

theorem fst_zip {α β : Type} (a : List α) : ∀ b : List β, (a.zip b).map Prod.fst = a.take b.length := by
  induction a with
  | nil => intro b; simp
  | cons x a ih => intro b; cases b <;> simp [ih]

theorem drop_zip' {α β : Type} (n : Nat) : ∀ (a : List α) (b : List β), (a.zip b).drop n = (a.drop n).zip (b.drop n) := by
  induction n with
  | zero => intro a b; rfl
  | succ n ih =>
    intro a b
    cases a with
    | nil => simp
    | cons x a => cases b <;> simp [ih]

theorem fst_zip_sublist {α β : Type} (a : List α) (b : List β) : ((a.zip b).map Prod.fst).Sublist a := by
  rw [fst_zip]; exact List.take_sublist _ _

theorem readRows_error (pep : Bool) (l : List (Nat × Str)) : ∀ (st : St) (cur : Str) (fs : List Str) (last : Nat × Str),
    (readRows pep l st cur fs last).2 = pep := by
  induction l with
  | nil => intro st cur fs last; unfold readRows; cases pep <;> by_cases h : st = .startRecord <;> simp [h]
  | cons x l ih =>
    intro st cur fs last
    obtain ⟨n, w⟩ := x
    unfold readRows
    cases lineGo w st cur fs with
    | more => exact ih ..
    | row r => exact ih ..

/-- Later Pythons lose at most the last row, if the file ends inside quotes. -/
theorem readRows_pep (l : List (Nat × Str)) : ∀ (st : St) (cur : Str) (fs : List Str) (last : Nat × Str),
    (readRows true l st cur fs last).1 = (readRows false l st cur fs last).1 ∨
    ∃ r, (readRows false l st cur fs last).1 = (readRows true l st cur fs last).1 ++ [r] := by
  induction l with
  | nil =>
    intro st cur fs last
    unfold readRows
    by_cases h : st = .startRecord
    · simp [h]
    · right; exact ⟨_, by simp [h]; rfl⟩
  | cons x l ih =>
    intro st cur fs last
    obtain ⟨n, w⟩ := x
    unfold readRows
    cases lineGo w st cur fs with
    | more => exact ih ..
    | row r =>
      rcases ih .startRecord [] [] (n, w) with h | ⟨r', h⟩
      · left; simp only [h]
      · right; exact ⟨r', by simp only [h]; rfl⟩

/-- The lines rows come from are increasing. -/
theorem readRows_nums (pep : Bool) (l : List Str) : ∀ (k : Nat) (st : St) (cur : Str) (fs : List Str) (last : Nat × Str), last.1 < k →
    (readRows pep ((List.range' k l.length).zip l) st cur fs last).1.Pairwise (fun a b => a.num < b.num) ∧
    ∀ r ∈ (readRows pep ((List.range' k l.length).zip l) st cur fs last).1, k ≤ r.num ∨ r.num = last.1 := by
  induction l with
  | nil =>
    intro k st cur fs last _
    simp only [List.length_nil, List.range'_zero, List.zip_nil_left]
    unfold readRows
    by_cases h : st = .startRecord
    · simp [h]
    · cases pep <;> simp [h]
  | cons w l ih =>
    intro k st cur fs last hk
    simp only [List.length_cons, List.range'_succ, List.zip_cons_cons]
    unfold readRows
    cases lineGo w st cur fs with
    | more st' cur' fs' =>
      obtain ⟨h1, h2⟩ := ih (k + 1) st' cur' fs' (k, w) (by simp)
      refine ⟨h1, fun r hr => ?_⟩
      rcases h2 r hr with h | h
      · left; omega
      · left; simp only at h; omega
    | row r =>
      obtain ⟨h1, h2⟩ := ih (k + 1) .startRecord [] [] (k, w) (by simp)
      have h3 : ∀ x ∈ (readRows pep ((List.range' (k + 1) l.length).zip l) .startRecord [] [] (k, w)).1, k < x.num := by
        have : ∀ (l : List (Nat × Str)) (m : Nat) (last last' : Nat × Str), (readRows pep l .startRecord [] [] last).1 = (readRows pep l .startRecord [] [] last').1 := by
          intro l m last last'
          cases l with
          | nil => simp [readRows]
          | cons => rfl
        intro x hx
        rw [this _ 0 (k, w) (0, [])] at hx
        obtain ⟨_, h2'⟩ := ih (k + 1) .startRecord [] [] (0, []) (by simp)
        have hx0 : ∀ (l : List (Nat × Str)) (n : Nat), (∀ p ∈ l, n < p.1) → ∀ st cur fs (last : Nat × Str), (st = .startRecord ∨ n < last.1) →
            ∀ x ∈ (readRows pep l st cur fs last).1, n < x.num := by
          intro l n
          induction l with
          | nil =>
            intro _ st cur fs last hs x hx
            unfold readRows at hx
            by_cases h : st = .startRecord
            · simp [h] at hx
            · have hl := hs.resolve_left h
              cases pep <;> simp [h] at hx
              rw [hx]; exact hl
          | cons y l ih' =>
            intro hp st cur fs last hs x hx
            obtain ⟨m, v⟩ := y
            have hm : n < m := hp (m, v) (by simp)
            unfold readRows at hx
            cases hg : lineGo v st cur fs with
            | more a b c =>
              rw [hg] at hx
              exact ih' (fun p hp' => hp p (by simp [hp'])) a b c (m, v) (Or.inr hm) x hx
            | row q =>
              rw [hg] at hx
              rcases List.mem_cons.1 hx with rfl | hx
              · exact hm
              · exact ih' (fun p hp' => hp p (by simp [hp'])) _ _ _ (m, v) (Or.inr hm) x hx
        refine hx0 _ k ?_ _ _ _ _ (Or.inl rfl) x hx
        rintro ⟨m, v⟩ hp
        have := (List.of_mem_zip hp).1
        rw [List.mem_range'_1] at this
        simp only; omega
      refine ⟨List.pairwise_cons.2 ⟨fun x hx => h3 x hx, h1⟩, fun x hx => ?_⟩
      rcases List.mem_cons.1 hx with rfl | hx
      · left; exact Nat.le_refl _
      · left; exact Nat.le_of_lt (h3 x hx)

theorem showNat_injective (m n : Nat) (h : showNat m = showNat n) : m = n := by rw [← readNat_showNat m, h, readNat_showNat]

theorem rowId_num (hash : Str → Str) (base : Str) (a b : Read) (h : rowId hash base a = rowId hash base b) : a.num = b.num := by
  unfold rowId at h
  simp only [List.append_assoc] at h
  have h2 := List.append_cancel_left (List.append_cancel_left h)
  have hdash : ∀ n, '-' ∉ showNat n := by
    intro n hm
    have := showNat_digits n _ hm
    rw [dash_not_dig] at this; cases this
  have : ∀ (x y u v : Str), '-' ∉ x → '-' ∉ y → x ++ '-' :: u = y ++ '-' :: v → x = y := by
    intro x
    induction x with
    | nil =>
      intro y u v _ hy h
      cases y with
      | nil => rfl
      | cons c y => simp only [List.nil_append, List.cons_append, List.cons.injEq] at h; exact absurd (by rw [h.1]; simp) hy
    | cons c x ih =>
      intro y u v hx hy h
      cases y with
      | nil => simp only [List.nil_append, List.cons_append, List.cons.injEq] at h; exact absurd (by rw [h.1]; simp) hx
      | cons d y =>
        simp only [List.cons_append, List.cons.injEq] at h
        rw [h.1, ih y u v (fun hm => hx (by simp [hm])) (fun hm => hy (by simp [hm])) h.2]
  exact showNat_injective _ _ (this _ _ _ _ (hdash _) (hdash _) h2)

theorem dictRows_pairwise (rows : List Read) (h : rows.Pairwise (fun a b => a.num < b.num)) :
    (dictRows rows).Pairwise (fun a b => a.1.num < b.1.num) := by
  cases rows with
  | nil => exact .nil
  | cons hd rows =>
    unfold dictRows
    rw [List.pairwise_map]
    exact List.Pairwise.filter _ (List.pairwise_cons.1 h).2

theorem dictRows_dicts (rows : List Read) : (dictRows rows).map Prod.snd =
    match rows.map Read.fields with
    | [] => []
    | header :: rest => (rest.filter (fun r => r ≠ [])).map (rowDict header) := by
  cases rows with
  | nil => rfl
  | cons h rows =>
    simp only [dictRows, List.map_cons, List.map_map]
    rw [List.filter_map, List.map_map]
    rfl

/-! ## The theorems -/

/-- C68, one grant for each row of the table: the fields of the grants are, in order, those of the rows of the csv file after the header that
are not empty. (Pythons before 3.7.) -/
theorem C68_rows (hash : Str → Str) (base text : Str) :
    (parseFallback false hash base (Lines.lines text)).1.map CGrant.fields =
      match parse text .startRecord [] [] with
      | [] => []
      | header :: rest => (rest.filter (fun r => r ≠ [])).map (rowDict header) := by
  unfold parseFallback numbered
  dsimp only
  rw [List.map_map]
  have : (CGrant.fields ∘ fallbackGrant hash base) = Prod.snd := rfl
  rw [this, dictRows_dicts, readRows_fields text 1 .startRecord [] [] (0, []) (Or.inl rfl)]

/-- C68, the same for CIHR files, whose table begins after three lines. -/
theorem C68_cihr_rows (hash : Str → Str) (base a b c text : Str) (ha : '\n' ∉ a) (hb : '\n' ∉ b) (hc : '\n' ∉ c) :
    (parseCIHR false hash base (Lines.lines (a ++ '\n' :: (b ++ '\n' :: (c ++ '\n' :: text))))).1.map CGrant.fields =
      match parse text .startRecord [] [] with
      | [] => []
      | header :: rest => (rest.filter (fun r => r ≠ [])).map (rowDict header) := by
  rw [Lines.lines_append a _ ha, Lines.lines_append b _ hb, Lines.lines_append c _ hc]
  unfold parseCIHR numbered
  rw [if_neg (by simp)]
  dsimp only
  rw [List.map_map, drop_zip', List.drop_range']
  have : (CGrant.fields ∘ cihrGrant hash base) = Prod.snd := rfl
  rw [this, dictRows_dicts]
  have := readRows_fields text 4 .startRecord [] [] (3, []) (Or.inl rfl)
  simp only [List.length_cons, List.drop_succ_cons, List.drop_zero]
  have hn : (Lines.lines text).length + 1 + 1 + 1 - 3 = (Lines.lines text).length := by omega
  rw [hn]
  rw [this]

/-- C68, later Pythons: the same grants, but for the last if the file ends inside quotes. -/
theorem C68_rows_later (hash : Str → Str) (base : Str) (lines : List Str) :
    (parseFallback true hash base lines).1 = (parseFallback false hash base lines).1 ∨
    ∃ g, (parseFallback false hash base lines).1 = (parseFallback true hash base lines).1 ++ [g] := by
  unfold parseFallback
  dsimp only
  rcases readRows_pep (numbered lines) .startRecord [] [] (0, []) with h | ⟨r, h⟩
  · left; rw [h]
  · rw [h]
    generalize (readRows true (numbered lines) .startRecord [] [] (0, [])).1 = rows
    cases rows with
    | nil => left; simp [dictRows]
    | cons hd rows =>
      simp only [List.cons_append, dictRows, List.filter_append, List.map_append]
      by_cases hr : r.fields = []
      · left; rw [List.filter_cons_of_neg (by simpa using hr)]; simp
      · right; rw [List.filter_cons_of_pos (by simpa using hr)]; exact ⟨_, rfl⟩

/-- C68, identity: different rows of a file have different ids, whatever the hash of their lines. -/
theorem C68_ids (pep : Bool) (hash : Str → Str) (base : Str) (lines : List Str) :
    ((parseFallback pep hash base lines).1.map CGrant.id).Nodup ∧ ((parseCIHR pep hash base lines).1.map CGrant.id).Nodup := by
  have key : ∀ rows : List Read, rows.Pairwise (fun a b => a.num < b.num) → ((dictRows rows).map (fun p => rowId hash base p.1)).Nodup := by
    intro rows h
    rw [List.Nodup, List.pairwise_map]
    refine (dictRows_pairwise rows h).imp (fun hab heq => ?_)
    have := rowId_num hash base _ _ heq
    omega
  constructor
  · unfold parseFallback
    dsimp only
    rw [List.map_map]
    exact key _ (readRows_nums pep lines 1 _ _ _ _ (by simp)).1
  · unfold parseCIHR
    by_cases hl : lines.length < 3
    · rw [if_pos hl]; exact List.nodup_nil
    · rw [if_neg hl]
      dsimp only
      rw [List.map_map]
      have hz : (numbered lines).drop 3 = (List.range' 4 (lines.drop 3).length).zip (lines.drop 3) := by
        unfold numbered
        rw [drop_zip', List.drop_range']
        simp
      rw [hz]
      exact key _ (readRows_nums pep (lines.drop 3) 4 _ _ _ _ (by simp)).1

/-- C68, errors: before Python 3.7 reading a file is no error (a CIHR file has to have three lines); from then on reading any file is one, as
the end of the file reaches the generator as `StopIteration`. -/
theorem C68_error (hash : Str → Str) (base : Str) (lines : List Str) :
    (parseFallback false hash base lines).2 = false ∧ ((parseCIHR false hash base lines).2 = false ↔ 3 ≤ lines.length) ∧
    (parseFallback true hash base lines).2 = true ∧ (parseCIHR true hash base lines).2 = true := by
  unfold parseFallback parseCIHR
  refine ⟨readRows_error .., ?_, readRows_error .., ?_⟩
  · by_cases h : lines.length < 3
    · rw [if_pos h]; simp; omega
    · rw [if_neg h]; simp only [readRows_error, true_iff]; omega
  · by_cases h : lines.length < 3
    · rw [if_pos h]
    · rw [if_neg h]; exact readRows_error ..

/-! ### The fields of a row -/

theorem update_get?_none {κ ν : Type} [DecidableEq κ] (e : Dict κ ν) (k : κ) (hk : k ∉ Dict.keys e) : ∀ d : Dict κ ν, Dict.get? (Dict.update d e) k = Dict.get? d k := by
  induction e with
  | nil => intro d; rfl
  | cons p e ih =>
    intro d
    rw [Dict.update_cons, ih (fun h => hk (by simp [Dict.keys] at h ⊢; exact Or.inr h)), Dict.get?_set_ne]
    intro h; exact hk (by simp [Dict.keys, h])

theorem foldNone_get? (ks : List Str) : ∀ (d : Dict (Option Str) CVal) (k : Option Str),
    Dict.get? (ks.foldl (fun d k => Dict.set d (some k) .none) d) k = if k ∈ ks.map some then some .none else Dict.get? d k := by
  induction ks with
  | nil => intro d k; simp
  | cons a ks ih =>
    intro d k
    rw [List.foldl_cons, ih, Dict.get?_set]
    by_cases h : k ∈ ks.map some
    · rw [if_pos h, if_pos (by simp only [List.map_cons, List.mem_cons]; exact Or.inr h)]
    · rw [if_neg h]
      by_cases h2 : some a = k
      · rw [if_pos h2, if_pos (by simp only [List.map_cons, List.mem_cons]; exact Or.inl h2.symm)]
      · rw [if_neg h2, if_neg (by simp only [List.map_cons, List.mem_cons, not_or]; exact ⟨Ne.symm h2, h⟩)]

/-- C68, values: the columns of a table with distinct headings have the values of the row, `None` if the row is too short; what is too much is
kept together under `None`; there are no other fields. -/
theorem C68_values (header row : List Str) (hh : header.Nodup) :
    (∀ i (hi : i < header.length), Dict.get? (rowDict header row) (some header[i]) = some (match row[i]? with | some v => .str v | none => .none)) ∧
    (∀ k, k ∉ header → Dict.get? (rowDict header row) (some k) = none) ∧
    Dict.get? (rowDict header row) none = if header.length < row.length then some (.rest (row.drop header.length)) else none := by
  have hwf : Dict.WF ((header.zip row).map (fun p => (some p.1, CVal.str p.2))) := by
    unfold Dict.WF Dict.keys
    rw [List.map_map]
    have : (Prod.fst ∘ fun p : Str × Str => (some p.1, CVal.str p.2)) = some ∘ Prod.fst := rfl
    rw [this, ← List.map_map]
    have hsub : ((header.zip row).map Prod.fst).Nodup := (fst_zip_sublist header row).nodup hh
    exact hsub.map (fun _ _ h => Option.some.inj h)
  have hget : ∀ k, Dict.get? (Dict.update [] ((header.zip row).map (fun p => (some p.1, CVal.str p.2)))) k =
      Dict.get? ((header.zip row).map (fun p => (some p.1, CVal.str p.2))) k := by
    intro k; rw [Dict.update_nil_left _ hwf]
  have hnone : Dict.get? ((header.zip row).map (fun p => (some p.1, CVal.str p.2))) none = none := by
    rw [Dict.get?_eq_none_iff]; simp [Dict.keys]
  have hout : ∀ k, k ∉ (header.zip row).map Prod.fst → Dict.get? ((header.zip row).map (fun p => (some p.1, CVal.str p.2))) (some k) = none := by
    intro k hk
    rw [Dict.get?_eq_none_iff]
    intro hm
    apply hk
    simp only [Dict.keys, List.map_map, List.mem_map, Function.comp] at hm ⊢
    obtain ⟨p, hp, he⟩ := hm
    exact ⟨p, hp, Option.some.inj he⟩
  have hin : ∀ i (h1 : i < header.length) (h2 : i < row.length), Dict.get? ((header.zip row).map (fun p => (some p.1, CVal.str p.2))) (some header[i]) = some (.str row[i]) := by
    intro i h1 h2
    apply Dict.get?_of_mem hwf
    rw [List.mem_map]
    refine ⟨(header[i], row[i]), ?_, rfl⟩
    rw [List.mem_iff_getElem]
    exact ⟨i, by simp; omega, by simp⟩
  unfold rowDict
  dsimp only
  by_cases hl : header.length < row.length
  · simp only [hl, if_true]
    refine ⟨fun i hi => ?_, fun k hk => ?_, by simp⟩
    · rw [Dict.get?_set_ne _ _ (by simp), hget, hin i hi (by omega), List.getElem?_eq_getElem (by omega)]
    · rw [Dict.get?_set_ne _ _ (by simp), hget, hout]
      intro hm; exact hk ((fst_zip_sublist header row).subset hm)
  · simp only [hl, if_false]
    refine ⟨fun i hi => ?_, fun k hk => ?_, ?_⟩
    · rw [foldNone_get?, hget]
      by_cases hr : i < row.length
      · rw [if_neg, hin i hi hr, List.getElem?_eq_getElem hr]
        intro hm
        simp only [List.mem_map, Option.some.injEq] at hm
        obtain ⟨x, hx, he⟩ := hm
        rw [List.mem_drop_iff_getElem] at hx
        obtain ⟨j, hj, hx⟩ := hx
        have := (List.Nodup.getElem_inj_iff hh).1 (hx.trans he)
        omega
      · rw [if_pos, List.getElem?_eq_none (by omega)]
        simp only [List.mem_map, Option.some.injEq]
        refine ⟨header[i], ?_, rfl⟩
        rw [List.mem_drop_iff_getElem]
        exact ⟨i - row.length, by omega, by congr 1; omega⟩
    · rw [foldNone_get?, hget, if_neg, hout]
      · intro hm; exact hk ((fst_zip_sublist header row).subset hm)
      · intro hm
        simp only [List.mem_map, Option.some.injEq] at hm
        obtain ⟨x, hx, rfl⟩ := hm
        exact hk (List.mem_of_mem_drop hx)
    · rw [foldNone_get?, hget, if_neg (by simp only [List.mem_map, not_exists, not_and]; intro x _ h; cases h), hnone]

/-- C68, bad grants: a CIHR grant is bad iff the table has no column `PI Names` or the row has the empty text there; a row that is too short
for the column has `None` there and is good. -/
theorem C68_bad (hash : Str → Str) (base : Str) (r : Read) (header : List Str) (hh : header.Nodup) :
    (("PI Names".toList ∉ header → (cihrGrant hash base (r, rowDict header r.fields)).bad = true)) ∧
    (∀ i (hi : i < header.length), header[i] = "PI Names".toList → ((cihrGrant hash base (r, rowDict header r.fields)).bad = true ↔ r.fields[i]? = some [])) := by
  obtain ⟨h1, h2, _⟩ := C68_values header r.fields hh
  unfold cihrGrant
  constructor
  · intro hn
    simp only [h2 _ hn, Option.getD_none, decide_true]
  · intro i hi he
    have := h1 i hi
    rw [he] at this
    simp only [this, Option.getD_some, decide_eq_true_eq]
    cases r.fields[i]? with
    | none => simp
    | some v => simp

/-! ### Telling files apart -/

theorem rowDict_keys (header r : List Str) :
    ∀ k, k ∈ Dict.keys (rowDict header r) ↔ (k ∈ header.map some ∨ k = none ∧ header.length < r.length) := by
  have hz : ∀ (e d : Dict (Option Str) CVal) (k : Option Str), k ∈ Dict.keys (Dict.update d e) ↔ k ∈ Dict.keys d ∨ k ∈ Dict.keys e := by
    intro e
    induction e with
    | nil => intro d k; simp [Dict.keys]
    | cons p e ih =>
      intro d k
      rw [Dict.update_cons, ih, Dict.mem_keys_set]
      simp only [Dict.keys, List.map_cons, List.mem_cons]
      tauto
  have hf : ∀ (ks : List Str) (d : Dict (Option Str) CVal) (k : Option Str),
      k ∈ Dict.keys (ks.foldl (fun d k => Dict.set d (some k) CVal.none) d) ↔ k ∈ Dict.keys d ∨ k ∈ ks.map some := by
    intro ks
    induction ks with
    | nil => intro d k; simp
    | cons a ks ih =>
      intro d k
      rw [List.foldl_cons, ih, Dict.mem_keys_set, List.map_cons, List.mem_cons]
      tauto
  have hk : Dict.keys ((header.zip r).map (fun p => (some p.1, CVal.str p.2))) = (header.take r.length).map some := by
    unfold Dict.keys
    rw [List.map_map]
    have : (Prod.fst ∘ fun p : Str × Str => (some p.1, CVal.str p.2)) = some ∘ Prod.fst := rfl
    rw [this, ← List.map_map]
    congr 1
    exact fst_zip _ _
  intro k
  unfold rowDict
  dsimp only
  by_cases hl : header.length < r.length
  · rw [if_pos hl, Dict.mem_keys_set, hz, hk, List.take_of_length_le (by omega)]
    simp [Dict.keys, hl, or_comm]
  · rw [if_neg hl, hf, hz, hk]
    have : header.map some = (header.take r.length).map some ++ (header.drop r.length).map some := by
      rw [← List.map_append, List.take_append_drop]
    rw [this, List.mem_append]
    simp [Dict.keys, hl]

theorem rowDict_keys_fit (header r : List Str) :
    ((Dict.keys (rowDict header r)).all (fun k => k ∈ header.map some) && (header.map some).all (fun k => k ∈ Dict.keys (rowDict header r))) = true ↔
      r.length ≤ header.length := by
  have hmem := rowDict_keys header r
  rw [Bool.and_eq_true, List.all_eq_true, List.all_eq_true]
  constructor
  · rintro ⟨h1, _⟩
    by_contra hlt
    have := h1 none ((hmem none).2 (Or.inr ⟨rfl, by omega⟩))
    simp at this
  · intro hle
    constructor
    · intro k hk
      rcases (hmem k).1 hk with h | ⟨_, h⟩
      · exact decide_eq_true h
      · omega
    · intro k hk
      exact decide_eq_true ((hmem k).2 (Or.inl hk))

theorem rowsFit_iff (rows : List (List Str)) : rowsFit rows = true ↔
    ∃ header rest, rows = header :: rest ∧ (∃ r ∈ rest, r ≠ []) ∧ ∀ r ∈ rest, r.length ≤ header.length := by
  cases rows with
  | nil => simp [rowsFit]
  | cons header rest =>
    have hu : rowsFit (header :: rest) = ((rest.filter (fun r => r ≠ [])).all (fun r => ((Dict.keys (rowDict header r)).all (fun k => k ∈ header.map some) &&
        (header.map some).all (fun k => k ∈ Dict.keys (rowDict header r)))) && decide ((rest.filter (fun r => r ≠ [])).length ≥ 1)) := rfl
    rw [hu, Bool.and_eq_true, List.all_eq_true, decide_eq_true_eq]
    constructor
    · rintro ⟨h1, h2⟩
      refine ⟨header, rest, rfl, ?_, fun r hr => ?_⟩
      · obtain ⟨r, hr⟩ := List.exists_mem_of_length_pos h2
        rw [List.mem_filter] at hr
        exact ⟨r, hr.1, of_decide_eq_true hr.2⟩
      · by_cases hne : r = []
        · subst hne; simp
        · exact (rowDict_keys_fit header r).1 (h1 r (List.mem_filter.2 ⟨hr, decide_eq_true hne⟩))
    · rintro ⟨hd, rs, heq, ⟨r, hr, hne⟩, h2⟩
      cases heq
      refine ⟨fun x hx => (rowDict_keys_fit header x).2 (h2 x (List.mem_filter.1 hx).1), ?_⟩
      exact List.length_pos_of_mem (List.mem_filter.2 ⟨hr, decide_eq_true hne⟩)

/-- C68, which files are taken for NSERC files: the name starts with `NSERC_`, there is a header and a row, and no row is longer than the
header. -/
theorem C68_nserc_file (base text : Str) : isNserc base text = true ↔
    "NSERC_".toList <+: base ∧ ∃ header rest, Csv.read text = header :: rest ∧ (∃ r ∈ rest, r ≠ []) ∧ ∀ r ∈ rest, r.length ≤ header.length := by
  unfold isNserc
  rw [Bool.and_eq_true, List.isPrefixOf_iff_prefix, rowsFit_iff]

/-- C68, which files are taken for CIHR files: the name starts with `cihr_`, the first line with `Search Criteria`, the next two end with nine commas, and what
follows is a table with a column `PI Names`, or one without rows. -/
theorem C68_cihr_file (base : Str) (lines : List Str) : isCIHR base lines = true ↔
    "cihr_".toList <+: base ∧ (∃ a b c rest, lines = a :: b :: c :: rest ∧ "Search Criteria".toList <+: a ∧ ",,,,,,,,,\n".toList <:+ b ∧ ",,,,,,,,,\n".toList <:+ c ∧
      ∀ header rows, Csv.read rest.flatten = header :: rows → (∃ r ∈ rows, r ≠ []) → "PI Names".toList ∈ header) := by
  have hrows : ∀ rest : List Str, cihrRows (Csv.read rest.flatten) = true ↔
      ∀ header rows, Csv.read rest.flatten = header :: rows → (∃ r ∈ rows, r ≠ []) → "PI Names".toList ∈ header := by
    intro rest
    cases hc : Csv.read rest.flatten with
    | nil => simp [cihrRows]
    | cons header rows =>
      unfold cihrRows
      rw [List.all_eq_true]
      constructor
      · rintro h _ _ ⟨⟩ ⟨r, hr, hne⟩
        have := of_decide_eq_true (h r (List.mem_filter.2 ⟨hr, decide_eq_true hne⟩))
        rw [rowDict_keys] at this
        rcases this with this | ⟨this, -⟩
        · obtain ⟨k, hk, e⟩ := List.mem_map.1 this
          rw [← Option.some.inj e]; exact hk
        · cases this
      · intro h r hr
        rw [List.mem_filter] at hr
        apply decide_eq_true
        rw [rowDict_keys]
        exact .inl (List.mem_map.2 ⟨_, h header rows rfl ⟨r, hr.1, of_decide_eq_true hr.2⟩, rfl⟩)
  unfold isCIHR
  rw [Bool.and_eq_true, List.isPrefixOf_iff_prefix]
  refine and_congr_right (fun _ => ?_)
  match lines with
  | [] => simp
  | [a] => simp
  | [a, b] => simp
  | a :: b :: c :: rest =>
    dsimp only [List.getElem?_cons_zero, List.getElem?_cons_succ, Option.getD_some, List.drop_succ_cons, List.drop_zero]
    rw [Bool.and_eq_true, Bool.and_eq_true, Bool.and_eq_true, List.isPrefixOf_iff_prefix, List.isSuffixOf_iff_suffix, List.isSuffixOf_iff_suffix, hrows]
    constructor
    · rintro ⟨⟨⟨h1, h2⟩, h3⟩, h4⟩
      exact ⟨a, b, c, rest, rfl, h1, h2, h3, h4⟩
    · rintro ⟨_, _, _, _, e, h1, h2, h3, h4⟩
      injection e with e1 e
      injection e with e2 e
      injection e with e3 e4
      subst e1 e2 e3 e4
      exact ⟨⟨⟨h1, h2⟩, h3⟩, h4⟩

example : isCIHR "cihr_2015.csv".toList (Lines.lines "Search Criteria:\nx,,,,,,,,,\n,,,,,,,,,\nPI Names,Amount\nLee,10\n".toList) = true ∧
    isCIHR "cihr_2015.csv".toList (Lines.lines "Search Criteria:\nx,,,,,,,,,\n,,,,,,,,,\nNames,Amount\nLee,10\n".toList) = false := by decide +kernel

/-- C68, which files are taken for tables of grants: the name ends with `csv`, there is a header that does not have all of the columns named, which only Scopus files have, there
is a row, and no row is longer than the header. -/
theorem C68_fallback_file (name text : Str) : isFallback name text = true ↔
    "csv".toList <:+ name ∧ ∃ header rest, Csv.read text = header :: rest ∧ (∃ c ∈ ["Conference location", "Conference code", "ISSN",
        "ISBN", "CODEN", "PubMed ID", "Language of Original Document", "Abbreviated Source Title", "Document Type", "Source", "EID"], c.toList ∉ header) ∧
      (∃ r ∈ rest, r ≠ []) ∧ ∀ r ∈ rest, r.length ≤ header.length := by
  have hcols : ∀ header : List Str, (∃ c ∈ ["Conference location", "Conference code", "ISSN",
        "ISBN", "CODEN", "PubMed ID", "Language of Original Document", "Abbreviated Source Title", "Document Type", "Source", "EID"], c.toList ∉ header) ↔
      ∃ c ∈ scopusColumns, c ∉ header := by
    intro header
    unfold scopusColumns
    constructor
    · rintro ⟨c, hc, hn⟩; exact ⟨_, List.mem_map_of_mem hc, hn⟩
    · rintro ⟨c, hc, hn⟩
      obtain ⟨x, hx, rfl⟩ := List.mem_map.1 hc
      exact ⟨x, hx, hn⟩
  simp only [hcols]
  unfold isFallback
  rw [Bool.and_eq_true, List.isSuffixOf_iff_suffix]
  refine and_congr_right (fun _ => ?_)
  cases Csv.read text with
  | nil => simp
  | cons header rest =>
    dsimp only
    rw [Bool.and_eq_true, rowsFit_iff, Bool.not_eq_true', ← Bool.not_eq_true, List.all_eq_true]
    constructor
    · rintro ⟨h1, hd, rs, heq, h2, h3⟩
      cases heq
      refine ⟨header, rest, rfl, ?_, h2, h3⟩
      by_contra hc
      exact h1 (fun c hc' => decide_eq_true (by by_contra hn; exact hc ⟨c, hc', hn⟩))
    · rintro ⟨hd, rs, heq, ⟨c, hc, hn⟩, h2, h3⟩
      cases heq
      exact ⟨fun h => hn (of_decide_eq_true (h c hc)), header, rest, rfl, h2, h3⟩

/-! ## The set of the grants -/

/-- Two grants count as one: both are bad and their values have the same text. -/
def Twins (showVals : List CVal → Str) (g h : CGrant) : Prop :=
  g.bad = true ∧ h.bad = true ∧ showVals (g.fields.map Prod.snd) = showVals (h.fields.map Prod.snd)

theorem hashed_eq {showVals : List CVal → Str} {g h : CGrant} (hid : g.id = h.id → g = h)
    (hgb : g.bad = true → h.bad = false → hashed showVals g ≠ h.id) (hbg : g.bad = false → h.bad = true → g.id ≠ hashed showVals h)
    (he : hashed showVals g = hashed showVals h) : g = h ∨ Twins showVals g h := by
  cases hg : g.bad <;> cases hh : h.bad
  · left; apply hid; simpa [hashed, hg, hh] using he
  · exact absurd (by rw [← he]; simp [hashed, hg]) (hbg hg hh)
  · exact absurd (by rw [he]; simp [hashed, hh]) (hgb hg hh)
  · right
    refine ⟨hg, hh, ?_⟩
    simp only [hashed, hg, hh, if_true] at he
    exact List.append_cancel_right he

theorem twins_hashed {showVals : List CVal → Str} {g h : CGrant} (ht : Twins showVals g h) : hashed showVals g = hashed showVals h := by
  obtain ⟨hg, hh, hv⟩ := ht
  simp [hashed, hg, hh, hv]

theorem grantSet_fold (hs : Str → Int) (showVals : List CVal → Str) (L : List CGrant) :
    ∀ S : List CGrant, (∀ g ∈ S ++ L, ∀ h ∈ S ++ L, hs (hashed showVals g) = hs (hashed showVals h) → g = h ∨ Twins showVals g h) → (S ++ L).Nodup →
      S.Pairwise (fun g h => ¬ Twins showVals g h) →
      ∃ T, L.foldl (addGrant hs showVals) S = S ++ T ∧ T.Sublist L ∧ (∀ g ∈ L, g.bad = false → g ∈ T) ∧
        (∀ g ∈ L, g.bad = true → ∃ h ∈ S ++ T, Twins showVals g h) ∧ (S ++ T).Pairwise (fun g h => ¬ Twins showVals g h) := by
  induction L with
  | nil => intro S _ _ hp; exact ⟨[], by simp, List.Sublist.refl _, by simp, by simp, by simpa using hp⟩
  | cons g L ih =>
    intro S hinj hnd hp
    rw [List.foldl_cons]
    by_cases hany : S.any (fun x => hs (hashed showVals x) == hs (hashed showVals g)) = true
    · have ha : addGrant hs showVals S g = S := by unfold addGrant; rw [if_pos hany]
      rw [ha]
      obtain ⟨T, h1, h2, h3, h4, h5⟩ := ih S
        (fun a haa b hbb => hinj a (by simp only [List.mem_append, List.mem_cons] at haa ⊢; tauto) b (by simp only [List.mem_append, List.mem_cons] at hbb ⊢; tauto))
        ((List.Sublist.append (List.Sublist.refl S) (List.sublist_cons_self g L)).nodup hnd) hp
      obtain ⟨x, hx, hxe⟩ := List.any_eq_true.1 hany
      have hxe : hs (hashed showVals x) = hs (hashed showVals g) := by simpa using hxe
      have hxg : Twins showVals x g := by
        rcases hinj x (by simp [hx]) g (by simp) hxe with h | h
        · subst h
          exact absurd hx (fun hx => (List.nodup_append.1 hnd).2.2 x hx x (by simp) rfl)
        · exact h
      refine ⟨T, h1, h2.trans (List.sublist_cons_self g L), ?_, ?_, h5⟩
      · intro a haa hb
        rcases List.mem_cons.1 haa with rfl | haa
        · rw [hxg.2.1] at hb; exact absurd hb (by simp)
        · exact h3 a haa hb
      · intro a haa hb
        rcases List.mem_cons.1 haa with rfl | haa
        · exact ⟨x, by simp [hx], hxg.2.1, hxg.1, hxg.2.2.symm⟩
        · exact h4 a haa hb
    · have ha : addGrant hs showVals S g = S ++ [g] := by unfold addGrant; rw [if_neg hany]
      rw [ha]
      have hassoc : (S ++ [g]) ++ L = S ++ g :: L := by simp
      obtain ⟨T, h1, h2, h3, h4, h5⟩ := ih (S ++ [g]) (by rw [hassoc]; exact hinj) (by rw [hassoc]; exact hnd) (by
        rw [List.pairwise_append]
        refine ⟨hp, by simp, fun x hx y hy => ?_⟩
        rw [List.mem_singleton] at hy
        subst hy
        intro ht
        exact hany (List.any_eq_true.2 ⟨x, hx, by simp [twins_hashed ht]⟩))
      refine ⟨g :: T, by rw [h1]; simp, h2.cons_cons g, ?_, ?_, by simpa using h5⟩
      · intro a haa hb
        rcases List.mem_cons.1 haa with rfl | haa
        · simp
        · exact List.mem_cons_of_mem _ (h3 a haa hb)
      · intro a haa hb
        rcases List.mem_cons.1 haa with rfl | haa
        · exact ⟨a, by simp, hb, hb, rfl⟩
        · obtain ⟨h, hh, ht⟩ := h4 a haa hb
          exact ⟨h, by simpa using hh, ht⟩

/-- The grants of one file whose hashes do not collide: only grants with the same hashed text have the same hash. -/
def NoCollision (hs : Str → Int) (showVals : List CVal → Str) (L : List CGrant) : Prop :=
  ∀ g ∈ L, ∀ h ∈ L, hs (hashed showVals g) = hs (hashed showVals h) → hashed showVals g = hashed showVals h

theorem fallback_good (pep : Bool) (hash : Str → Str) (base : Str) (lines : List Str) : ∀ g ∈ (parseFallback pep hash base lines).1, g.bad = false := by
  intro g hg
  unfold parseFallback at hg
  obtain ⟨p, _, rfl⟩ := List.mem_map.1 hg
  rfl

/-- C68, none is lost in the set of the grants of a table, unless hashes collide. -/
theorem C68_fallback_set (hs : Str → Int) (showVals : List CVal → Str) (pep : Bool) (hash : Str → Str) (base : Str) (lines : List Str)
    (hc : NoCollision hs showVals (parseFallback pep hash base lines).1) :
    grantSet hs showVals (parseFallback pep hash base lines).1 = (parseFallback pep hash base lines).1 := by
  have hb := fallback_good pep hash base lines
  have hid := (C68_ids pep hash base lines).1
  generalize (parseFallback pep hash base lines).1 = L at *
  have hinj : ∀ g ∈ L, ∀ h ∈ L, g.id = h.id → g = h := fun g hg h hh => List.inj_on_of_nodup_map hid hg hh
  obtain ⟨T, h1, h2, h3, _⟩ := grantSet_fold hs showVals L [] (by
    intro g hg h hh he
    left
    apply hinj g hg h hh
    have := hc g hg h hh he
    simpa [hashed, hb g hg, hb h hh] using this) (by simpa using List.Nodup.of_map _ hid) (by simp)
  unfold grantSet
  rw [h1, List.nil_append]
  apply h2.eq_of_length_le
  exact (List.subperm_of_subset (List.Nodup.of_map _ hid) (fun g hg => h3 g hg (hb g hg))).length_le

/-- C68 for the set of the grants of a CIHR file: all good grants are in it, but of the bad ones with the same values only one. The hash of the line ends
with a digit, and so not with the mark that ends the message. -/
theorem C68_cihr_set_partial (hs : Str → Int) (showVals : List CVal → Str) (pep : Bool) (hash : Str → Str) (base : Str) (lines : List Str)
    (hd : ∀ l, ∃ c, (hash l).getLast? = some c ∧ c ≠ '\'')
    (hc : NoCollision hs showVals (parseCIHR pep hash base lines).1) :
    let L := (parseCIHR pep hash base lines).1
    let S := grantSet hs showVals L
    S.Sublist L ∧ (∀ g ∈ L, g.bad = false → g ∈ S) ∧ (∀ g ∈ L, g.bad = true → ∃ h ∈ S, Twins showVals g h) ∧ S.Pairwise (fun g h => ¬ Twins showVals g h) := by
  have hid := (C68_ids pep hash base lines).2
  have hlast : ∀ g ∈ (parseCIHR pep hash base lines).1, ∃ c, g.id.getLast? = some c ∧ c ≠ '\'' := by
    intro g hg
    unfold parseCIHR at hg
    by_cases hl : lines.length < 3
    · rw [if_pos hl] at hg; simp at hg
    · rw [if_neg hl] at hg
      obtain ⟨p, _, rfl⟩ := List.mem_map.1 hg
      obtain ⟨c, hc1, hc2⟩ := hd p.1.line
      refine ⟨c, ?_, hc2⟩
      show (rowId hash base p.1).getLast? = some c
      unfold rowId
      rw [List.getLast?_append, hc1]
      rfl
  generalize (parseCIHR pep hash base lines).1 = L at *
  have hbadlast : ∀ g : CGrant, g.bad = true → (hashed showVals g).getLast? = some '\'' := by
    intro g hg
    simp only [hashed, hg, if_true]
    rw [List.getLast?_append]
    rfl
  have hinj : ∀ g ∈ L, ∀ h ∈ L, g.id = h.id → g = h := fun g hg h hh => List.inj_on_of_nodup_map hid hg hh
  have hne : ∀ g : CGrant, ∀ h ∈ L, g.bad = true → hashed showVals g ≠ h.id := by
    intro g h hh hgb he
    obtain ⟨c, h1, h2⟩ := hlast h hh
    rw [← he, hbadlast g hgb] at h1
    exact h2 (Option.some.inj h1).symm
  obtain ⟨T, h1, h2, h3, h4, h5⟩ := grantSet_fold hs showVals L [] (by
    intro g hg h hh he
    exact hashed_eq (hinj g hg h hh) (fun hgb _ => hne g h hh hgb) (fun _ hhb => (hne h g hg hhb).symm) (hc g hg h hh he))
    (by simpa using List.Nodup.of_map _ hid) (by simp)
  rw [List.nil_append] at h1 h4 h5
  dsimp only
  unfold grantSet
  rw [h1]
  exact ⟨h2, h3, h4, h5⟩

/-- C68 fails for the bad grants of a CIHR file: a row without names that is there again later in the file is lost, whatever the hash. -/
theorem C68_twin_lost (hs : Str → Int) (showVals : List CVal → Str) (L M N : List CGrant) (g h : CGrant) (hg : g.bad = true) (hh : h.bad = true)
    (hv : g.fields = h.fields) : grantSet hs showVals (L ++ g :: M ++ h :: N) = grantSet hs showVals (L ++ g :: M ++ N) := by
  have hmono : ∀ (l : List CGrant) (S : List CGrant) (x : CGrant), x ∈ S → x ∈ l.foldl (addGrant hs showVals) S := by
    intro l
    induction l with
    | nil => intro S x hx; exact hx
    | cons a l ih =>
      intro S x hx
      rw [List.foldl_cons]
      apply ih
      unfold addGrant
      split
      · exact hx
      · exact List.mem_append_left _ hx
  have hin : ∃ x ∈ (L ++ g :: M).foldl (addGrant hs showVals) [], hs (hashed showVals x) = hs (hashed showVals g) := by
    rw [List.foldl_append, List.foldl_cons]
    generalize L.foldl (addGrant hs showVals) [] = S
    by_cases ha : S.any (fun x => hs (hashed showVals x) == hs (hashed showVals g)) = true
    · obtain ⟨x, hx, hxe⟩ := List.any_eq_true.1 ha
      exact ⟨x, hmono M _ x (by unfold addGrant; rw [if_pos ha]; exact hx), by simpa using hxe⟩
    · exact ⟨g, hmono M _ g (by unfold addGrant; rw [if_neg ha]; simp), rfl⟩
  obtain ⟨x, hx, hxe⟩ := hin
  have ht : hashed showVals g = hashed showVals h := twins_hashed ⟨hg, hh, by rw [hv]⟩
  have hany : ((L ++ g :: M).foldl (addGrant hs showVals) []).any (fun x => hs (hashed showVals x) == hs (hashed showVals h)) = true :=
    List.any_eq_true.2 ⟨x, hx, by rw [beq_iff_eq, hxe, ht]⟩
  unfold grantSet
  generalize L ++ g :: M = K at *
  rw [List.foldl_append, List.foldl_cons, List.foldl_append]
  have hstep : addGrant hs showVals (K.foldl (addGrant hs showVals) []) h = K.foldl (addGrant hs showVals) [] := if_pos hany
  rw [hstep]

/-- C68 fails for ids over runs of Python: the hash of a string is different in every run, and so are the ids. -/
theorem C68_id_changes (hash hash' : Str → Str) (base : Str) (r : Read) (h : hash r.line ≠ hash' r.line) : rowId hash base r ≠ rowId hash' base r := by
  unfold rowId
  intro he
  exact h (List.append_cancel_left he)

/-! ## Examples -/

private def exText : Str := "PI Names,Amount\nLee,10\n\n\"Yu\nBo\",20\n,5\n".toList

example : (parseFallback false (fun _ => "h".toList) "f.csv".toList (Lines.lines exText)).1.map (fun g => (g.id, g.original, g.fields)) =
    [("f.csv-l:2-h".toList, "Lee,10\n".toList, [(some "PI Names".toList, .str "Lee".toList), (some "Amount".toList, .str "10".toList)]),
     ("f.csv-l:5-h".toList, "Bo\",20\n".toList, [(some "PI Names".toList, .str "Yu\nBo".toList), (some "Amount".toList, .str "20".toList)]),
     ("f.csv-l:6-h".toList, ",5\n".toList, [(some "PI Names".toList, .str []), (some "Amount".toList, .str "5".toList)])] := by decide +kernel
example : isNserc "NSERC_1".toList exText = true ∧ isFallback "a.csv".toList exText = true := by decide +kernel
private def exShow (l : List CVal) : Str := l.flatMap (fun v => match v with | .str s => s ++ ",".toList | _ => "None,".toList)
private def exHash (s : Str) : Int := s.foldl (fun n c => n * 1000 + c.toNat) 0
private def exCihr : Str := "Search Criteria\n,,\n,,\nPI Names,Amount\nLee,10\n,5\n,5\nLee,10\n,6\n".toList
/-- Nine lines and five rows, of which the third is lost; the fourth, which is the first again, is not. -/
example : (grantSet exHash exShow (parseCIHR false (fun _ => "7".toList) "cihr_1.csv".toList (Lines.lines exCihr)).1).map (fun g => (g.id, g.bad)) =
    [("cihr_1.csv-l:5-7".toList, false), ("cihr_1.csv-l:6-7".toList, true), ("cihr_1.csv-l:8-7".toList, false), ("cihr_1.csv-l:9-7".toList, true)] := by
  decide +kernel
/-- The hypotheses of `C68_cihr_set_partial` hold for it. -/
example : (∀ l : Str, ∃ c, ((fun _ => "7".toList) l : Str).getLast? = some c ∧ c ≠ '\'') ∧
    NoCollision exHash exShow (parseCIHR false (fun _ => "7".toList) "cihr_1.csv".toList (Lines.lines exCihr)).1 := by
  refine ⟨fun _ => ⟨'7', rfl, by decide⟩, ?_⟩
  unfold NoCollision
  decide +kernel
/-- A row that is too short for the names is good. -/
example : (cihrGrant (fun _ => []) [] (⟨5, [], ["x".toList]⟩, rowDict ["A".toList, "PI Names".toList] ["x".toList])).bad = false := by decide +kernel
/-- The last row is lost by later Pythons. -/
example : (parseFallback true (fun _ => []) [] (Lines.lines "a\n\"b".toList)).1.length = 0 ∧ (parseFallback false (fun _ => []) [] (Lines.lines "a\n\"b".toList)).1.length = 1 := by
  decide +kernel

end Verif.Props.CsvGrants
