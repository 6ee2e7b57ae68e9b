import Verif.Props.Wos

/-! # C31: what becomes of damaged records, in general -/
set_option autoImplicit false
set_option linter.unusedSectionVars false
set_option linter.unusedSimpArgs false
namespace Verif.Props.WosDamage
open Verif.Py Verif.Model.Wos Verif.Props.WosFiles
open Verif.Spec.Wos (FieldOk FieldsOk recordLines EndLine)

/-- A file of good records with some lines in between that give one bad record. -/
theorem middle (ws : Char → Bool) (hws : ws '\n' = true) (hE : ws 'E' = false) (rs rs' : List Rec) (hg : ∀ r ∈ rs ++ rs', Good ws r)
    (hd : Distinct (rs ++ rs')) (mid : List Str) (hc : Lines.Complete mid) (hcr : '\r' ∉ mid.flatten) (b : Rec) (hb : b.bad = true)
    (hrun : ∀ rest, run ws (mid ++ rest) rs = run ws rest (rs ++ [b])) :
    wosParser ws (header ++ body rs ++ mid.flatten ++ body rs' ++ "EF".toList) = some ⟨rs ++ [b] ++ rs', none, false⟩ := by
  have hg1 : ∀ r ∈ rs, Good ws r := fun r hr => hg r (by simp [hr])
  have hg2 : ∀ r ∈ rs', Good ws r := fun r hr => hg r (by simp [hr])
  have hd' := hd
  simp only [Distinct, List.map_append, List.nodup_append] at hd'
  have e : header ++ body rs ++ mid.flatten ++ body rs' ++ "EF".toList =
      header ++ (rs.flatMap chunk ++ mid ++ rs'.flatMap chunk).flatten ++ "EF".toList := by
    simp [body, List.flatten_append]
  rw [e, parse_header ws _ ?_ ?_, List.append_assoc, List.append_assoc,
    run_chunks ws hws rs hg1 [] (by simp) (by simpa [Distinct] using hd'.1), List.nil_append, hrun,
    run_chunks_bad ws hws rs' hg2 _ ?_ hd'.2.1]
  · have : Lines.fileLines "EF".toList = ["EF".toList] := by decide
    rw [this, run_cons, if_neg (by rw [isSpace_false ws _ 'E' (by decide) hE]; simp), if_pos (by decide)]
    rfl
  · intro s hs
    rcases List.mem_append.1 hs with hs | hs
    · exact .inr ⟨(hg1 s hs).notBad, fun r hr => hd'.2.2 _ (List.mem_map_of_mem hs) _ (List.mem_map_of_mem hr)⟩
    · simp at hs
      subst hs
      exact .inl hb
  · intro l hl
    rcases List.mem_append.1 hl with hl | hl
    · rcases List.mem_append.1 hl with hl | hl
      · exact flatMap_chunk_complete rs hg1 l hl
      · exact hc l hl
    · exact flatMap_chunk_complete rs' hg2 l hl
  · have h1 := body_noCR rs hg1
    have h2 := body_noCR rs' hg2
    unfold body at h1 h2
    simp only [List.flatten_append, List.mem_append, not_or]
    exact ⟨⟨h1, hcr⟩, h2⟩

theorem addRec_bad {ws : Char → Bool} (rs : List Rec) (hg : ∀ r ∈ rs, Good ws r) (b : Rec) (hb : b.bad = true) : addRec rs b = rs ++ [b] := by
  unfold addRec
  rw [if_neg]
  intro hc
  rw [List.any_eq_true] at hc
  obtain ⟨s, hs, hk⟩ := hc
  simp [Rec.key, (hg s hs).notBad, hb] at hk

/-- The first line of the fields of a record. -/
theorem first_line (ws : Char → Bool) (fs : Fields) (hne : fs ≠ []) (hok : ∀ f ∈ fs, FieldOk f)
    (hfirst : ∀ f, fs.head? = some f → f.1 ≠ "EF".toList ∧ ∃ c ∈ f.1, ws c = false) :
    ∃ l ls, recordLines fs = l :: ls ∧ isSpace ws l = false ∧ l.take 2 ≠ ['E', 'F'] := by
  cases fs with
  | nil => exact absurd rfl hne
  | cons f fs =>
    have hf := hok f (by simp)
    obtain ⟨h3, c, h4, h5⟩ := hfirst f rfl
    rw [recordLines_eq, List.flatMap_cons]
    obtain ⟨t, vs⟩ := f
    match vs, hf with
    | [], hf => exact absurd rfl hf.ne
    | v :: vs', hf =>
      refine ⟨t ++ ' ' :: v ++ ['\n'], _, by simp [Model.Wos.fieldLines]; rfl, isSpace_false ws _ c (by simp [h4]) h5, ?_⟩
      have hl : t.length = 2 := hf.tagLen
      rw [List.append_assoc, List.take_append_of_le_length (by omega), List.take_of_length_le (by omega)]
      simpa using h3

/-- C31: a record broken off by a line of fewer than two characters, such as an empty one in place of the `ER` line, is returned as a bad
record without fields. What follows the short line is read by itself: if it is good records, all of them are returned. So a
short line in the middle of a record makes two records of it, and a missing `ER` line costs the record it is missing from only. -/
theorem C31_short_line (ws : Char → Bool) (hws : ws '\n' = true) (hE : ws 'E' = false) (rs rs' : List Rec) (hg : ∀ r ∈ rs ++ rs', Good ws r)
    (hd : Distinct (rs ++ rs')) (fs : Fields) (hne : fs ≠ []) (hok : ∀ f ∈ fs, FieldOk f)
    (hcr : ∀ f ∈ fs, '\r' ∉ f.1 ∧ ∀ v ∈ f.2, '\r' ∉ v) (hfirst : ∀ f, fs.head? = some f → f.1 ≠ "EF".toList ∧ ∃ c ∈ f.1, ws c = false)
    (short : Str) (hs : short.length < 2) (hs' : '\n' ∉ short ∧ '\r' ∉ short) :
    wosParser ws (header ++ body rs ++ ((recordLines fs).flatten ++ short ++ "\n".toList) ++ body rs' ++ "EF".toList) =
      some ⟨rs ++ [⟨[], "WOS:Missing".toList, true⟩] ++ rs', none, false⟩ := by
  have hg1 : ∀ r ∈ rs, Good ws r := fun r hr => hg r (by simp [hr])
  have e : (recordLines fs).flatten ++ short ++ "\n".toList = (recordLines fs ++ [short ++ "\n".toList]).flatten := by
    simp [List.flatten_append]
  rw [e]
  apply middle ws hws hE rs rs' hg hd _ ?_ ?_ ⟨[], "WOS:Missing".toList, true⟩ rfl
  · intro rest
    have hp : recordParser [] (recordLines fs ++ [short ++ "\n".toList] ++ rest) = (.error .badRecord, rest) := by
      rw [List.append_assoc, recordLines_eq, parse_fields [] fs hok, List.singleton_append, recordParser.eq_def]
      dsimp only
      rw [if_pos (by simp; omega)]
    obtain ⟨l, ls, h1, h2, h3⟩ := first_line ws fs hne hok hfirst
    rw [h1, List.cons_append, List.cons_append] at hp ⊢
    rw [run_cons, if_neg (by rw [h2]; simp), if_neg h3, hp]
    simp only [mkRec]
    rw [show missingId = "WOS:Missing".toList from rfl, addRec_bad rs hg1 _ rfl]
  · intro l hl
    rcases List.mem_append.1 hl with hl | hl
    · exact recordLines_complete _ hok l hl
    · simp only [List.mem_singleton] at hl
      subst hl
      exact ⟨short, rfl, hs'.1⟩
  · rw [List.flatten_append, List.mem_append, not_or]
    exact ⟨recordLines_noCR fs hcr, by simp [hs'.2]⟩

/-- C31, the failure: without its `ER` line and the empty line after it, a record runs into the next one. The two then have a tag twice, so
in place of both there is one bad record. -/
theorem C31_records_run_together (ws : Char → Bool) (hws : ws '\n' = true) (hE : ws 'E' = false) (rs rs' : List Rec) (a b : Rec)
    (hg : ∀ r ∈ rs ++ a :: b :: rs', Good ws r) (hd : Distinct (rs ++ rs')) :
    wosParser ws (header ++ body rs ++ (recordLines a.fields).flatten ++ body (b :: rs') ++ "EF".toList) =
      some ⟨rs ++ [⟨[], "WOS:Missing".toList, true⟩] ++ rs', none, false⟩ := by
  have ha := hg a (by simp)
  have hb := hg b (by simp)
  obtain ⟨va, hva⟩ := ha.ut
  obtain ⟨vb, hvb⟩ := hb.ut
  have key := C31_repeated_tag ws hws hE rs rs' (fun r hr => hg r (by
      rcases List.mem_append.1 hr with h | h
      · simp [h]
      · simp [h])) hd (a.fields ++ b.fields)
    (fun f hf => by
      rcases List.mem_append.1 hf with h | h
      · exact ha.fields.ok f h
      · exact hb.fields.ok f h)
    (fun f hf => by
      rcases List.mem_append.1 hf with h | h
      · exact ha.noCR f h
      · exact hb.noCR f h)
    (by
      intro hn
      rw [List.map_append, List.nodup_append] at hn
      have h1 : "UT".toList ∈ a.fields.map Prod.fst := (Dict.mem_keys_iff _ _).2 (by rw [hva]; rfl)
      have h2 : "UT".toList ∈ b.fields.map Prod.fst := (Dict.mem_keys_iff _ _).2 (by rw [hvb]; rfl)
      exact hn.2.2 _ h1 _ h2 rfl)
    (by
      intro f hf
      apply ha.first f
      cases hfa : a.fields with
      | nil => rw [hfa] at hva; simp [Dict.get?] at hva
      | cons x l => rw [hfa] at hf; simpa using hf)
  rw [← key]
  congr 1
  simp [body, chunk, recordLines, List.flatMap_append, List.flatten_append]

/-- C31: a record without an accession number is returned as a bad one, with its fields, and the other records are read as if it was not
there. -/
theorem C31_no_id (ws : Char → Bool) (hws : ws '\n' = true) (hE : ws 'E' = false) (rs rs' : List Rec) (hg : ∀ r ∈ rs ++ rs', Good ws r)
    (hd : Distinct (rs ++ rs')) (fs : Fields) (hne : fs ≠ []) (hok : FieldsOk fs)
    (hcr : ∀ f ∈ fs, '\r' ∉ f.1 ∧ ∀ v ∈ f.2, '\r' ∉ v) (hfirst : ∀ f, fs.head? = some f → f.1 ≠ "EF".toList ∧ ∃ c ∈ f.1, ws c = false)
    (hid : Dict.get? fs "UT".toList = none) :
    wosParser ws (header ++ body rs ++ ((recordLines fs).flatten ++ "ER\n\n".toList) ++ body rs' ++ "EF".toList) =
      some ⟨rs ++ [⟨fs, "WOS:Missing".toList, true⟩] ++ rs', none, false⟩ := by
  have hg1 : ∀ r ∈ rs, Good ws r := fun r hr => hg r (by simp [hr])
  have e : (recordLines fs).flatten ++ "ER\n\n".toList = (recordLines fs ++ ["ER\n".toList, "\n".toList]).flatten := by
    simp [List.flatten_append]
  rw [e]
  apply middle ws hws hE rs rs' hg hd _ ?_ ?_ ⟨fs, "WOS:Missing".toList, true⟩ rfl
  · intro rest
    have hp : recordParser [] (recordLines fs ++ ["ER\n".toList, "\n".toList] ++ rest) = (.ok fs, "\n".toList :: rest) := by
      rw [List.append_assoc, recordLines_eq, parse_fields [] fs hok.ok]
      simp only [List.cons_append, List.nil_append]
      rw [parse_er _ "ER\n".toList (by decide) (by decide), finish, if_pos hok.nodup]
    obtain ⟨l, ls, h1, h2, h3⟩ := first_line ws fs hne hok.ok hfirst
    rw [h1, List.cons_append, List.cons_append] at hp ⊢
    rw [run_cons, if_neg (by rw [h2]; simp), if_neg h3, hp]
    have hid' : Dict.get? fs utTag = none := hid
    simp only [mkRec, hid']
    rw [show missingId = "WOS:Missing".toList from rfl, addRec_bad rs hg1 _ rfl, run_cons, if_pos (by simp [isSpace, hws])]
  · intro l hl
    rcases List.mem_append.1 hl with hl | hl
    · exact recordLines_complete _ hok.ok l hl
    · simp only [List.mem_cons, List.not_mem_nil, or_false] at hl
      rcases hl with rfl | rfl
      · exact ⟨['E', 'R'], rfl, by decide⟩
      · exact ⟨[], rfl, by simp⟩
  · rw [List.flatten_append, List.mem_append, not_or]
    exact ⟨recordLines_noCR fs hcr, by decide⟩

/-- Witnesses: fields of a record broken off, and of one without an accession number. -/
private def part : Fields := [("PT".toList, ["J".toList]), ("AU".toList, ["A".toList, "B".toList])]

example : part ≠ [] ∧ FieldsOk part ∧ (∀ f ∈ part, '\r' ∉ f.1 ∧ ∀ v ∈ f.2, '\r' ∉ v) ∧
    (∀ f, part.head? = some f → f.1 ≠ "EF".toList ∧ ∃ c ∈ f.1, (fun c => c == ' ' || c == '\n') c = false) ∧
    Dict.get? part "UT".toList = none := by
  refine ⟨by decide, ⟨?_, by decide⟩, by decide, ?_, by decide⟩
  · intro f hf
    simp only [part, List.mem_cons, List.not_mem_nil, or_false] at hf
    rcases hf with rfl | rfl <;> constructor <;> decide
  · intro f hf
    simp only [part, List.head?_cons, Option.some.injEq] at hf
    subst hf
    decide

example : wosParser (fun c => c == ' ' || c == '\n') (header ++ "PT J\nAU A\n\nTI T\nUT W1\nER\n\nEF".toList) =
    some ⟨[⟨[], "WOS:Missing".toList, true⟩, ⟨[("TI".toList, ["T".toList]), ("UT".toList, ["W1".toList])], "W1".toList, false⟩], none, false⟩ ∧
    wosParser (fun c => c == ' ' || c == '\n') (header ++ "PT J\nUT W1\nPT J\nUT W2\nER\n\nEF".toList) =
      some ⟨[⟨[], "WOS:Missing".toList, true⟩], none, false⟩ := by decide +kernel

end Verif.Props.WosDamage
