import Verif.Lemmas.Wos

/-! # C29, C30 and C31: reading and writing Web of Science files -/
set_option autoImplicit false
set_option linter.unusedSectionVars false
set_option linter.unusedSimpArgs false
namespace Verif.Props.WosFiles
open Verif.Py Verif.Model.Wos
open Verif.Spec.Wos (FieldOk FieldsOk recordLines EndLine)

theorem recordLines_eq (fs : Fields) : recordLines fs = fs.flatMap Model.Wos.fieldLines := by
  unfold recordLines
  congr 1
  funext f
  obtain ⟨t, vs⟩ := f
  cases vs <;> simp [Spec.Wos.fieldLines, Model.Wos.fieldLines]

/-- C29: reading the lines of any text gives fields `fs`, stopping before the lines `rest`, exactly when the lines are those of the fields `fs`
as the format writes them, then a line ending the record, then `rest`. So parsing what was written gives back the fields, and writing what was
parsed gives back the text, up to what follows `ER` on its line. -/
theorem C29_round_trip (text : Str) (fs : Fields) (rest : List Str) :
    recordParser [] (Lines.fileLines text) = (.ok fs, rest) ↔
      FieldsOk fs ∧ ∃ er, EndLine er ∧ Lines.fileLines text = recordLines fs ++ er :: rest := by
  constructor
  · intro h
    obtain ⟨h1, er, h2, h3, h4⟩ := parse_ok [] fs _ rest (allButLast_lines _) (by simp) h
    exact ⟨h1, er, ⟨h2, h3⟩, by rw [recordLines_eq, ← h4]; rfl⟩
  · rintro ⟨h1, er, ⟨h2, h3⟩, h4⟩
    rw [h4, recordLines_eq, parse_fields [] fs h1.ok, parse_er _ er h2 h3, finish, List.nil_append, if_pos h1.nodup]

/-- A record which a collection read from files contains: not bad, its fields can be written, the first value of `UT` is its identifier, and
it does not start as a line which ends the file or which is blank. -/
structure Good (ws : Char → Bool) (r : Rec) : Prop where
  notBad : r.bad = false
  fields : FieldsOk r.fields
  noCR : ∀ f ∈ r.fields, '\r' ∉ f.1 ∧ ∀ v ∈ f.2, '\r' ∉ v
  ut : ∃ vs, Dict.get? r.fields "UT".toList = some (r.id :: vs)
  first : ∀ f, r.fields.head? = some f → f.1 ≠ "EF".toList ∧ ∃ c ∈ f.1, ws c = false

theorem Good.mkRec {ws : Char → Bool} {r : Rec} (h : Good ws r) : mkRec (.ok r.fields) = .ok r := by
  obtain ⟨vs, hv⟩ := h.ut
  have : Dict.get? r.fields utTag = some (r.id :: vs) := hv
  obtain ⟨fs, id, bad⟩ := r
  have hb : bad = false := h.notBad
  subst hb
  simp only [Model.Wos.mkRec]
  simp only [] at this
  rw [this]

theorem Good.text {ws : Char → Bool} {r : Rec} (h : Good ws r) :
    writeRecord r = some ((recordLines r.fields).flatten ++ "ER\n".toList) := by
  simp [writeRecord, h.notBad, recordLines_eq]

theorem fieldLines_complete (f : Str × List Str) (hf : FieldOk f) : Lines.Complete (Model.Wos.fieldLines f) := by
  obtain ⟨t, vs⟩ := f
  intro l hl
  cases vs with
  | nil => simp [Model.Wos.fieldLines] at hl
  | cons v vs =>
    simp only [Model.Wos.fieldLines, List.mem_cons, List.mem_map] at hl
    rcases hl with rfl | ⟨w, hw, rfl⟩
    · refine ⟨t ++ [' '] ++ v, by simp, ?_⟩
      have h1 := hf.tagNL
      have h2 := hf.valNL v (by simp)
      simp only [] at h1
      simp [h1, h2]
    · refine ⟨[' ', ' ', ' '] ++ w, by simp, ?_⟩
      have h2 := hf.valNL w (by simp [hw])
      simp [h2]

theorem recordLines_complete (fs : Fields) (h : ∀ f ∈ fs, FieldOk f) : Lines.Complete (recordLines fs) := by
  rw [recordLines_eq]
  intro l hl
  obtain ⟨f, hf, hl⟩ := List.mem_flatMap.1 hl
  exact fieldLines_complete f (h f hf) l hl

theorem recordLines_noCR (fs : Fields) (h : ∀ f ∈ fs, '\r' ∉ f.1 ∧ ∀ v ∈ f.2, '\r' ∉ v) : '\r' ∉ (recordLines fs).flatten := by
  rw [recordLines_eq]
  simp only [List.mem_flatten, List.mem_flatMap, not_exists, not_and]
  rintro l ⟨f, hf, hl⟩
  obtain ⟨h1, h2⟩ := h f hf
  obtain ⟨t, vs⟩ := f
  cases vs with
  | nil => simp [Model.Wos.fieldLines] at hl
  | cons v vs =>
    simp only [Model.Wos.fieldLines, List.mem_cons, List.mem_map] at hl
    rcases hl with rfl | ⟨w, hw, rfl⟩
    · have := h2 v (by simp)
      simp only [] at h1
      simp [h1, this]
    · have := h2 w (by simp [hw])
      simp [this]

/-- C29: a record made from the text written for a record is that record. -/
theorem C29_string (r : Rec) (hb : r.bad = false) (hf : FieldsOk r.fields) (hu : ∃ vs, Dict.get? r.fields "UT".toList = some (r.id :: vs)) :
    ∃ text, writeRecord r = some text ∧ ofString text = .ok r := by
  refine ⟨(recordLines r.fields).flatten ++ "ER\n".toList, by simp [writeRecord, hb, recordLines_eq], ?_⟩
  have hl : Lines.lines ((recordLines r.fields).flatten ++ "ER\n".toList ++ ['\n']) = recordLines r.fields ++ "ER\n".toList :: ["\n".toList] := by
    rw [List.append_assoc, Lines.lines_flatten _ (recordLines_complete _ hf.ok)]
    rfl
  unfold ofString
  rw [hl, recordLines_eq, parse_fields [] r.fields hf.ok, parse_er _ _ (by decide) (by decide), finish, List.nil_append, if_pos hf.nodup]
  obtain ⟨vs, hv⟩ := hu
  have : Dict.get? r.fields utTag = some (r.id :: vs) := hv
  obtain ⟨fs, id, bad⟩ := r
  have hb : bad = false := hb
  subst hb
  simp only [Model.Wos.mkRec]
  simp only [] at this
  rw [this]

/-- The lines of a record and the blank line after it. -/
def chunk (r : Rec) : List Str := recordLines r.fields ++ ["ER\n".toList, "\n".toList]

theorem chunk_complete {ws : Char → Bool} {r : Rec} (h : Good ws r) : Lines.Complete (chunk r) := by
  intro l hl
  rcases List.mem_append.1 hl with hl | hl
  · exact recordLines_complete _ h.fields.ok l hl
  · simp only [List.mem_cons, List.not_mem_nil, or_false] at hl
    rcases hl with rfl | rfl
    · exact ⟨['E', 'R'], rfl, by decide⟩
    · exact ⟨[], rfl, by simp⟩

/-- The first line of a record. -/
theorem chunk_first {ws : Char → Bool} {r : Rec} (h : Good ws r) :
    ∃ t v ls, recordLines r.fields = (t ++ ' ' :: v ++ ['\n']) :: ls ∧ t.length = 2 ∧ t ≠ ['E', 'F'] ∧ (∃ c ∈ t, ws c = false) := by
  obtain ⟨vs, hv⟩ := h.ut
  have hne : r.fields ≠ [] := by
    intro e
    rw [e] at hv
    simp [Dict.get?] at hv
  obtain ⟨f, fs, hf⟩ := List.exists_cons_of_ne_nil hne
  have hok := h.fields.ok f (by simp [hf])
  have hfirst := h.first f (by simp [hf])
  rw [recordLines_eq, hf, List.flatMap_cons]
  obtain ⟨t, ws'⟩ := f
  match ws', hok with
  | [], hok => exact absurd rfl hok.ne
  | v :: vs', hok =>
    exact ⟨t, v, _, by simp [Model.Wos.fieldLines]; rfl, hok.tagLen, by simpa using hfirst.1, hfirst.2⟩

theorem isSpace_false (ws : Char → Bool) (s : Str) (c : Char) (hc : c ∈ s) (h : ws c = false) : isSpace ws s = false := by
  unfold isSpace
  rw [Bool.and_eq_false_iff]
  right
  rw [List.all_eq_false]
  exact ⟨c, hc, by simp [h]⟩

theorem run_chunk (ws : Char → Bool) (hws : ws '\n' = true) (r : Rec) (h : Good ws r) (rest : List Str) (rs : List Rec) :
    run ws (chunk r ++ rest) rs = run ws rest (addRec rs r) := by
  obtain ⟨t, v, ls, h1, h2, h3, c, h4, h5⟩ := chunk_first h
  have hp : recordParser [] (chunk r ++ rest) = (.ok r.fields, "\n".toList :: rest) := by
    rw [chunk, List.append_assoc, recordLines_eq, parse_fields [] _ h.fields.ok]
    simp only [List.cons_append, List.nil_append]
    rw [parse_er _ "ER\n".toList (by decide) (by decide), finish, if_pos h.fields.nodup]
  rw [run_record ws r (chunk r ++ rest) ("\n".toList :: rest) rs (t ++ ' ' :: v ++ ['\n']) (ls ++ ["ER\n".toList, "\n".toList] ++ rest)
    (by rw [chunk, h1]; simp) (isSpace_false ws _ c (by simp [h4]) h5) ?_ hp h.mkRec]
  · rw [run_cons, if_pos]
    simp [isSpace, hws]
  · rw [List.append_assoc, List.take_append_of_le_length (by omega), List.take_of_length_le (by omega)]
    exact h3

/-- Distinct accession numbers. -/
def Distinct (rs : List Rec) : Prop := (rs.map Rec.id).Nodup

theorem addRec_fresh (rs : List Rec) (r : Rec) (hb : r.bad = false) (h : ∀ s ∈ rs, s.bad = false ∧ s.id ≠ r.id) : addRec rs r = rs ++ [r] := by
  unfold addRec
  rw [if_neg]
  intro hc
  rw [List.any_eq_true] at hc
  obtain ⟨s, hs, hk⟩ := hc
  obtain ⟨h1, h2⟩ := h s hs
  simp [Rec.key, hb, h1] at hk
  exact h2 hk

theorem run_chunks (ws : Char → Bool) (hws : ws '\n' = true) (rs : List Rec) (hg : ∀ r ∈ rs, Good ws r) (done : List Rec)
    (hd : ∀ r ∈ done, Good ws r) (hdist : Distinct (done ++ rs)) (rest : List Str) :
    run ws (rs.flatMap chunk ++ rest) done = run ws rest (done ++ rs) := by
  induction rs generalizing done with
  | nil => simp
  | cons r rs ih =>
    rw [List.flatMap_cons, List.append_assoc, run_chunk ws hws r (hg r (by simp)), addRec_fresh done r (hg r (by simp)).notBad]
    · rw [ih (fun s hs => hg s (List.mem_cons_of_mem _ hs)) (done ++ [r])]
      · simp
      · intro s hs
        rcases List.mem_append.1 hs with hs | hs
        · exact hd s hs
        · simp at hs; subst hs; exact hg s (by simp)
      · simpa [Distinct] using hdist
    · intro s hs
      refine ⟨(hd s hs).notBad, ?_⟩
      intro e
      simp only [Distinct, List.map_append, List.map_cons, List.nodup_append] at hdist
      exact hdist.2.2 s.id (List.mem_map_of_mem hs) r.id (by simp) e

/-- The text `writeFile` writes before the end mark. -/
def header : Str := "﻿FN Thomson Reuters Web of Science™\nVR 1.0\n".toList

def body (rs : List Rec) : Str := (rs.flatMap chunk).flatten

theorem writeFile_eq {ws : Char → Bool} (rs : List Rec) (hne : rs ≠ []) (hg : ∀ r ∈ rs, Good ws r) :
    writeFile rs = some (header ++ body rs ++ "EF".toList) := by
  unfold writeFile
  rw [if_neg hne]
  have hm : rs.mapM writeRecord = some (rs.map (fun r => (recordLines r.fields).flatten ++ "ER\n".toList)) := by
    clear hne
    induction rs with
    | nil => rfl
    | cons r rs ih =>
      rw [List.mapM_cons, (hg r (by simp)).text, ih (fun s hs => hg s (List.mem_cons_of_mem _ hs))]
      rfl
  rw [hm]
  simp only [Option.map_some, Option.some.injEq]
  congr 1
  congr 1
  unfold body
  clear hm hne hg
  induction rs with
  | nil => rfl
  | cons r rs ih =>
    simp only [List.map_cons, List.flatten_cons, List.flatMap_cons, List.flatten_append] at ih ⊢
    rw [← ih]
    simp [chunk]

theorem body_noCR {ws : Char → Bool} (rs : List Rec) (hg : ∀ r ∈ rs, Good ws r) : '\r' ∉ body rs := by
  unfold body
  induction rs with
  | nil => simp
  | cons r rs ih =>
    rw [List.flatMap_cons, List.flatten_append, List.mem_append, not_or]
    refine ⟨?_, ih (fun s hs => hg s (List.mem_cons_of_mem _ hs))⟩
    rw [chunk, List.flatten_append, List.mem_append, not_or]
    exact ⟨recordLines_noCR _ (hg r (by simp)).noCR, by decide⟩

theorem univ_append (a b : Str) (h : '\r' ∉ a) : Lines.univ (a ++ b) = a ++ Lines.univ b := by
  induction a with
  | nil => rfl
  | cons c a ih =>
    have hc : c ≠ '\r' := fun e => h (by simp [e])
    rw [List.cons_append, Lines.univ]
    · rw [ih (fun e => h (List.mem_cons_of_mem _ e)), if_neg hc]
      rfl
    · intro s e
      exact fun _ => hc e

theorem dropBOM_header (s : Str) : dropBOM (header ++ s) = "FN Thomson Reuters Web of Science™\nVR 1.0\n".toList ++ s := rfl

/-- Reading a text which starts with the header and complete lines. -/
theorem parse_header (ws : Char → Bool) (ls : List Str) (hc : Lines.Complete ls) (hcr : '\r' ∉ ls.flatten) (s : Str) :
    wosParser ws (header ++ ls.flatten ++ s) = run ws (ls ++ Lines.fileLines s) [] := by
  unfold wosParser
  simp only []
  rw [List.append_assoc, dropBOM_header, Lines.fileLines, univ_append _ _ (by decide), univ_append _ _ hcr]
  have hh : "FN Thomson Reuters Web of Science™\nVR 1.0\n".toList =
      ["FN Thomson Reuters Web of Science™\n".toList, "VR 1.0\n".toList].flatten := by decide
  rw [hh, Lines.lines_flatten _ (by
    intro l hl
    simp only [List.mem_cons, List.not_mem_nil, or_false] at hl
    rcases hl with rfl | rfl
    · exact ⟨"FN Thomson Reuters Web of Science™".toList, by decide, by decide⟩
    · exact ⟨"VR 1.0".toList, by decide, by decide⟩), Lines.lines_flatten _ hc]
  have h1 : Str.contains "VR 1.0".toList "FN Thomson Reuters Web of Science™\n".toList = false := by decide
  have h2 : Str.contains "VR 1.0".toList "VR 1.0\n".toList = true := by decide
  simp only [List.cons_append, List.nil_append, skipVR, h1, h2, if_true, if_false, Bool.false_eq_true]
  rfl

theorem flatMap_chunk_complete {ws : Char → Bool} (rs : List Rec) (hg : ∀ r ∈ rs, Good ws r) : Lines.Complete (rs.flatMap chunk) := by
  intro l hl
  obtain ⟨r, hr, hl⟩ := List.mem_flatMap.1 hl
  exact chunk_complete (hg r hr) l hl

/-- Reading a file which starts as a written one does, whatever follows: first the written records are read. -/
theorem parse_written (ws : Char → Bool) (hws : ws '\n' = true) (rs : List Rec) (hg : ∀ r ∈ rs, Good ws r) (hd : Distinct rs) (s : Str) :
    wosParser ws (header ++ body rs ++ s) = run ws (Lines.fileLines s) rs := by
  unfold body
  rw [parse_header ws _ (flatMap_chunk_complete rs hg) (body_noCR rs hg), run_chunks ws hws rs hg [] (by simp) (by simpa using hd)]
  rfl

/-- C30: reading the file written for a collection gives back its records, unchanged, and no error; and the file is recognised as a WOS
file. -/
theorem C30_round_trip (ws : Char → Bool) (hws : ws '\n' = true) (hE : ws 'E' = false) (rs : List Rec) (hne : rs ≠ [])
    (hg : ∀ r ∈ rs, Good ws r) (hd : Distinct rs) :
    ∃ text, writeFile rs = some text ∧ wosParser ws text = some ⟨rs, none, false⟩ ∧ isWOSFile text = true := by
  refine ⟨_, writeFile_eq rs hne hg, ?_, ?_⟩
  · rw [parse_written ws hws rs hg hd]
    have : Lines.fileLines "EF".toList = ["EF".toList] := by decide
    rw [this, run_cons, if_neg (by rw [isSpace_false ws _ 'E' (by decide) hE]; simp), if_pos (by decide)]
    rfl
  · unfold isWOSFile
    have hcr := body_noCR rs hg
    rw [List.append_assoc, dropBOM_header, Lines.fileLines, univ_append _ _ (by decide)]
    have hh : "FN Thomson Reuters Web of Science™\nVR 1.0\n".toList =
        ["FN Thomson Reuters Web of Science™\n".toList, "VR 1.0\n".toList].flatten := by decide
    rw [hh, Lines.lines_flatten _ (by
      intro l hl
      simp only [List.mem_cons, List.not_mem_nil, or_false] at hl
      rcases hl with rfl | rfl
      · exact ⟨"FN Thomson Reuters Web of Science™".toList, by decide, by decide⟩
      · exact ⟨"VR 1.0".toList, by decide, by decide⟩)]
    rw [List.any_eq_true]
    exact ⟨"VR 1.0\n".toList, by simp, by decide⟩

/-- C30: a collection without records cannot be written. -/
theorem C30_empty : writeFile [] = none := rfl

/-- C31: the reader always comes to an end with a result. -/
theorem C31_total (ws : Char → Bool) (text : Str) : ∃ res, wosParser ws text = some res := by
  unfold wosParser
  simp only []
  split
  · exact ⟨_, rfl⟩
  · exact Option.ne_none_iff_exists'.1 (loop_total ws _ _ _ (by omega))

/-- C31: reading starts behind the first line with `VR 1.0`: without such a line nothing is read and the error says so, what is in front of it
does not matter, and neither does a byte order mark. -/
theorem C31_start (ws : Char → Bool) (text : Str) (hb : text.head? ≠ some '\uFEFF') :
    wosParser ws ('\uFEFF' :: text) = wosParser ws text ∧
    ((∀ l ∈ Lines.fileLines text, ¬ "VR 1.0".toList <:+: l) → wosParser ws text = some ⟨[], some .noEF, false⟩) ∧
    ∀ pre v rest text', Lines.fileLines text = pre ++ v :: rest → (∀ l ∈ pre, ¬ "VR 1.0".toList <:+: l) → "VR 1.0".toList <:+: v →
      Lines.fileLines text' = v :: rest → text'.head? ≠ some '\uFEFF' → wosParser ws text' = wosParser ws text := by
  have hdrop : ∀ t : Str, t.head? ≠ some '\uFEFF' → dropBOM t = t := by
    intro t ht
    cases t with
    | nil => rfl
    | cons c t => rw [dropBOM, if_neg (fun e => ht (by rw [e]; rfl))]
  have hno : ∀ ls : List Str, (∀ l ∈ ls, ¬ "VR 1.0".toList <:+: l) → ∀ ls', skipVR (ls ++ ls') = skipVR ls' := by
    intro ls
    induction ls with
    | nil => intro _ _; rfl
    | cons l ls ih =>
      intro h ls'
      rw [List.cons_append, skipVR, if_neg (fun e => h l (by simp) ((Str.contains_iff _ _).1 e))]
      exact ih (fun l hl => h l (by simp [hl])) ls'
  refine ⟨?_, ?_, ?_⟩
  · unfold wosParser
    rw [hdrop text hb]
    rfl
  · intro h
    have := hno _ h []
    rw [List.append_nil] at this
    unfold wosParser
    simp only [hdrop text hb, this]
    rfl
  · intro pre v rest text' h1 h2 h3 h4 h5
    unfold wosParser
    simp only [hdrop text hb, hdrop text' h5, h1, h4, hno pre h2]

example : Lines.fileLines "VR 1.1\nVR 1.0\nEF".toList = ["VR 1.1\n".toList] ++ "VR 1.0\n".toList :: ["EF".toList] ∧
    ¬ "VR 1.0".toList <:+: "VR 1.1\n".toList ∧ "VR 1.0".toList <:+: "VR 1.0\n".toList ∧
    Lines.fileLines "VR 1.0\nEF".toList = "VR 1.0\n".toList :: ["EF".toList] := by decide +kernel

theorem run_prefix (ws : Char → Bool) (n : Nat) (ls : List Str) (hn : ls.length ≤ n) (rs : List Rec) (res : Res)
    (h : run ws ls rs = some res) : rs <+: res.recs := by
  induction n generalizing ls rs with
  | zero =>
    have : ls = [] := List.eq_nil_of_length_eq_zero (by omega)
    subst this
    rw [run_nil] at h
    cases h
    exact List.prefix_rfl
  | succ n ih =>
    cases ls with
    | nil =>
      rw [run_nil] at h
      cases h
      exact List.prefix_rfl
    | cons l ls =>
      rw [run_cons] at h
      simp only [List.length_cons] at hn
      have hr := parse_rest_length l ls
      split at h
      · exact ih ls (by omega) rs h
      · split at h
        · cases h; exact List.prefix_rfl
        · split at h
          · rename_i r _
            refine List.IsPrefix.trans ?_ (ih _ (by omega) _ h)
            unfold addRec
            split
            · exact List.prefix_rfl
            · exact List.prefix_append _ _
          · split at h
            · cases h; exact List.prefix_rfl
            · rename_i ls' hs
              have := (skipER_length _ _ hs).1
              exact ih _ (by omega) _ h
          · cases h; exact List.prefix_rfl

/-- C31: whatever follows them in the file, the records written before are returned first and unchanged. -/
theorem C31_prefix (ws : Char → Bool) (hws : ws '\n' = true) (rs : List Rec) (hg : ∀ r ∈ rs, Good ws r) (hd : Distinct rs) (s : Str) :
    ∃ res, wosParser ws (header ++ body rs ++ s) = some res ∧ rs <+: res.recs := by
  obtain ⟨res, h⟩ := C31_total ws (header ++ body rs ++ s)
  refine ⟨res, h, ?_⟩
  rw [parse_written ws hws rs hg hd] at h
  exact run_prefix ws _ _ (Nat.le_refl _) rs res h

/-- What a run of the reader says about the lines: no error means that the last line is the end mark, or that an exception was discarded at a
line indented by three spaces where a record should start; and every record returned which is not bad stands in the file as the format writes
it. -/
theorem run_spec (ws : Char → Bool) (n : Nat) (ls : List Str) (hn : ls.length ≤ n) (hl : AllButLast ls) (rs : List Rec) (res : Res)
    (h : run ws ls rs = some res) :
    (res.error = none → res.crashed = false → ∃ pre e, ls = pre ++ [e] ∧ e.take 2 = ['E', 'F']) ∧
    (res.crashed = true → ∃ pre l post, ls = pre ++ l :: post ∧ l.take 3 = [' ', ' ', ' ']) ∧
    (∀ r ∈ res.recs, r ∈ rs ∨ (r.bad = true ∧ r.id = missingId) ∨
      (∃ vs, Dict.get? r.fields utTag = some (r.id :: vs)) ∧ FieldsOk r.fields ∧
        ∃ pre er post, EndLine er ∧ ls = pre ++ recordLines r.fields ++ er :: post) := by
  induction n generalizing ls rs with
  | zero =>
    have : ls = [] := List.eq_nil_of_length_eq_zero (by omega)
    subst this
    rw [run_nil] at h
    cases h
    exact ⟨by simp, by simp, fun r hr => Or.inl hr⟩
  | succ n ih =>
    cases ls with
    | nil =>
      rw [run_nil] at h
      cases h
      exact ⟨by simp, by simp, fun r hr => Or.inl hr⟩
    | cons l ls =>
      rw [run_cons] at h
      simp only [List.length_cons] at hn
      have hr := parse_rest_length l ls
      obtain ⟨pre0, hpre⟩ := parse_rest [] l ls
      split at h
      · obtain ⟨i1, i2, i3⟩ := ih ls (by omega) hl.tail rs h
        refine ⟨?_, ?_, ?_⟩
        · intro h1 h2
          obtain ⟨pre, e, h3, h4⟩ := i1 h1 h2
          exact ⟨l :: pre, e, by rw [h3]; rfl, h4⟩
        · intro h1
          obtain ⟨pre, m, post, h3, h4⟩ := i2 h1
          exact ⟨l :: pre, m, post, by rw [h3]; rfl, h4⟩
        · intro r hr
          rcases i3 r hr with h | h | ⟨h1, h2, pre, er, post, h3, h4⟩
          · exact Or.inl h
          · exact Or.inr (Or.inl h)
          · exact Or.inr (Or.inr ⟨h1, h2, l :: pre, er, post, h3, by rw [h4]; rfl⟩)
      · split at h
        · rename_i hef
          cases h
          refine ⟨?_, by simp, fun r hr => Or.inl hr⟩
          intro h1 _
          simp only [] at h1
          split at h1
          · rename_i hls
            exact ⟨[], l, by rw [hls]; rfl, hef⟩
          · simp at h1
        · split at h
          · rename_i r hmk
            have hl' : AllButLast (recordParser [] (l :: ls)).2 := by
              rw [hpre] at hl
              exact AllButLast.suffix hl
            obtain ⟨i1, i2, i3⟩ := ih _ (by omega) hl' _ h
            refine ⟨?_, ?_, ?_⟩
            · intro h1 h2
              obtain ⟨pre, e, h3, h4⟩ := i1 h1 h2
              refine ⟨(l :: pre0) ++ pre, e, ?_, h4⟩
              conv_lhs => rw [hpre, h3]
              simp
            · intro h1
              obtain ⟨pre, m, post, h3, h4⟩ := i2 h1
              refine ⟨(l :: pre0) ++ pre, m, post, ?_, h4⟩
              conv_lhs => rw [hpre, h3]
              simp
            · intro q hq
              rcases i3 q hq with h | h | ⟨h1, h2, pre, er, post, h3, h4⟩
              · unfold addRec at h
                split at h
                · exact Or.inl h
                · rcases List.mem_append.1 h with h | h
                  · exact Or.inl h
                  · simp at h
                    subst h
                    right
                    cases hp : (recordParser [] (l :: ls)).1 with
                    | error e =>
                      rw [hp] at hmk
                      cases e with
                      | badRecord => simp only [mkRec] at hmk; cases hmk; exact Or.inl ⟨rfl, rfl⟩
                      | badFile => simp [mkRec] at hmk
                      | index => simp [mkRec] at hmk
                    | ok fs =>
                      rw [hp] at hmk
                      have hpp : recordParser [] (l :: ls) = (.ok fs, (recordParser [] (l :: ls)).2) := by rw [← hp]
                      obtain ⟨g1, er, g2, g3, g4⟩ := parse_ok [] fs _ _ hl (by simp) hpp
                      simp only [mkRec] at hmk
                      split at hmk
                      · rename_i v vs hv
                        cases hmk
                        right
                        exact ⟨⟨vs, hv⟩, g1, [], er, _, ⟨g2, g3⟩, by rw [recordLines_eq]; simpa using g4⟩
                      · simp at hmk
                      · cases hmk
                        exact Or.inl ⟨rfl, rfl⟩
              · exact Or.inr (Or.inl h)
              · right; right
                refine ⟨h1, h2, (l :: pre0) ++ pre, er, post, h3, ?_⟩
                conv_lhs => rw [hpre, h4]
                simp
          · split at h
            · cases h
              exact ⟨by simp, by simp, fun r hr => Or.inl hr⟩
            · rename_i ls' hs
              obtain ⟨hlt, pre1, hpre1⟩ := skipER_length _ _ hs
              have hall : l :: ls = (l :: pre0 ++ pre1) ++ ls' := by
                conv_lhs => rw [hpre, hpre1]
                simp
              have hl' : AllButLast ls' := by
                rw [hall] at hl
                exact AllButLast.suffix hl
              obtain ⟨i1, i2, i3⟩ := ih ls' (by omega) hl' rs h
              refine ⟨?_, ?_, ?_⟩
              · intro h1 h2
                obtain ⟨pre, e, h3, h4⟩ := i1 h1 h2
                exact ⟨(l :: pre0 ++ pre1) ++ pre, e, by rw [hall, h3]; simp, h4⟩
              · intro h1
                obtain ⟨pre, m, post, h3, h4⟩ := i2 h1
                exact ⟨(l :: pre0 ++ pre1) ++ pre, m, post, by rw [hall, h3]; simp, h4⟩
              · intro r hr
                rcases i3 r hr with h | h | ⟨h1, h2, pre, er, post, h3, h4⟩
                · exact Or.inl h
                · exact Or.inr (Or.inl h)
                · exact Or.inr (Or.inr ⟨h1, h2, (l :: pre0 ++ pre1) ++ pre, er, post, h3, by rw [hall, h4]; simp⟩)
          · rename_i e hne hmk
            cases h
            refine ⟨by simp, ?_, fun r hr => Or.inl hr⟩
            intro _
            -- only an index error comes here
            have hidx : e = .index := by
              cases e with
              | badRecord =>
                exfalso
                cases hp : (recordParser [] (l :: ls)).1 with
                | error e' => rw [hp] at hmk; cases e' <;> simp [mkRec] at hmk
                | ok fs =>
                  rw [hp] at hmk
                  simp only [mkRec] at hmk
                  split at hmk <;> simp at hmk
              | badFile => exact absurd rfl hne
              | index => rfl
            subst hidx
            cases hp : (recordParser [] (l :: ls)).1 with
            | ok fs =>
              exfalso
              rw [hp] at hmk
              have hpp : recordParser [] (l :: ls) = (.ok fs, (recordParser [] (l :: ls)).2) := by rw [← hp]
              obtain ⟨g1, -⟩ := parse_ok [] fs _ _ hl (by simp) hpp
              simp only [mkRec] at hmk
              split at hmk
              · simp at hmk
              · rename_i hv
                exact (g1.ok _ (Dict.mem_of_get? hv)).ne rfl
              · simp at hmk
            | error e' =>
              have he' : e' = .index := by
                rw [hp] at hmk
                cases e' <;> simp [mkRec] at hmk
                rfl
              subst he'
              have key : ∀ (acc : Fields) (ls : List Str), (recordParser acc ls).1 = .error .index →
                  ∃ pre l post, ls = pre ++ l :: post ∧ l.take 3 = [' ', ' ', ' '] := by
                intro acc ls
                induction ls generalizing acc with
                | nil => intro h; simp [recordParser] at h
                | cons l ls ih =>
                  intro h
                  rw [recordParser] at h
                  split at h
                  · simp at h
                  · split at h
                    · simp only [finish] at h
                      split at h <;> simp at h
                    · split at h
                      · simp at h
                      · split at h
                        · rename_i h4
                          exact ⟨[], l, ls, rfl, h4⟩
                        · obtain ⟨pre, m, post, h1, h2⟩ := ih _ h
                          exact ⟨l :: pre, m, post, by rw [h1]; rfl, h2⟩
              exact key [] (l :: ls) hp

/-- C31: if no error is reported then the file ends with the end mark, unless an exception was discarded, which needs a line indented by three
spaces; and every record returned is bad or stands in the file as the format writes it. -/
theorem C31_no_error_partial (ws : Char → Bool) (text : Str) (res : Res) (h : wosParser ws text = some res) :
    (res.error = none → res.crashed = false → ∃ pre e, Lines.fileLines (dropBOM text) = pre ++ [e] ∧ e.take 2 = "EF".toList) ∧
    (res.crashed = true → ∃ l ∈ Lines.fileLines (dropBOM text), l.take 3 = "   ".toList) ∧
    (∀ r ∈ res.recs, (r.bad = true ∧ r.id = "WOS:Missing".toList) ∨
      (∃ vs, Dict.get? r.fields "UT".toList = some (r.id :: vs)) ∧ FieldsOk r.fields ∧
        ∃ pre er post, EndLine er ∧ Lines.fileLines (dropBOM text) = pre ++ recordLines r.fields ++ er :: post) := by
  unfold wosParser at h
  simp only [] at h
  have hskip : ∀ ls ls' : List Str, skipVR ls = some ls' → ∃ pre, ls = pre ++ ls' := by
    intro ls
    induction ls with
    | nil => intro ls' h; simp [skipVR] at h
    | cons l ls ih =>
      intro ls' h
      rw [skipVR] at h
      split at h
      · cases h; exact ⟨[l], rfl⟩
      · obtain ⟨pre, e⟩ := ih ls' h
        exact ⟨l :: pre, by rw [e]; rfl⟩
  split at h
  · cases h
    exact ⟨by simp, by simp, by simp⟩
  · rename_i ls' hs
    obtain ⟨pre0, hpre⟩ := hskip _ _ hs
    have hl : AllButLast ls' := by
      have := allButLast_lines (Lines.univ (dropBOM text))
      rw [← Lines.fileLines, hpre] at this
      exact AllButLast.suffix this
    obtain ⟨h1, h2, h3⟩ := run_spec ws _ ls' (Nat.le_refl _) hl [] res h
    refine ⟨?_, ?_, ?_⟩
    · intro a b
      obtain ⟨pre, e, g1, g2⟩ := h1 a b
      exact ⟨pre0 ++ pre, e, by rw [hpre, g1]; simp, g2⟩
    · intro a
      obtain ⟨pre, l, post, g1, g2⟩ := h2 a
      exact ⟨l, by rw [hpre, g1]; simp, g2⟩
    · intro r hr
      rcases h3 r hr with g | g | ⟨g1, g2, pre, er, post, g3, g4⟩
      · simp at g
      · exact Or.inl g
      · exact Or.inr ⟨g1, g2, pre0 ++ pre, er, post, g3, by rw [hpre, g4]; simp⟩

theorem skipER_to (pre : List Str) (h : ∀ l ∈ pre, l.take 2 ≠ "ER".toList) (rest : List Str) : skipER (pre ++ "ER\n".toList :: rest) = some rest := by
  induction pre with
  | nil => rfl
  | cons a pre ih =>
    rw [List.cons_append, skipER, if_neg (show ¬ a.take 2 = ['E', 'R'] from h a (by simp))]
    exact ih (fun l hl => h l (by simp [hl]))

/-- A record with a damaged line: some fields, a line whose third character is not a space, and further lines up to the end of the record. It does not start as a line which ends the file or
is blank. -/
structure Damaged (ws : Char → Bool) (fs : Fields) (bad : Str) (after : List Str) : Prop where
  fields : FieldsOk fs
  noCR : ∀ f ∈ fs, '\r' ∉ f.1 ∧ ∀ v ∈ f.2, '\r' ∉ v
  line : ∃ t, bad = t ++ "\n".toList ∧ '\n' ∉ t ∧ '\r' ∉ t ∧ 2 ≤ t.length
  third : bad[2]? ≠ some ' '
  notEnd : bad.take 2 ≠ "ER".toList
  rest : ∀ l ∈ after, l.take 2 ≠ "ER".toList ∧ ∃ t, l = t ++ "\n".toList ∧ '\n' ∉ t ∧ '\r' ∉ t
  first : ∀ l, (recordLines fs ++ [bad]).head? = some l → l.take 2 ≠ "EF".toList ∧ ∃ c ∈ l, ws c = false

theorem run_damaged (ws : Char → Bool) (hws : ws '\n' = true) (fs : Fields) (bad : Str) (after : List Str) (h : Damaged ws fs bad after) (rest : List Str) (rs : List Rec) :
    run ws (recordLines fs ++ bad :: (after ++ ["ER\n".toList, "\n".toList]) ++ rest) rs = run ws rest rs := by
  have hp : recordParser [] (recordLines fs ++ bad :: (after ++ ["ER\n".toList, "\n".toList]) ++ rest) =
      (.error .badFile, after ++ ["ER\n".toList, "\n".toList] ++ rest) := by
    rw [List.append_assoc, recordLines_eq, parse_fields [] fs h.fields.ok, List.cons_append, recordParser.eq_def]
    obtain ⟨t, ht, -, -, hl⟩ := h.line
    dsimp only
    rw [if_neg (by rw [ht]; simp; omega), if_neg (show ¬ bad.take 2 = ['E', 'R'] from h.notEnd), if_pos h.third]
  obtain ⟨l, ls, e, hl⟩ : ∃ l ls, recordLines fs ++ bad :: (after ++ ["ER\n".toList, "\n".toList]) ++ rest = l :: ls ∧ (recordLines fs ++ [bad]).head? = some l := by
    cases hr : recordLines fs with
    | nil => exact ⟨bad, _, rfl, rfl⟩
    | cons a b => exact ⟨a, _, rfl, rfl⟩
  obtain ⟨h1, c, h2, h3⟩ := h.first l hl
  rw [e] at hp ⊢
  rw [run_cons, if_neg (by rw [isSpace_false ws _ c h2 h3]; simp), if_neg (show ¬ l.take 2 = ['E', 'F'] from h1), hp]
  simp only [mkRec]
  rw [List.append_assoc, List.cons_append, skipER_to after (fun l hl => (h.rest l hl).1)]
  simp only [List.cons_append, List.nil_append]
  rw [run_cons, if_pos (by simp [isSpace, hws])]

/-- C31 fails: a record with a damaged line is left out and no error is reported; the records before and after it are read as if it was not there. -/
theorem C31_damaged_lost (ws : Char → Bool) (hws : ws '\n' = true) (hE : ws 'E' = false) (rs rs' : List Rec) (hg : ∀ r ∈ rs ++ rs', Good ws r) (hd : Distinct (rs ++ rs'))
    (fs : Fields) (bad : Str) (after : List Str) (h : Damaged ws fs bad after) :
    wosParser ws (header ++ body rs ++ ((recordLines fs).flatten ++ bad ++ after.flatten ++ "ER\n\n".toList) ++ body rs' ++ "EF".toList) = some ⟨rs ++ rs', none, false⟩ := by
  have hg1 : ∀ r ∈ rs, Good ws r := fun r hr => hg r (by simp [hr])
  have hg2 : ∀ r ∈ rs', Good ws r := fun r hr => hg r (by simp [hr])
  have e : header ++ body rs ++ ((recordLines fs).flatten ++ bad ++ after.flatten ++ "ER\n\n".toList) ++ body rs' ++ "EF".toList =
      header ++ (rs.flatMap chunk ++ (recordLines fs ++ bad :: (after ++ ["ER\n".toList, "\n".toList])) ++ rs'.flatMap chunk).flatten ++ "EF".toList := by
    simp [body, List.flatten_append]
  obtain ⟨t, ht, hn, hr, -⟩ := h.line
  rw [e, parse_header ws _ ?_ ?_, List.append_assoc, List.append_assoc, run_chunks ws hws rs hg1 [] (by simp) (by
      simp only [Distinct, List.map_append, List.nodup_append] at hd
      simpa [Distinct] using hd.1), List.nil_append, run_damaged ws hws fs bad after h, run_chunks ws hws rs' hg2 rs hg1 hd]
  · have : Lines.fileLines "EF".toList = ["EF".toList] := by decide
    rw [this, run_cons, if_neg (by rw [isSpace_false ws _ 'E' (by decide) hE]; simp), if_pos (by decide)]
    rfl
  · intro l hl
    rcases List.mem_append.1 hl with hl | hl
    · rcases List.mem_append.1 hl with hl | hl
      · exact flatMap_chunk_complete rs hg1 l hl
      · rcases List.mem_append.1 hl with hl | hl
        · exact recordLines_complete _ h.fields.ok l hl
        · rcases List.mem_cons.1 hl with rfl | hl
          · exact ⟨t, ht, hn⟩
          · rcases List.mem_append.1 hl with hl | hl
            · obtain ⟨-, t, h1, h2, -⟩ := h.rest l hl
              exact ⟨t, h1, h2⟩
            · simp only [List.mem_cons, List.not_mem_nil, or_false] at hl
              rcases hl with rfl | rfl
              · exact ⟨['E', 'R'], rfl, by decide⟩
              · exact ⟨[], rfl, by simp⟩
    · exact flatMap_chunk_complete rs' hg2 l hl
  · have h1 := body_noCR rs hg1
    have h2 := body_noCR rs' hg2
    have h3 := recordLines_noCR fs h.noCR
    unfold body at h1 h2
    simp only [List.flatten_append, List.flatten_cons, List.flatten_nil, List.mem_append, not_or, h1, h2, h3, not_false_eq_true, true_and, and_true]
    refine ⟨by rw [ht]; simp [hr], ?_, by decide, by decide, by simp⟩
    intro hm
    obtain ⟨l, hl, hm⟩ := List.mem_flatten.1 hm
    obtain ⟨-, u, rfl, -, h5⟩ := h.rest l hl
    simp at hm
    exact h5 hm

theorem run_chunks_bad (ws : Char → Bool) (hws : ws '\n' = true) (rs : List Rec) (hg : ∀ r ∈ rs, Good ws r) (done : List Rec)
    (hd : ∀ s ∈ done, s.bad = true ∨ s.bad = false ∧ ∀ r ∈ rs, s.id ≠ r.id) (hdist : Distinct rs) (rest : List Str) :
    run ws (rs.flatMap chunk ++ rest) done = run ws rest (done ++ rs) := by
  induction rs generalizing done with
  | nil => simp
  | cons r rs ih =>
    have hadd : addRec done r = done ++ [r] := by
      unfold addRec
      rw [if_neg]
      intro hc
      rw [List.any_eq_true] at hc
      obtain ⟨s, hs, hk⟩ := hc
      have hb := (hg r (by simp)).notBad
      rcases hd s hs with h1 | ⟨h1, h2⟩
      · simp [Rec.key, hb, h1] at hk
      · simp [Rec.key, hb, h1] at hk
        exact h2 r (by simp) hk
    rw [List.flatMap_cons, List.append_assoc, run_chunk ws hws r (hg r (by simp)), hadd]
    rw [Distinct, List.map_cons, List.nodup_cons] at hdist
    rw [ih (fun s hs => hg s (List.mem_cons_of_mem _ hs)) (done ++ [r]) _ hdist.2]
    · simp
    · intro s hs
      rcases List.mem_append.1 hs with hs | hs
      · exact (hd s hs).imp id (fun h => ⟨h.1, fun q hq => h.2 q (by simp [hq])⟩)
      · simp at hs
        subst hs
        exact .inr ⟨(hg s (by simp)).notBad, fun q hq e => hdist.1 (by rw [e]; exact List.mem_map_of_mem hq)⟩

/-- C31: a record with a tag twice is returned as a bad record, without an identifier, and the records before and after it are read as if it was not there. -/
theorem C31_repeated_tag (ws : Char → Bool) (hws : ws '\n' = true) (hE : ws 'E' = false) (rs rs' : List Rec) (hg : ∀ r ∈ rs ++ rs', Good ws r) (hd : Distinct (rs ++ rs'))
    (fs : Fields) (hok : ∀ f ∈ fs, FieldOk f) (hcr : ∀ f ∈ fs, '\r' ∉ f.1 ∧ ∀ v ∈ f.2, '\r' ∉ v) (hrep : ¬ (fs.map Prod.fst).Nodup)
    (hfirst : ∀ f, fs.head? = some f → f.1 ≠ "EF".toList ∧ ∃ c ∈ f.1, ws c = false) :
    wosParser ws (header ++ body rs ++ ((recordLines fs).flatten ++ "ER\n\n".toList) ++ body rs' ++ "EF".toList) =
      some ⟨rs ++ [⟨[], "WOS:Missing".toList, true⟩] ++ rs', none, false⟩ := by
  have hg1 : ∀ r ∈ rs, Good ws r := fun r hr => hg r (by simp [hr])
  have hg2 : ∀ r ∈ rs', Good ws r := fun r hr => hg r (by simp [hr])
  have hd' := hd
  simp only [Distinct, List.map_append, List.nodup_append] at hd'
  have e : header ++ body rs ++ ((recordLines fs).flatten ++ "ER\n\n".toList) ++ body rs' ++ "EF".toList =
      header ++ (rs.flatMap chunk ++ (recordLines fs ++ ["ER\n".toList, "\n".toList]) ++ rs'.flatMap chunk).flatten ++ "EF".toList := by
    simp [body, List.flatten_append]
  have hrun : ∀ rest, run ws (recordLines fs ++ ["ER\n".toList, "\n".toList] ++ rest) rs = run ws rest (rs ++ [⟨[], missingId, true⟩]) := by
    intro rest
    have hp : recordParser [] (recordLines fs ++ ["ER\n".toList, "\n".toList] ++ rest) = (.error .badRecord, "\n".toList :: rest) := by
      rw [List.append_assoc, recordLines_eq, parse_fields [] fs hok]
      simp only [List.cons_append, List.nil_append]
      rw [parse_er _ "ER\n".toList (by decide) (by decide), finish, if_neg hrep]
    obtain ⟨t, v, ls, h1, h2, h3, c, h4, h5⟩ : ∃ t v ls, recordLines fs = (t ++ ' ' :: v ++ ['\n']) :: ls ∧ t.length = 2 ∧ t ≠ ['E', 'F'] ∧ (∃ c ∈ t, ws c = false) := by
      cases fs with
      | nil => exact absurd List.nodup_nil hrep
      | cons f fs =>
        have hf := hok f (by simp)
        have hfi := hfirst f rfl
        rw [recordLines_eq, List.flatMap_cons]
        obtain ⟨t, ws'⟩ := f
        match ws', hf with
        | [], hf => exact absurd rfl hf.ne
        | v :: vs', hf => exact ⟨t, v, _, by simp [Model.Wos.fieldLines]; rfl, hf.tagLen, by simpa using hfi.1, hfi.2⟩
    rw [h1] at hp ⊢
    rw [List.cons_append, List.cons_append] at hp ⊢
    rw [run_cons, if_neg (by rw [isSpace_false ws _ c (by simp [h4]) h5]; simp), if_neg, hp]
    · simp only [mkRec]
      have hadd : addRec rs ⟨[], missingId, true⟩ = rs ++ [⟨[], missingId, true⟩] := by
        unfold addRec
        rw [if_neg]
        intro hc
        rw [List.any_eq_true] at hc
        obtain ⟨s, hs, hk⟩ := hc
        simp [Rec.key, (hg1 s hs).notBad] at hk
      rw [hadd, run_cons, if_pos (by simp [isSpace, hws])]
    · rw [List.append_assoc, List.take_append_of_le_length (by omega), List.take_of_length_le (by omega)]
      exact h3
  rw [e, parse_header ws _ ?_ ?_, List.append_assoc, List.append_assoc, run_chunks ws hws rs hg1 [] (by simp) (by simpa [Distinct] using hd'.1), List.nil_append, hrun,
    run_chunks_bad ws hws rs' hg2 _ ?_ hd'.2.1]
  · have : Lines.fileLines "EF".toList = ["EF".toList] := by decide
    rw [this, run_cons, if_neg (by rw [isSpace_false ws _ 'E' (by decide) hE]; simp), if_pos (by decide)]
    rfl
  · intro s hs
    rcases List.mem_append.1 hs with hs | hs
    · exact .inr ⟨(hg1 s hs).notBad, fun r hr => hd'.2.2 _ (List.mem_map_of_mem hs) _ (List.mem_map_of_mem hr)⟩
    · simp at hs
      subst hs
      exact .inl rfl
  · intro l hl
    rcases List.mem_append.1 hl with hl | hl
    · rcases List.mem_append.1 hl with hl | hl
      · exact flatMap_chunk_complete rs hg1 l hl
      · rcases List.mem_append.1 hl with hl | hl
        · exact recordLines_complete _ hok l hl
        · simp only [List.mem_cons, List.not_mem_nil, or_false] at hl
          rcases hl with rfl | rfl
          · exact ⟨['E', 'R'], rfl, by decide⟩
          · exact ⟨[], rfl, by simp⟩
    · exact flatMap_chunk_complete rs' hg2 l hl
  · have h1 := body_noCR rs hg1
    have h2 := body_noCR rs' hg2
    have h3 := recordLines_noCR fs hcr
    unfold body at h1 h2
    simp only [List.flatten_append, List.flatten_cons, List.flatten_nil, List.mem_append, not_or, h1, h2, h3, not_false_eq_true, true_and, and_true]
    exact ⟨by decide, by decide, by simp⟩

/-- C31 fails: at a line indented by three spaces where a record should start, everything that follows is lost and no error is
reported. -/
theorem C31_silent_loss (ws : Char → Bool) (hws : ws '\n' = true) (rs : List Rec) (hg : ∀ r ∈ rs, Good ws r) (hd : Distinct rs)
    (c : Char) (hc : ws c = false) (hn : c ≠ '\n' ∧ c ≠ '\r') (lost : Str) :
    wosParser ws (header ++ body rs ++ ("   ".toList ++ [c] ++ "\n".toList ++ lost)) = some ⟨rs, none, true⟩ := by
  rw [parse_written ws hws rs hg hd]
  have hlines : Lines.fileLines ("   ".toList ++ [c] ++ "\n".toList ++ lost) = ([' ', ' ', ' ', c, '\n'] : Str) :: Lines.fileLines lost := by
    unfold Lines.fileLines
    rw [univ_append _ _ (by simp [hn.2.symm])]
    have := Lines.lines_append [' ', ' ', ' ', c] (Lines.univ lost) (by simp [hn.1.symm])
    simpa using this
  rw [hlines, run_cons, if_neg (by rw [isSpace_false ws _ c (by simp) hc]; simp), if_neg (by simp)]
  simp [recordParser, mkRec]

theorem prefix_append_cases {α : Type} {p a b : List α} (h : p <+: a ++ b) : p <+: a ∨ ∃ q, p = a ++ q ∧ q <+: b := by
  rcases List.prefix_or_prefix_of_prefix h (List.prefix_append a b) with h1 | ⟨q, rfl⟩
  · exact Or.inl h1
  · exact Or.inr ⟨q, rfl, (List.prefix_append_right_inj a).1 h⟩

/-- Truncation inside a record: it is bad, and nothing is left to read. -/
theorem parse_truncated (acc : Fields) (hacc : acc ≠ []) (fs : Fields) (hf : ∀ f ∈ fs, FieldOk f) (p : Str)
    (hp : p <+: (recordLines fs).flatten ++ "ER\n".toList) (hlt : p ≠ (recordLines fs).flatten ++ "ER\n".toList) :
    recordParser acc (Lines.lines p) = (.error .badRecord, []) := by
  have key : ∀ (ls : List Str), Lines.Complete ls →
      (∀ l ∈ ls, l.length > 3 ∧ l.take 2 ≠ ['E', 'R'] ∧ l[2]? = some ' ') → ∀ (acc : Fields), acc ≠ [] → ∀ p,
      p <+: ls.flatten ++ "ER\n".toList → p ≠ ls.flatten ++ "ER\n".toList → recordParser acc (Lines.lines p) = (.error .badRecord, []) := by
    intro ls
    induction ls with
    | nil =>
      intro _ _ acc _ p hp hlt
      simp only [List.flatten_nil, List.nil_append] at hp hlt
      obtain ⟨t, ht⟩ := hp
      match p, t, ht, hlt with
      | [], _, _, _ => rfl
      | [a], _, ht, _ =>
        simp at ht
        rw [ht.1]
        rfl
      | [a, b], _, ht, _ =>
        simp at ht
        rw [ht.1, ht.2.1]
        rfl
      | a :: b :: c :: p, t, ht, hlt =>
        exfalso
        simp at ht
        obtain ⟨rfl, rfl, rfl, rfl, rfl⟩ := ht
        exact hlt rfl
    | cons l ls ih =>
      intro hcomp hlen acc hacc p hp hlt
      obtain ⟨x, hx, hxn⟩ := hcomp l (by simp)
      obtain ⟨h3, her, hsp⟩ := hlen l (by simp)
      rw [List.flatten_cons, List.append_assoc] at hp hlt
      rcases prefix_append_cases hp with h | ⟨q, rfl, hq⟩
      · -- inside the first line
        by_cases hpl : p = l
        · subst hpl
          have : Lines.lines p = [p] := by
            rw [hx, Lines.lines_append x [] hxn]
            simp [Lines.lines]
          rw [this, recordParser, if_neg (by omega), if_neg her, if_neg (by simp [hsp])]
          split
          · rfl
          · rfl
        · have hpx : p <+: x := by
            rw [hx] at h hpl
            rcases prefix_append_cases h with h | ⟨q, rfl, hq⟩
            · exact h
            · rcases List.prefix_cons_iff.1 hq with rfl | ⟨q', rfl, hq'⟩
              · simp
              · have : q' = [] := List.prefix_nil.1 hq'
                subst this
                exact absurd rfl hpl
          have hpn : '\n' ∉ p := fun hh => hxn (hpx.subset hh)
          by_cases hp0 : p = []
          · subst hp0; rfl
          · rw [Lines.lines_last p hpn hp0, recordParser]
            split
            · rfl
            · rename_i h3p
              have hp3 : 3 ≤ p.length := by omega
              have hpre : p <+: l := h
              have ht2 : p.take 2 = l.take 2 := by
                obtain ⟨t, rfl⟩ := hpre
                rw [List.take_append_of_le_length (by omega)]
              have hsp' : p[2]? = some ' ' := by
                obtain ⟨t, rfl⟩ := hpre
                rw [List.getElem?_append_left (by omega)] at hsp
                exact hsp
              rw [if_neg (by rw [ht2]; exact her), if_neg (by simp [hsp'])]
              split
              · rfl
              · rfl
      · -- the first line is complete
        have hl2 : Lines.lines (l ++ q) = l :: Lines.lines q := by
          rw [hx, List.append_assoc, List.singleton_append, Lines.lines_append x q hxn]
        rw [hl2, recordParser, if_neg (by omega), if_neg her, if_neg (by simp [hsp])]
        have hrest := ih (fun m hm => hcomp m (List.mem_cons_of_mem _ hm)) (fun m hm => hlen m (List.mem_cons_of_mem _ hm))
        have hqne : q ≠ ls.flatten ++ "ER\n".toList := by
          rintro rfl
          exact hlt (by simp)
        split
        · refine hrest _ ?_ q hq hqne
          unfold appendLast
          obtain ⟨acc', f, rfl⟩ := List.eq_nil_or_concat acc |>.resolve_left hacc
          simp
        · exact hrest _ (by simp) q hq hqne
  refine key (recordLines fs) (recordLines_complete fs hf) ?_ acc hacc p hp hlt
  intro l hl
  rw [recordLines_eq] at hl
  obtain ⟨f, hfm, hl⟩ := List.mem_flatMap.1 hl
  have hok := hf f hfm
  obtain ⟨t, vs⟩ := f
  obtain ⟨a, b, rfl⟩ : ∃ a b, t = [a, b] := List.length_eq_two.1 hok.tagLen
  cases vs with
  | nil => simp [Model.Wos.fieldLines] at hl
  | cons v vs =>
    simp only [Model.Wos.fieldLines, List.mem_cons, List.mem_map] at hl
    rcases hl with rfl | ⟨w, hw, rfl⟩
    · refine ⟨by simp, ?_, by simp⟩
      have := hok.tagER
      simpa using this
    · exact ⟨by simp, by simp, by simp⟩

/-- The end of a written file cut off inside a record. -/
theorem run_truncated (ws : Char → Bool) (r : Rec) (h : Good ws r) (p : Str) (hp : p <+: (chunk r).flatten) (rs : List Rec) (hlt : p ≠ (chunk r).flatten)
    (hws : ws '\n' = true) : ∃ rs', run ws (Lines.lines p) rs = some ⟨rs', some .noEF, false⟩ := by
  have hch : (chunk r).flatten = ((recordLines r.fields).flatten ++ "ER\n".toList) ++ ['\n'] := by simp [chunk]
  rw [hch] at hp hlt
  have hp1 : p <+: (recordLines r.fields).flatten ++ "ER\n".toList := by
    rcases prefix_append_cases hp with h | ⟨q, rfl, hq⟩
    · exact h
    · rcases List.prefix_cons_iff.1 hq with rfl | ⟨q', rfl, hq'⟩
      · simp
      · rw [List.prefix_nil.1 hq'] at hlt
        exact absurd rfl hlt
  by_cases hfull : p = (recordLines r.fields).flatten ++ "ER\n".toList
  · -- the whole record without the blank line
    have hl : Lines.lines p = recordLines r.fields ++ ["ER\n".toList] := by
      have := Lines.lines_flatten (recordLines r.fields) (recordLines_complete _ h.fields.ok) "ER\n".toList
      rw [hfull, this]
      rfl
    have hpp : recordParser [] (Lines.lines p) = (.ok r.fields, []) := by
      rw [hl, recordLines_eq, parse_fields [] _ h.fields.ok, parse_er _ "ER\n".toList (by decide) (by decide), finish,
        List.nil_append, if_pos h.fields.nodup]
    obtain ⟨t, v, ls, h1, h2, h3, c, h4, h5⟩ := chunk_first h
    refine ⟨addRec rs r, ?_⟩
    rw [run_record ws r (Lines.lines p) [] rs (t ++ ' ' :: v ++ ['\n']) (ls ++ ["ER\n".toList]) (by rw [hl, h1]; rfl)
      (isSpace_false ws _ c (by simp [h4]) h5) ?_ hpp h.mkRec, run_nil]
    rw [List.append_assoc, List.take_append_of_le_length (by omega), List.take_of_length_le (by omega)]
    exact h3
  · by_cases hp0 : p = []
    · subst hp0
      exact ⟨rs, rfl⟩
    · -- the record is cut
      obtain ⟨t, v, ls, h1, h2, h3, c, h4, h5⟩ := chunk_first h
      have hfs : ∃ f fs, r.fields = f :: fs := by
        obtain ⟨vs, hv⟩ := h.ut
        match hr : r.fields with
        | [] => rw [hr] at hv; simp [Dict.get?] at hv
        | f :: fs => exact ⟨f, fs, rfl⟩
      have hbad : (recordParser [] (Lines.lines p)) = (.error .badRecord, []) := by
        -- read the first line, then use `parse_truncated`
        obtain ⟨f, fs, hf⟩ := hfs
        have hok := h.fields.ok f (by simp [hf])
        obtain ⟨tag, vals⟩ := f
        obtain ⟨a, b, rfl⟩ : ∃ a b, tag = [a, b] := List.length_eq_two.1 hok.tagLen
        have hER := hok.tagER
        have hBl := hok.tagBlank
        have htnl := hok.tagNL
        simp only [List.mem_cons, List.not_mem_nil, or_false, not_or] at htnl
        match vals, hok, hf with
        | [], hok, _ => exact absurd rfl hok.ne
        | v :: vs, hok, hf =>
          have hvn := hok.valNL v (by simp)
          have hfl : recordLines r.fields = (a :: b :: ' ' :: v ++ ['\n']) :: (vs.map (fun w => [' ', ' ', ' '] ++ w ++ ['\n']) ++ recordLines fs) := by
            rw [recordLines_eq, recordLines_eq, hf]
            simp [Model.Wos.fieldLines]
          have hxn : '\n' ∉ a :: b :: ' ' :: v := by
            simp only [List.mem_cons, not_or]
            exact ⟨htnl.1, htnl.2, by decide, hvn⟩
          rw [hfl, List.flatten_cons, List.append_assoc] at hp1 hfull
          rcases prefix_append_cases hp1 with hin | ⟨q, rfl, hq⟩
          · by_cases hpl : p = a :: b :: ' ' :: v ++ ['\n']
            · have : Lines.lines p = [a :: b :: ' ' :: v ++ ['\n']] := by
                rw [hpl, Lines.lines_append _ [] hxn]; rfl
              rw [this, recordParser, if_neg (by simp), if_neg (by simpa using hER), if_neg (by simp),
                if_neg (by simp only [ne_eq, List.cons.injEq, and_true] at hBl; simpa using hBl)]
              rfl
            · have hpx : p <+: a :: b :: ' ' :: v := by
                rcases prefix_append_cases hin with hh | ⟨q, rfl, hq⟩
                · exact hh
                · rcases List.prefix_cons_iff.1 hq with rfl | ⟨q', rfl, hq'⟩
                  · simp
                  · rw [List.prefix_nil.1 hq'] at hpl
                    exact absurd rfl hpl
              rw [Lines.lines_last p (fun hh => hxn (hpx.subset hh)) hp0, recordParser]
              split
              · rfl
              · rename_i h3p
                match p, hpx, h3p with
                | [], _, h3p => simp at h3p
                | [_], _, h3p => simp at h3p
                | [_, _], _, h3p => simp at h3p
                | a' :: b' :: c' :: p', hpx, _ =>
                  simp only [List.cons_prefix_cons] at hpx
                  obtain ⟨rfl, rfl, rfl, -⟩ := hpx
                  rw [if_neg (by simpa using hER), if_neg (by simp),
                    if_neg (by simp only [ne_eq, List.cons.injEq, and_true] at hBl; simpa using hBl)]
                  rfl
          · have hl2 : Lines.lines ((a :: b :: ' ' :: v ++ ['\n']) ++ q) = (a :: b :: ' ' :: v ++ ['\n']) :: Lines.lines q := by
              rw [List.append_assoc, List.singleton_append, Lines.lines_append _ q hxn]
            rw [hl2, recordParser, if_neg (by simp), if_neg (by simpa using hER), if_neg (by simp),
              if_neg (by simp only [ne_eq, List.cons.injEq, and_true] at hBl; simpa using hBl)]
            -- the rest of the record, as fields: the remaining values with any tag
            have key : ∀ (vs : List Str), (∀ w ∈ vs, '\n' ∉ w) → ∀ (acc : Fields), acc ≠ [] → ∀ q,
                q <+: (vs.map (fun w => [' ', ' ', ' '] ++ w ++ ['\n']) ++ recordLines fs).flatten ++ "ER\n".toList →
                q ≠ (vs.map (fun w => [' ', ' ', ' '] ++ w ++ ['\n']) ++ recordLines fs).flatten ++ "ER\n".toList →
                recordParser acc (Lines.lines q) = (.error .badRecord, []) := by
              intro vs
              induction vs with
              | nil =>
                intro _ acc hacc q hq hqn
                exact parse_truncated acc hacc fs (fun g hg => h.fields.ok g (by rw [hf]; exact List.mem_cons_of_mem _ hg)) q hq hqn
              | cons w vs ih =>
                intro hw acc hacc q hq hqn
                have hwn : '\n' ∉ ' ' :: ' ' :: ' ' :: w := by
                  have := hw w (by simp)
                  simp [this]
                rw [List.map_cons, List.cons_append, List.flatten_cons, List.append_assoc] at hq hqn
                rcases prefix_append_cases hq with hin | ⟨q', rfl, hq'⟩
                · by_cases hql : q = [' ', ' ', ' '] ++ w ++ ['\n']
                  · have : Lines.lines q = [[' ', ' ', ' '] ++ w ++ ['\n']] := by
                      rw [hql]
                      exact Lines.lines_append _ [] hwn
                    rw [this, recordParser, if_neg (by simp), if_neg (by simp), if_neg (by simp), if_pos (by simp), if_neg hacc]
                    rfl
                  · have hpx : q <+: ' ' :: ' ' :: ' ' :: w := by
                      rcases prefix_append_cases hin with hh | ⟨z, rfl, hz⟩
                      · exact hh
                      · rcases List.prefix_cons_iff.1 hz with rfl | ⟨z', rfl, hz'⟩
                        · simp
                        · rw [List.prefix_nil.1 hz'] at hql
                          exact absurd rfl hql
                    by_cases hq0 : q = []
                    · subst hq0; rfl
                    · rw [Lines.lines_last q (fun hh => hwn (hpx.subset hh)) hq0, recordParser]
                      split
                      · rfl
                      · rename_i h3q
                        match q, hpx, h3q with
                        | [], _, h3q => simp at h3q
                        | [_], _, h3q => simp at h3q
                        | [_, _], _, h3q => simp at h3q
                        | a' :: b' :: c' :: p', hpx, _ =>
                          simp only [List.cons_prefix_cons] at hpx
                          obtain ⟨rfl, rfl, rfl, -⟩ := hpx
                          rw [if_neg (by simp), if_neg (by simp), if_pos (by simp)]
                          rfl
                · have hl3 : Lines.lines (([' ', ' ', ' '] ++ w ++ ['\n']) ++ q') = ([' ', ' ', ' '] ++ w ++ ['\n']) :: Lines.lines q' := by
                    rw [List.append_assoc, List.singleton_append]
                    exact Lines.lines_append _ q' hwn
                  rw [hl3, recordParser, if_neg (by simp), if_neg (by simp), if_neg (by simp), if_pos (by simp), if_neg hacc]
                  refine ih (fun x hx => hw x (List.mem_cons_of_mem _ hx)) _ ?_ q' hq' (by rintro rfl; exact hqn rfl)
                  obtain ⟨acc', g, rfl⟩ := List.eq_nil_or_concat acc |>.resolve_left hacc
                  simp [appendLast]
            exact key vs (fun w hw => hok.valNL w (by simp [hw])) _ (by simp) q hq (by rintro rfl; exact hfull rfl)
      -- the lines of p
      have hne : Lines.lines p ≠ [] := by
        intro e
        have := Lines.flatten_lines p
        rw [e] at this
        exact hp0 this.symm
      obtain ⟨l0, ls0, hl0⟩ := List.exists_cons_of_ne_nil hne
      rw [hl0] at hbad ⊢
      rw [run_cons]
      split
      · -- a blank first line is all there is
        rename_i hsp
        by_cases hls : ls0 = []
        · rw [hls]; exact ⟨rs, rfl⟩
        · exfalso
          -- then the first line is complete and contains the tag
          have hab := allButLast_lines p [] l0 ls0 hl0 hls
          obtain ⟨x, hx, hxn⟩ := hab
          have hfl : p = l0 ++ ls0.flatten := by
            have := Lines.flatten_lines p
            rw [hl0] at this
            simpa using this.symm
          rw [h1, List.flatten_cons] at hp1
          have htn : '\n' ∉ t ++ ' ' :: v := by
            have hc1 := recordLines_complete r.fields h.fields.ok (t ++ ' ' :: v ++ ['\n']) (by rw [h1]; simp)
            obtain ⟨y, hy1, hy2⟩ := hc1
            have := List.append_inj' hy1 rfl
            rw [this.1]; exact hy2
          -- compare the first lines
          have hxt : x = t ++ ' ' :: v := by
            obtain ⟨z, hz⟩ := hp1
            rw [hfl, hx] at hz
            have e : x ++ '\n' :: (ls0.flatten ++ z) = (t ++ ' ' :: v) ++ '\n' :: (ls.flatten ++ "ER\n".toList) := by
              simpa using hz
            have e1 := Lines.lines_append x (ls0.flatten ++ z) hxn
            have e2 := Lines.lines_append (t ++ ' ' :: v) (ls.flatten ++ "ER\n".toList) htn
            rw [e, e2] at e1
            have := (List.cons.inj e1).1
            exact (List.append_inj' this rfl).1.symm
          have := isSpace_false ws l0 c (by rw [hx, hxt]; simp [h4]) h5
          rw [this] at hsp
          simp at hsp
      · split
        · rename_i hef
          exfalso
          -- the first line starts with the tag of the first field
          rw [h1, List.flatten_cons] at hp1
          have hfl : p = l0 ++ ls0.flatten := by
            have := Lines.flatten_lines p
            rw [hl0] at this
            simpa using this.symm
          have hl02 : l0 <+: t ++ ' ' :: v ++ ['\n'] ++ (ls.flatten ++ "ER\n".toList) := by
            have h0 : l0 <+: p := ⟨ls0.flatten, hfl.symm⟩
            have := h0.trans hp1
            simpa using this
          obtain ⟨z, hz⟩ := hl02
          have hl0len : 2 ≤ l0.length := by
            have := congrArg List.length hef
            simp at this
            omega
          have := congrArg (List.take 2) hz
          rw [List.take_append_of_le_length hl0len, hef] at this
          rw [List.append_assoc, List.append_assoc, List.take_append_of_le_length (by omega), List.take_of_length_le (by omega)] at this
          exact h3 this.symm
        · rw [hbad]
          exact ⟨addRec rs ⟨[], missingId, true⟩, rfl⟩

/-- C31: a written file cut off at any point is reported to end before the end mark. -/
theorem C31_truncation (ws : Char → Bool) (hws : ws '\n' = true) (hE : ws 'E' = false) (rs : List Rec) (hne : rs ≠ [])
    (hg : ∀ r ∈ rs, Good ws r) (hd : Distinct rs) (text p : Str) (hw : writeFile rs = some text) (hp : p <+: text) (hlt : p ≠ text) :
    ∃ res, wosParser ws p = some res ∧ res.error = some .noEF ∧ res.crashed = false := by
  rw [writeFile_eq rs hne hg] at hw
  obtain rfl := (Option.some.inj hw).symm
  rw [List.append_assoc] at hp hlt
  rcases prefix_append_cases hp with h | ⟨q, rfl, hq⟩
  · -- inside the header
    by_cases hh : p = header
    · subst hh
      have := parse_written ws hws [] (by simp) (by simp [Distinct]) []
      simp only [body, List.flatMap_nil, List.flatten_nil, List.append_nil] at this
      exact ⟨⟨[], some .noEF, false⟩, by rw [this]; rfl, rfl, rfl⟩
    · obtain ⟨t, ht⟩ := h
      have hk : p = header.take p.length := by rw [← ht]; simp
      have hlen : p.length < header.length := by
        rw [← ht, List.length_append]
        have : t ≠ [] := by
          rintro rfl
          exact hh (by simpa using ht)
        have := List.length_pos_iff.2 this
        omega
      have hall : ∀ n < header.length, ∃ res, (∀ ws, wosParser ws (header.take n) = some res) ∧ res.error = some .noEF ∧ res.crashed = false := by
        intro n hn
        refine ⟨⟨[], some .noEF, false⟩, ?_, rfl, rfl⟩
        intro ws
        have hsk : skipVR (Lines.fileLines (dropBOM (header.take n))) = none ∨ skipVR (Lines.fileLines (dropBOM (header.take n))) = some [] := by
          have hn' : n < 43 := by
            have : header.length = 43 := by decide
            omega
          revert hn'
          clear hn
          revert n
          decide +kernel
        unfold wosParser
        simp only []
        rcases hsk with h | h <;> rw [h]
        rfl
      rw [hk]
      obtain ⟨res, h1, h2, h3⟩ := hall p.length hlen
      exact ⟨res, h1 ws, h2, h3⟩
  · -- after the header
    have hq1 : q <+: body rs ++ "EF".toList := hq
    have hqn : q ≠ body rs ++ "EF".toList := by rintro rfl; exact hlt rfl
    have hqcr : '\r' ∉ q := by
      intro hc
      have := hq1.subset hc
      rcases List.mem_append.1 this with h | h
      · exact body_noCR rs hg h
      · revert h; decide
    -- complete records, then a part
    have hsplit : ∀ (rs : List Rec) (q : Str), q <+: body rs ++ "EF".toList → q ≠ body rs ++ "EF".toList →
        ∃ done q', q = body done ++ q' ∧ done <+: rs ∧ ((∃ r ∈ rs, q' <+: (chunk r).flatten ∧ q' ≠ (chunk r).flatten) ∨ q' = [] ∨ q' = ['E']) := by
      intro rs
      induction rs with
      | nil =>
        intro q hq hqn
        refine ⟨[], q, by simp [body], List.prefix_rfl, Or.inr ?_⟩
        simp only [body, List.flatMap_nil, List.flatten_nil, List.nil_append] at hq hqn
        obtain ⟨t, ht⟩ := hq
        match q, ht, hqn with
        | [], _, _ => exact Or.inl rfl
        | [a], ht, _ => simp at ht; exact Or.inr (by rw [ht.1])
        | a :: b :: q, ht, hqn =>
          simp at ht
          obtain ⟨rfl, rfl, rfl, -⟩ := ht
          exact absurd rfl hqn
      | cons r rs ih =>
        intro q hq hqn
        have hb : body (r :: rs) = (chunk r).flatten ++ body rs := by simp [body]
        rw [hb, List.append_assoc] at hq hqn
        rcases prefix_append_cases hq with h | ⟨q', rfl, hq'⟩
        · by_cases he : q = (chunk r).flatten
          · exact ⟨[r], [], by simp [body, he], by simp, Or.inr (Or.inl rfl)⟩
          · exact ⟨[], q, by simp [body], by simp, Or.inl ⟨r, by simp, h, he⟩⟩
        · obtain ⟨done, q'', h1, h2, h3⟩ := ih q' hq' (by rintro rfl; exact hqn rfl)
          refine ⟨r :: done, q'', ?_, by simpa using h2, ?_⟩
          · rw [h1, ← List.append_assoc]; simp [body]
          · rcases h3 with ⟨s, hs, h4⟩ | h4
            · exact Or.inl ⟨s, List.mem_cons_of_mem _ hs, h4⟩
            · exact Or.inr h4
    obtain ⟨done, q', rfl, hdone, hq'⟩ := hsplit rs q hq1 hqn
    have hgd : ∀ r ∈ done, Good ws r := fun r hr => hg r (hdone.subset hr)
    have hdd : Distinct done := List.Nodup.sublist (hdone.sublist.map _) hd
    have hcr' : '\r' ∉ q' := fun h => hqcr (List.mem_append.2 (Or.inr h))
    rw [← List.append_assoc, parse_written ws hws done hgd hdd, Lines.fileLines, Lines.univ_id _ hcr']
    rcases hq' with ⟨r, hr, h1, h2⟩ | rfl | rfl
    · obtain ⟨rs', h⟩ := run_truncated ws r (hg r hr) q' h1 done h2 hws
      exact ⟨_, h, rfl, rfl⟩
    · exact ⟨_, rfl, rfl, rfl⟩
    · refine ⟨⟨addRec done ⟨[], missingId, true⟩, some .noEF, false⟩, ?_, rfl, rfl⟩
      have : Lines.lines ['E'] = [['E']] := rfl
      rw [this, run_cons, if_neg (by rw [isSpace_false ws _ 'E' (by simp) hE]; simp), if_neg (by decide)]
      rfl

/-- A line too short in the middle of a record does not only make that record bad: its remaining lines are read as a further record, here a
good one. -/
theorem C31_short_line_splits_record :
    wosParser (fun c => c == ' ' || c == '\n')
      "VR 1.0\nPT J\nAU A\n\nTI T\nUT W1\nER\n\nEF".toList =
      some ⟨[⟨[], "WOS:Missing".toList, true⟩, ⟨[("TI".toList, ["T".toList]), ("UT".toList, ["W1".toList])], "W1".toList, false⟩], none, false⟩ := by
  decide +kernel

/-- Witness: two authors in two fields. -/
example : wosParser (fun c => c == ' ' || c == '\n') (header ++ "PT J\nAU A\nAU B\nUT W1\nER\n\nEF".toList) = some ⟨[⟨[], "WOS:Missing".toList, true⟩], none, false⟩ ∧
    ¬ ([("PT".toList, ["J".toList]), ("AU".toList, ["A".toList]), ("AU".toList, ["B".toList])].map (Prod.fst : Str × List Str → Str)).Nodup := by decide +kernel

/-- Witness: a record whose second line lost its space. -/
example : Damaged (fun c => c == ' ' || c == '\n') [("PT".toList, ["J".toList])] "AUSmith\n".toList ["   Jones\n".toList, "UT W3\n".toList] := by
  refine ⟨⟨?_, ?_⟩, ?_, ⟨"AUSmith".toList, ?_⟩, ?_, ?_, ?_, ?_⟩
  · intro f hf
    simp only [List.mem_cons, List.not_mem_nil, or_false] at hf
    subst hf
    constructor <;> decide
  · decide
  · decide
  · decide
  · decide
  · decide
  · intro l hl
    simp only [List.mem_cons, List.not_mem_nil, or_false] at hl
    rcases hl with rfl | rfl
    · exact ⟨by decide, "   Jones".toList, by decide, by decide, by decide⟩
    · exact ⟨by decide, "UT W3".toList, by decide, by decide, by decide⟩
  · intro l hl
    cases hl
    exact ⟨by decide, 'P', by decide, by decide⟩

/-- Witness: two records which meet the hypotheses. -/
def exRec1 : Rec := ⟨[("PT".toList, ["J".toList]), ("AU".toList, ["A, B".toList, "ER C".toList]), ("UT".toList, ["W1".toList])], "W1".toList, false⟩
def exRec2 : Rec := ⟨[("PT".toList, ["J".toList]), ("UT".toList, ["W2".toList])], "W2".toList, false⟩

theorem exGood : ∀ r ∈ [exRec1, exRec2], Good (fun c => c == ' ' || c == '\n') r := by
  intro r hr
  simp only [List.mem_cons, List.not_mem_nil, or_false] at hr
  rcases hr with rfl | rfl
  · refine ⟨rfl, ⟨?_, by decide⟩, by decide, ⟨[], by decide⟩, ?_⟩
    · intro f hf
      simp only [exRec1, List.mem_cons, List.not_mem_nil, or_false] at hf
      rcases hf with rfl | rfl | rfl <;> exact ⟨by decide, by decide, by decide, by decide, by decide, by decide⟩
    · intro f hf
      simp [exRec1] at hf
      subst hf
      exact ⟨by decide, 'P', by simp, by decide⟩
  · refine ⟨rfl, ⟨?_, by decide⟩, by decide, ⟨[], by decide⟩, ?_⟩
    · intro f hf
      simp only [exRec2, List.mem_cons, List.not_mem_nil, or_false] at hf
      rcases hf with rfl | rfl <;> exact ⟨by decide, by decide, by decide, by decide, by decide, by decide⟩
    · intro f hf
      simp [exRec2] at hf
      subst hf
      exact ⟨by decide, 'P', by simp, by decide⟩

example : ∃ text, writeFile [exRec1, exRec2] = some text ∧ wosParser (fun c => c == ' ' || c == '\n') text = some ⟨[exRec1, exRec2], none, false⟩ ∧
    isWOSFile text = true :=
  C30_round_trip _ rfl rfl _ (by simp) exGood (by unfold Distinct; decide)

end Verif.Props.WosFiles
