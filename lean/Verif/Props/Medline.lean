import Verif.Lemmas.Medline
import Verif.Props.Wos

/-!
# C32 and C58: Medline records and files
-/
set_option autoImplicit false
set_option linter.unusedSimpArgs false
namespace Verif.Props.MedlineFiles
open Verif.Py Verif.Model.Medline Verif.Spec.Medline Verif.Lemmas.Medline

variable {ws alpha : Char → Bool}

theorem split_complete (ls : List Str) (h : Lines.Complete ls) : (Str.split ['\n'] ls.flatten).map (· ++ ['\n']) = ls ++ [['\n']] := by
  induction ls with
  | nil => rfl
  | cons l ls ih =>
    obtain ⟨x, rfl, hx⟩ := h l (by simp)
    have ih' := ih (fun m hm => h m (by simp [hm]))
    unfold Str.split at ih' ⊢
    rw [List.flatten_cons, Str.splitGo_append ['\n'] (by simp) [] x _ (by simpa [List.singleton_infix_iff] using hx), List.map_cons, ih']
    rfl

theorem parse_blank (s : St) (hc : Classes ws alpha) (rest : List Str) : parseFrom ws alpha s (['\n'] :: rest) = (.ok s.d, rest) := by
  have h : Str.rstrip ws (['\n'].take 4) = [] := by simp [Str.rstrip, hc.newline]
  rw [parseFrom]
  simp only [h]
  rw [if_neg (by simp [isAlpha]), if_neg (by simp [isAlpha]), if_neg (by decide), if_pos trivial]

theorem mkRec_ok (d e : Fields) (v : Str) (vs : List Str) (h : Same d e) (he : Dict.get? e pmid = some (v :: vs)) :
    mkRec (.ok d) = .ok ⟨d, some ("PMID:".toList ++ v), false⟩ := by
  unfold mkRec
  simp only [h pmid, he]

/-- A record which is not bad: its number is the first value of PMID. -/
structure Good (alpha : Char → Bool) (r : Rec) : Prop where
  fields : RecordOk alpha r.fields
  notBad : r.bad = false
  id : ∃ v vs, Dict.get? r.fields "PMID".toList = some (v :: vs) ∧ r.id = some ("PMID:".toList ++ v)

/-- Records which cannot be told apart by their fields, id or state. -/
def Alike (r s : Rec) : Prop := Same r.fields s.fields ∧ r.id = s.id ∧ r.bad = s.bad

/-- C32: what is written for a record is read back as a record with the same tags and values, the attached values included. -/
theorem C32_round_trip (hc : Classes ws alpha) (r : Rec) (h : Good alpha r) :
    ∃ text r', writeRecord r = some text ∧ ofString ws alpha text = .ok r' ∧ Alike r' r := by
  obtain ⟨ls, s, h1, h2, h3, h4, -, -⟩ := parse_written hc r.fields h.fields
  obtain ⟨v, vs, hv, hid⟩ := h.id
  refine ⟨writeFields r.fields, ⟨s.d, some ("PMID:".toList ++ v), false⟩, by simp [writeRecord, h.notBad], ?_, h3, hid.symm, h.notBad.symm⟩
  unfold ofString
  rw [h1, split_complete ls h2, h4, parse_blank s hc]
  exact mkRec_ok _ _ v vs h3 hv

/-- C32: for a record that was read from any text, if its authors are distinct names of one line and each attached value belongs to one of them:
writing it and reading that again changes nothing. -/
theorem C32_reread_partial (hc : Classes ws alpha) (text : Str) (r : Rec) (h : ofString ws alpha text = .ok r) (hb : r.bad = false)
    (hn : (authors r.fields).Nodup) (hnames : ∀ a ∈ authors r.fields, NameOk a) (hnone : "None".toList ∉ authors r.fields)
    (hatt : ∀ t ∈ attachedTags, ∀ x ∈ (Dict.get? r.fields t).getD [], ∃ a ∈ authors r.fields, ∃ c, x = a ++ " : ".toList ++ c) :
    ∃ text' r', writeRecord r = some text' ∧ ofString ws alpha text' = .ok r' ∧ Alike r' r := by
  have hok : ∃ d, (recordParser ws alpha ((Str.split ['\n'] text).map (· ++ ['\n']))).1 = .ok d ∧ r.fields = d ∧
      ∃ v vs, Dict.get? d pmid = some (v :: vs) ∧ r.id = some ("PMID:".toList ++ v) := by
    unfold ofString at h
    revert h
    cases hp : (recordParser ws alpha ((Str.split ['\n'] text).map (· ++ ['\n']))).1 with
    | error e =>
      intro h
      exfalso
      cases e <;> simp [mkRec, Dict.get?] at h
      subst h
      simp at hb
    | ok d =>
      intro h
      refine ⟨d, rfl, ?_⟩
      unfold mkRec at h
      simp only at h
      split at h
      · rename_i v vs hv
        cases h
        exact ⟨rfl, v, vs, hv, rfl⟩
      · simp at h
      · cases h; simp at hb
  obtain ⟨d, hp, rfl, v, vs, hv, hid⟩ := hok
  have hl : ∀ l ∈ (Str.split ['\n'] text).map (· ++ ['\n']), '\n' ∉ l.dropLast := by
    intro l hl
    obtain ⟨p, hp, rfl⟩ := List.mem_map.1 hl
    rw [List.dropLast_concat]
    exact Str.split_char_pieces '\n' text p hp
  obtain ⟨is, hi, hd⟩ := parse_image (ws := ws) (alpha := alpha) [] _ hl r.fields _ (Prod.ext hp rfl) (by simp)
  rw [hd] at hn hnames hnone hatt hv
  have := image_ok is hi hn hnames hnone hatt
  exact C32_round_trip hc r ⟨by rw [hd]; exact this, hb, ⟨v, vs, by rw [hd]; exact hv, hid⟩⟩

/-! ## Where the code loses values -/

def ascii : Char → Bool := fun c => c.isAlpha
def asciiWs : Char → Bool := fun c => c == ' ' || c == '\n' || c == '\t'

theorem ascii_classes : Classes asciiWs ascii := by
  refine ⟨rfl, rfl, ?_⟩
  intro c hc
  by_contra h
  have h' : asciiWs c = true := by simpa using h
  have : c = ' ' ∨ c = '\n' ∨ c = '\t' := by simpa [asciiWs, or_assoc] using h'
  rcases this with rfl | rfl | rfl <;> exact absurd hc (by decide)

def textTwice : Str := "PMID- 1\nAU  - A\nAD  - X\nAU  - A\nAD  - Y\n".toList
def textLong : Str := "PMID- 1\nAU  - A\n      B\nAD  - X\n".toList
def textNoAuthor : Str := "PMID- 1\nAD  - X\n".toList

/-- What becomes of a record that is read, written and read again. -/
def again (text : Str) : Option (Rec × Rec) :=
  match ofString asciiWs ascii text with
  | .ok r => match writeRecord r with
    | some t => match ofString asciiWs ascii t with
      | .ok r' => some (r, r')
      | .error _ => none
    | none => none
  | .error _ => none

/-- C32 fails for an author listed twice: the attached values are written for each of the two (the code disagrees with the property). -/
theorem C32_author_twice : ∃ r r', again textTwice = some (r, r') ∧
    Dict.get? r.fields "AD".toList = some ["A : X".toList, "A : Y".toList] ∧
    Dict.get? r'.fields "AD".toList = some ["A : X".toList, "A : Y".toList, "A : X".toList, "A : Y".toList] :=
  ⟨_, _, by rfl, by decide +kernel, by decide +kernel⟩

/-- C32 fails for an author of two lines: the attached values are lost. -/
theorem C32_author_two_lines : ∃ r r', again textLong = some (r, r') ∧
    Dict.get? r.fields "AD".toList = some ["A : X".toList] ∧ Dict.get? r'.fields "AD".toList = none :=
  ⟨_, _, by rfl, by decide +kernel, by decide +kernel⟩

/-- C32 fails for attached values in front of all authors: they are lost. -/
theorem C32_no_author : ∃ r r', again textNoAuthor = some (r, r') ∧
    Dict.get? r.fields "AD".toList = some ["None : X".toList] ∧ Dict.get? r'.fields "AD".toList = none :=
  ⟨_, _, by rfl, by decide +kernel, by decide +kernel⟩

/-! ## Files -/

/-- A record which can be in a file: PMID is its first tag, and there are no carriage returns. -/
structure GoodInFile (alpha : Char → Bool) (r : Rec) : Prop extends Good alpha r where
  first : ∃ vs d, r.fields = ("PMID".toList, vs) :: d
  noCR : ∀ f ∈ r.fields, '\r' ∉ f.1 ∧ ∀ v ∈ f.2, '\r' ∉ v

/-- Distinct numbers. -/
def Distinct (rs : List Rec) : Prop := (rs.map Rec.id).Nodup

theorem addRec_fresh (rs : List Rec) (r : Rec) (hb : r.bad = false) (h : ∀ s ∈ rs, s.bad = false ∧ s.id ≠ r.id) : addRec rs r = rs ++ [r] := by
  unfold addRec
  rw [if_neg]
  intro hc
  rw [List.any_eq_true] at hc
  obtain ⟨s, hs, hk⟩ := hc
  obtain ⟨h1, h2⟩ := h s hs
  simp [Rec.key, hb, h1] at hk
  exact h2 hk

/-- The lines of a record in a file and what they are read as. -/
theorem chunk (hc : Classes ws alpha) (r : Rec) (h : GoodInFile alpha r) : ∃ (ls : List Str) (r' : Rec), writeRecord r = some ls.flatten ∧
    Lines.Complete ls ∧ '\r' ∉ ls.flatten ∧ Alike r' r ∧ (∃ p ls', ls = ("PMID- ".toList ++ p) :: ls') ∧
    ∀ rest res, run ws alpha (ls ++ ['\n'] :: rest) res = run ws alpha rest { res with recs := addRec res.recs r' } := by
  obtain ⟨ls, s, h1, h2, h3, h4, h5, h6⟩ := parse_written hc r.fields h.fields
  obtain ⟨v, vs, hv, hid⟩ := h.id
  obtain ⟨vs', d, hd⟩ := h.first
  obtain ⟨p, ls', hls⟩ := h6 vs' d hd
  refine ⟨ls, ⟨s.d, some ("PMID:".toList ++ v), false⟩, by simp [writeRecord, h.notBad, h1], h2, h5 h.noCR, ⟨h3, hid.symm, h.notBad.symm⟩, ⟨p, ls', hls⟩, ?_⟩
  intro rest res
  have hp := h4 (['\n'] :: rest)
  rw [parse_blank s hc] at hp
  rw [hls] at hp ⊢
  rw [List.cons_append] at hp ⊢
  rw [run_cons, if_pos (by rw [List.isPrefixOf_iff_prefix]; exact List.prefix_append _ _), hp, mkRec_ok _ _ v vs h3 hv]

theorem chunks (hc : Classes ws alpha) (rs : List Rec) (h : ∀ r ∈ rs, GoodInFile alpha r) (done : List Rec) (hdone : ∀ r ∈ done, r.bad = false)
    (hd : (done.map Rec.id ++ rs.map Rec.id).Nodup) : ∃ (ts : List Str) (ls : List Str) (rs' : List Rec), rs.mapM writeRecord = some ts ∧
    (ts.map (· ++ ['\n'])).flatten = ls.flatten ∧ Lines.Complete ls ∧ '\r' ∉ ls.flatten ∧ List.Forall₂ Alike rs' rs ∧
    (rs ≠ [] → ∃ p ls', ls = ("PMID- ".toList ++ p) :: ls') ∧
    ∀ rest e, run ws alpha (ls ++ rest) ⟨done, e⟩ = run ws alpha rest ⟨done ++ rs', e⟩ := by
  induction rs generalizing done with
  | nil => exact ⟨[], [], [], rfl, rfl, by intro l hl; simp at hl, by simp, .nil, by simp, by simp⟩
  | cons r rs ih =>
    obtain ⟨ls1, r', a1, a2, a3, a4, ⟨p, ls1', a5⟩, a6⟩ := chunk hc r (h r (by simp))
    have hb : r'.bad = false := by rw [a4.2.2]; exact (h r (by simp)).notBad
    obtain ⟨ts, ls2, rs2, b1, b2, b3, b4, b5, -, b7⟩ := ih (fun s hs => h s (by simp [hs])) (done ++ [r'])
      (by intro s hs; rcases List.mem_append.1 hs with hs | hs
          · exact hdone s hs
          · simp only [List.mem_singleton] at hs; subst hs; exact hb)
      (by simpa [a4.2.1] using hd)
    refine ⟨ls1.flatten :: ts, ls1 ++ ['\n'] :: ls2, r' :: rs2, by simp [List.mapM_cons, a1, b1], ?_, ?_, ?_, .cons a4 b5, ?_, ?_⟩
    · simp [b2]
    · intro l hl
      rcases List.mem_append.1 hl with hl | hl
      · exact a2 l hl
      · rcases List.mem_cons.1 hl with rfl | hl
        · exact ⟨[], rfl, by simp⟩
        · exact b3 l hl
    · simp only [List.flatten_append, List.flatten_cons, List.mem_append, not_or]
      exact ⟨a3, by decide, b4⟩
    · intro _; exact ⟨p, ls1' ++ ['\n'] :: ls2, by rw [a5]; rfl⟩
    · intro rest e
      rw [List.append_assoc, List.cons_append, a6, addRec_fresh done r' hb, b7]
      · simp
      · intro s hs
        refine ⟨hdone s hs, ?_⟩
        rw [a4.2.1]
        intro e'
        rw [List.nodup_append] at hd
        exact hd.2.2 s.id (List.mem_map_of_mem hs) r.id (by simp) e'

/-- A file which starts as a written one, whatever follows. -/
theorem written (hc : Classes ws alpha) (rs : List Rec) (hne : rs ≠ []) (h : ∀ r ∈ rs, GoodInFile alpha r) (hd : Distinct rs) :
    ∃ text rs', writeFile rs = some text ∧ List.Forall₂ Alike rs' rs ∧ isMedlineFile text = true ∧
      ∀ s, medlineParser ws alpha (text ++ s) = run ws alpha (Lines.fileLines s) ⟨rs', false⟩ := by
  obtain ⟨ts, ls, rs', h1, h2, h3, h4, h5, h6, h7⟩ := chunks hc rs h [] (by simp) (by simpa [Distinct] using hd)
  obtain ⟨p, ls', hls⟩ := h6 hne
  have hlines : ∀ s, Lines.fileLines ('\n' :: (ts.map (· ++ ['\n'])).flatten ++ s) = ['\n'] :: (ls ++ Lines.fileLines s) := by
    intro s
    rw [h2]
    unfold Lines.fileLines
    rw [List.cons_append, show '\n' :: (ls.flatten ++ s) = ('\n' :: ls.flatten) ++ s from rfl,
      Verif.Props.WosFiles.univ_append _ _ (by simp [h4]), List.cons_append, Lines.lines, if_pos rfl, Lines.lines_flatten ls h3]
  refine ⟨'\n' :: (ts.map (· ++ ['\n'])).flatten, rs', by simp [writeFile, hne, h1], h5, ?_, ?_⟩
  · unfold isMedlineFile
    have := hlines []
    rw [List.append_nil] at this
    rw [this, hls, List.any_eq_true]
    exact ⟨"PMID- ".toList ++ p, by simp, by rw [List.isPrefixOf_iff_prefix]; exact List.prefix_append _ _⟩
  · intro s
    rw [medlineParser_eq _ (by rw [hlines]; simp), hlines, run_cons, if_neg (by decide), if_pos rfl, h7]
    rfl

/-- C58: reading the file written for a collection gives back its records and no error; and the file is recognised as a Medline file. -/
theorem C58_round_trip (hc : Classes ws alpha) (rs : List Rec) (hne : rs ≠ []) (h : ∀ r ∈ rs, GoodInFile alpha r) (hd : Distinct rs) :
    ∃ text rs', writeFile rs = some text ∧ medlineParser ws alpha text = some (.ok ⟨rs', false⟩) ∧ List.Forall₂ Alike rs' rs ∧
      isMedlineFile text = true := by
  obtain ⟨text, rs', h1, h2, h3, h4⟩ := written hc rs hne h hd
  refine ⟨text, rs', h1, ?_, h2, h3⟩
  have := h4 []
  rw [List.append_nil] at this
  rw [this]
  rfl

theorem addRec_prefix (rs : List Rec) (r : Rec) : rs <+: addRec rs r := by
  unfold addRec; split
  · exact List.prefix_rfl
  · exact List.prefix_append _ _

theorem run_prefix (n : Nat) (ls : List Str) (hn : ls.length ≤ n) (r res : Res) (h : run ws alpha ls r = some (.ok res)) : r.recs <+: res.recs := by
  induction n generalizing ls r with
  | zero =>
    have : ls = [] := List.eq_nil_of_length_eq_zero (by omega)
    subst this
    simp [run, loop] at h
    subst h; exact List.prefix_rfl
  | succ n ih =>
    cases ls with
    | nil => simp [run, loop] at h; subst h; exact List.prefix_rfl
    | cons l ls =>
      have hr := parse_rest_length (ws := ws) (alpha := alpha) ⟨[], pmid, none⟩ l ls
      simp only [List.length_cons] at hn
      rw [run_cons] at h
      split at h
      · split at h
        · exact (addRec_prefix _ _).trans (ih (recordParser ws alpha (l :: ls)).2 (by unfold recordParser; omega) _ h)
        · simp at h
      · split at h
        · exact ih ls (by omega) _ h
        · exact ih ls (by omega) ⟨r.recs, true⟩ h

/-- C58: the reader comes to an end for every file, with a result or an exception. -/
theorem C58_total (text : Str) (h : text ≠ []) : ∃ x, medlineParser ws alpha text = some x := by
  have hl : Lines.fileLines text ≠ [] := by
    intro e
    have := Lines.flatten_lines (Lines.univ text)
    unfold Lines.fileLines at e
    rw [e] at this
    cases text with
    | nil => exact h rfl
    | cons c s =>
      rw [Lines.univ.eq_def] at this
      split at this <;> simp at *
  rw [medlineParser_eq text hl]
  exact Option.ne_none_iff_exists'.1 (loop_total _ _ _ (by omega))

/-- C58: whatever follows the written records, if the reader returns then they are among the records returned, in front of all others. -/
theorem C58_prefix_partial (hc : Classes ws alpha) (rs : List Rec) (hne : rs ≠ []) (h : ∀ r ∈ rs, GoodInFile alpha r) (hd : Distinct rs) (s : Str)
    (res : Res) : ∃ text rs', writeFile rs = some text ∧ List.Forall₂ Alike rs' rs ∧
      (medlineParser ws alpha (text ++ s) = some (.ok res) → rs' <+: res.recs) := by
  obtain ⟨text, rs', h1, h2, -, h4⟩ := written hc rs hne h hd
  refine ⟨text, rs', h1, h2, ?_⟩
  intro hm
  rw [h4] at hm
  exact run_prefix _ _ (le_refl _) _ _ hm

/-- C58: a short line of letters in the last entry makes the reader raise, and all the records in front of it are lost (the code disagrees with
the property). -/
theorem C58_raises (hc : Classes ws alpha) (hP : ∀ c ∈ "PMIDA".toList, alpha c = true) (rs : List Rec) (hne : rs ≠ [])
    (h : ∀ r ∈ rs, GoodInFile alpha r) (hd : Distinct rs) :
    ∃ text, writeFile rs = some text ∧ medlineParser ws alpha (text ++ "PMID- 1\nA\n".toList) = some (.error .index) := by
  obtain ⟨text, rs', h1, h2, -, h4⟩ := written hc rs hne h hd
  refine ⟨text, h1, ?_⟩
  rw [h4, show Lines.fileLines "PMID- 1\nA\n".toList = ["PMID- 1\n".toList, "A\n".toList] from by decide, run_cons, if_pos (by decide)]
  have hpm : TagOk alpha "PMID".toList := ⟨by decide, by decide, fun c hcm => hP c (by revert hcm; revert c; decide)⟩
  have e1 : "PMID- 1\n".toList = "PMID".toList ++ List.replicate (4 - "PMID".toList.length) ' ' ++ "- ".toList ++ "1".toList ++ ['\n'] := by decide
  have hA : alpha 'A' = true := hP 'A' (by decide)
  have h0 : Str.rstrip ws ("A\n".toList.take 4) = ['A'] := by
    simp [Str.rstrip, hc.newline, hc.letter 'A' hA]
  have : recordParser ws alpha ["PMID- 1\n".toList, "A\n".toList] = (.error .index, []) := by
    unfold recordParser
    rw [e1, parse_tag hc _ _ _ hpm, parseFrom]
    simp only [h0]
    rw [if_pos ⟨by simp [isAlpha, hA], by decide⟩]
  rw [this]
  rfl

/-- C58: a file which was cut after some of its records reads without an error (the format has no end mark). -/
theorem C58_truncation_silent (hc : Classes ws alpha) (rs ss : List Rec) (hne : rs ≠ []) (h : ∀ r ∈ rs ++ ss, GoodInFile alpha r)
    (hd : Distinct (rs ++ ss)) : ∃ whole text rs', writeFile (rs ++ ss) = some whole ∧ text <+: whole ∧
      medlineParser ws alpha text = some (.ok ⟨rs', false⟩) ∧ List.Forall₂ Alike rs' rs := by
  have hd1 : Distinct rs := by
    unfold Distinct at hd ⊢
    rw [List.map_append, List.nodup_append] at hd
    exact hd.1
  obtain ⟨text, rs', h1, h2, h3, -⟩ := C58_round_trip hc rs hne (fun r hr => h r (by simp [hr])) hd1
  obtain ⟨whole, -, w1, -⟩ := C58_round_trip hc (rs ++ ss) (by simp [hne]) h hd
  refine ⟨whole, text, rs', w1, ?_, h2, h3⟩
  unfold writeFile at h1 w1
  rw [if_neg hne] at h1
  rw [if_neg (by simp [hne]), List.mapM_append] at w1
  cases ha : rs.mapM writeRecord with
  | none => rw [ha] at h1; simp at h1
  | some ts =>
    rw [ha] at h1 w1
    cases hb : ss.mapM writeRecord with
    | none => rw [hb] at w1; simp at w1
    | some us =>
      rw [hb] at w1
      simp at h1 w1
      subst h1 w1
      exact ⟨(us.map (· ++ ['\n'])).flatten, by simp⟩

/-- C58: without a line end at the end of the file the last character of the last value is lost. -/
theorem C58_last_character : ∃ r, medlineParser asciiWs ascii "PMID- 1\nTI  - Word".toList = some (.ok ⟨[r], false⟩) ∧
    Dict.get? r.fields "TI".toList = some ["Wor".toList] := ⟨_, by rfl, by decide +kernel⟩

/-! ## Non-vacuity -/

def exFields1 : Fields := [("PMID".toList, ["1".toList]), ("AU".toList, ["A B".toList, "C".toList]),
  ("AD".toList, ["A B : x : y".toList, "A B : z\nw".toList, "C : x".toList]), ("AUID".toList, ["C : 7".toList]), ("AB".toList, ["l1\nl2".toList])]
def exRec1 : Rec := ⟨exFields1, some "PMID:1".toList, false⟩
def exRec2 : Rec := ⟨[("PMID".toList, ["2".toList]), ("TI".toList, ["".toList])], some "PMID:2".toList, false⟩

theorem exGood1 : GoodInFile ascii exRec1 := by
  have hs : ∀ a, NameOk a ↔ ('\n' ∉ a ∧ Str.contains " : ".toList (a ++ " :".toList) = false) := by
    intro a
    unfold NameOk
    rw [← Str.contains_iff]; simp
  refine ⟨⟨⟨by decide, ?_, ?_, by decide, ?_, ?_⟩, rfl, ⟨_, _, rfl, rfl⟩⟩, ⟨_, _, rfl⟩, by decide⟩
  · have : ∀ t ∈ Dict.keys exFields1, t ≠ [] ∧ t.length ≤ 4 ∧ ∀ c ∈ t, ascii c = true := by decide
    exact this
  · intro t h
    have := Dict.mem_of_get? h
    simp [exRec1, exFields1] at this
  · intro a ha
    rw [hs]
    revert a
    decide
  · refine ⟨fun t a => if t = "AD".toList then (if a = "C".toList then ["x".toList] else ["x : y".toList, "z\nw".toList]) else
      (if a = "C".toList then ["7".toList] else []), ?_⟩
    decide

theorem exGood2 : GoodInFile ascii exRec2 := by
  refine ⟨⟨⟨by decide, ?_, ?_, by decide, by intro a ha; simp [authors, exRec2, Dict.get?] at ha, ⟨fun _ _ => [], by decide⟩⟩, rfl, ⟨_, _, rfl, rfl⟩⟩, ⟨_, _, rfl⟩, by decide⟩
  · have : ∀ t ∈ Dict.keys exRec2.fields, t ≠ [] ∧ t.length ≤ 4 ∧ ∀ c ∈ t, ascii c = true := by decide
    exact this
  · intro t h
    have := Dict.mem_of_get? h
    simp [exRec2] at this

example := C32_round_trip ascii_classes exRec1 exGood1.toGood
example := C58_round_trip ascii_classes [exRec1, exRec2] (by simp) (by
  intro r hr; simp only [List.mem_cons, List.not_mem_nil, or_false] at hr; rcases hr with rfl | rfl
  · exact exGood1
  · exact exGood2) (by unfold Distinct; decide)

/-- The hypotheses of `C32_reread_partial` are met by a text. -/
example : ∃ r, ofString asciiWs ascii "PMID- 1\nAU  - A B\nAD  - x : y\nTI  - l1\n      l2\nAU  - C\nAUID- 7\n".toList = .ok r ∧ r.bad = false ∧
    authors r.fields = ["A B".toList, "C".toList] ∧ Dict.get? r.fields "AD".toList = some ["A B : x : y".toList] ∧
    Dict.get? r.fields "AUID".toList = some ["C : 7".toList] := ⟨_, by rfl, by decide +kernel, by decide +kernel, by decide +kernel, by decide +kernel⟩

end Verif.Props.MedlineFiles
