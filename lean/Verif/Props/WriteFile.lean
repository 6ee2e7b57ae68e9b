import Verif.Lemmas.WriteFile
import Verif.Spec.WriteFile
import Verif.Model.Collection
import Verif.Props.Files
import Verif.Props.Wos
import Verif.Props.Medline
import Verif.Props.Scopus

/-! # C99: the file a collection writes -/
set_option autoImplicit false
set_option linter.unusedSimpArgs false
set_option linter.unusedSectionVars false
namespace Verif.Props.WriteFile
open Verif.Py Verif.Model Verif.Model.WriteFile Verif.Spec.Paths Verif.Spec.WriteFile Verif.Lemmas.WriteFile
open Verif.Props.FileChoice (Chosen Unknown)
open Verif.Model.Files (recordHandlers recordDetectors)

variable {ρ ε : Type} [DecidableEq ρ]

/-! ## The file that changes -/

theorem writeFile_eq (cwd : Loc) (fname name : Str) (types : List String) (rs : List AnyRec) (fs : FS (List UInt8)) (c : Codec)
    (hc : recEncoding types rs = some c) (hw : fs.CanWrite (place cwd fname name)) :
    ∃ fs', writeFile cwd fname name types rs fs = (fs', (written c types rs).2) ∧
      Changed fs fs' (place cwd fname name) (c.bytes (written c types rs).1) := by
  unfold writeFile
  rw [hc]
  have hp : walk cwd (outPath fname name) = place cwd fname name := rfl
  have hw' : place cwd fname name ≠ [] ∧ fs.dir (place cwd fname name) = false ∧ fs.dir (place cwd fname name).dropLast = true := hw
  have ho : GraphPaths.openWrite fs (walk cwd (outPath fname name)) (c.bytes (written c types rs).1) =
      some { fs with file := fun m => if m = place cwd fname name then some (c.bytes (written c types rs).1) else fs.file m } := by
    unfold GraphPaths.openWrite
    rw [hp, if_pos hw']
  simp only [ho]
  exact ⟨_, rfl, by simp, by intro m hm; simp [hm], rfl⟩

/-- C99: an empty collection that has noted at most one type raises and no file changes; a file that can not be opened raises and no file
changes; otherwise exactly one file changes, at the place of the name given or of the default name. -/
theorem C99_one_file (cwd : Loc) (fname name : Str) (types : List String) (rs : List AnyRec) (fs : FS (List UInt8)) :
    (rs = [] ∧ types.length < 2 → writeFile cwd fname name types rs fs = (fs, some .attributeError)) ∧
    (¬ (rs = [] ∧ types.length < 2) → ¬ fs.CanWrite (place cwd fname name) → writeFile cwd fname name types rs fs = (fs, some .osError)) ∧
    (¬ (rs = [] ∧ types.length < 2) → fs.CanWrite (place cwd fname name) →
      ∃ fs' e b, writeFile cwd fname name types rs fs = (fs', e) ∧ e ≠ some .osError ∧ e ≠ some .attributeError ∧
        Changed fs fs' (place cwd fname name) b) := by
  have hsome : ¬ (rs = [] ∧ types.length < 2) → ∃ c, recEncoding types rs = some c := by
    intro h
    unfold recEncoding
    split
    · rename_i hl
      cases rs with
      | nil => exact absurd ⟨rfl, hl⟩ h
      | cons r rs => exact ⟨_, rfl⟩
    · exact ⟨_, rfl⟩
  refine ⟨?_, ?_, ?_⟩
  · rintro ⟨rfl, hl⟩
    simp [writeFile, recEncoding, hl]
  · intro h hw
    obtain ⟨c, hc⟩ := hsome h
    unfold writeFile
    rw [hc]
    have ho : ∀ b, GraphPaths.openWrite fs (walk cwd (outPath fname name)) b = none := by
      intro b
      unfold GraphPaths.openWrite
      have hp : walk cwd (outPath fname name) = place cwd fname name := rfl
      have hw' : ¬ (place cwd fname name ≠ [] ∧ fs.dir (place cwd fname name) = false ∧ fs.dir (place cwd fname name).dropLast = true) := hw
      rw [hp, if_neg hw']
    simp only [ho]
  · intro h hw
    obtain ⟨c, hc⟩ := hsome h
    obtain ⟨fs', h1, h2⟩ := writeFile_eq cwd fname name types rs fs c hc hw
    have hput : ∀ d ps, (putAll c d ps).2 ≠ some .osError ∧ (putAll c d ps).2 ≠ some .attributeError := by
      intro d ps
      induction ps generalizing d with
      | nil => simp [putAll]
      | cons p ps ih => rw [putAll]; split; exact ih _; simp
    have hrec : ∀ d rs, (records c d rs).2 ≠ some .osError ∧ (records c d rs).2 ≠ some .attributeError := by
      intro d rs
      induction rs generalizing d with
      | nil => simp [records]
      | cons r rs ih =>
        rw [records]
        cases hp : pieces r with
        | error e =>
          simp only
          have : e = .badRecord ∨ e = .notCompatible := by
            unfold pieces at hp
            cases r <;> simp only at hp
            · split at hp <;> simp at hp; exact Or.inl hp.symm
            · split at hp <;> simp at hp; exact Or.inl hp.symm
            · split at hp <;> simp at hp; exact Or.inl hp.symm
            · simp at hp; exact Or.inr hp.symm
          rcases this with rfl | rfl <;> simp
        | ok ps =>
          simp only
          have := hput d (ps ++ [['\n']])
          cases hq : putAll c d (ps ++ [['\n']]) with
          | mk d' e =>
            rw [hq] at this
            cases e with
            | none => exact ih d'
            | some e => exact this
    refine ⟨fs', _, _, h1, ?_, ?_, h2⟩ <;>
    · unfold written
      have a := hput [] (header types)
      cases hq : putAll c [] (header types) with
      | mk d' e =>
        rw [hq] at a
        cases e with
        | some e => first | exact a.1 | exact a.2
        | none =>
          simp only
          have b := hrec d' rs
          cases hr : records c d' rs with
          | mk d'' e =>
            rw [hr] at b
            cases e with
            | some e => first | exact b.1 | exact b.2
            | none => first | exact (hput _ _).1 | exact (hput _ _).2

/-! ## Collections that have noted the type of their records -/

theorem mapM_wos {ws : Char → Bool} (rs : List Wos.Rec) (hg : ∀ r ∈ rs, Verif.Props.WosFiles.Good ws r) :
    ∃ ts, rs.mapM Wos.writeRecord = some ts ∧ block ts = Verif.Props.WosFiles.body rs := by
  induction rs with
  | nil => exact ⟨[], rfl, rfl⟩
  | cons r rs ih =>
    obtain ⟨ts, h1, h2⟩ := ih (fun s hs => hg s (by simp [hs]))
    refine ⟨_ :: ts, by rw [List.mapM_cons, (hg r (by simp)).text, h1]; rfl, ?_⟩
    rw [block_cons, h2]
    unfold Verif.Props.WosFiles.body
    simp [Verif.Props.WosFiles.chunk, List.flatMap_cons]

theorem utf8_head (types : List String) (r : AnyRec) (rs : List AnyRec) (h : encoding r = .utf8) : recEncoding types (r :: rs) = some .utf8 := by
  unfold recEncoding
  split
  · simp [h]
  · rfl

/-- C99: a collection of Web of Science records that has noted their type writes a file that is recognised as one of these and reads as the
same records. -/
theorem C99_wos (ws : Char → Bool) (hws : ws '\n' = true) (hE : ws 'E' = false) (rs : List Wos.Rec) (hne : rs ≠ [])
    (hg : ∀ r ∈ rs, Verif.Props.WosFiles.Good ws r) (hd : Verif.Props.WosFiles.Distinct rs) (cwd : Loc) (fname name : Str) (fs : FS (List UInt8))
    (hw : fs.CanWrite (place cwd fname name)) (process : Str → Files.File → List ρ × Option ε) :
    ∃ fs' b text h, writeFile cwd fname name ["WOSRecord"] (rs.map .wos) fs = (fs', none) ∧ Changed fs fs' (place cwd fname name) b ∧
      (asFile b).utf8 = some text ∧ Chosen (recordHandlers process) (asFile b) h ∧ h.kind = "WOSRecord".toList ∧
      Wos.wosParser ws text = some ⟨rs, none, false⟩ := by
  obtain ⟨text, h1, h2, h3⟩ := Verif.Props.WosFiles.C30_round_trip ws hws hE rs hne hg hd
  obtain ⟨ts, ht, -⟩ := mapM_wos rs hg
  have hw' := written_ok .utf8 ["WOSRecord"] (rs.map .wos) ts (forall₂_map _ _ text_wos rs ts ht) rfl
  have htext : (header ["WOSRecord"]).flatten ++ block ts ++ (footer ["WOSRecord"]).flatten = text := by
    unfold Wos.writeFile at h1
    rw [if_neg hne, ht, Option.map_some, Option.some.injEq] at h1
    rw [← h1]
    rfl
  rw [htext] at hw'
  have hc : recEncoding ["WOSRecord"] (rs.map .wos) = some .utf8 := by
    cases rs with
    | nil => exact absurd rfl hne
    | cons r rs => exact utf8_head _ _ _ rfl
  obtain ⟨fs', g1, g2⟩ := writeFile_eq cwd fname name ["WOSRecord"] (rs.map .wos) fs .utf8 hc hw
  rw [hw'] at g1 g2
  have hu : (asFile (Codec.bytes .utf8 text)).utf8 = some text := Verif.Lemmas.Codec.utf8_back text
  obtain ⟨h, k1, k2⟩ := Verif.Props.FileChoice.C55_wos_written ws hws hE rs hne hg hd (asFile (Codec.bytes .utf8 text)) text h1 hu process
  exact ⟨fs', _, text, h, g1, g2, hu, k1, k2, h2⟩

theorem isWOS_false (text : Str) (h : NoVR text) : Wos.isWOSFile text = false := by
  unfold Wos.isWOSFile
  rw [List.any_eq_false]
  intro l hl hcn
  have hin := (Str.contains_iff _ _).1 hcn
  cases text with
  | nil => simp [Wos.dropBOM, Lines.fileLines, Lines.univ, Lines.lines] at hl
  | cons c s =>
    rw [Wos.dropBOM] at hl
    split at hl
    · rename_i hb
      subst hb
      have hu : Lines.univ ('﻿' :: s) = '﻿' :: Lines.univ s := by
        rw [Lines.univ]
        · rfl
        · intro s' e; exact absurd e (by decide)
      unfold NoVR Lines.fileLines at h
      rw [hu, Lines.lines, if_neg (by decide)] at h
      unfold Lines.fileLines at hl
      cases hx : Lines.lines (Lines.univ s) with
      | nil => rw [hx] at hl; simp at hl
      | cons x xs =>
        rw [hx] at hl h
        simp only [List.take_succ_cons, List.mem_cons] at hl h
        rcases hl with rfl | hl
        · exact h _ (Or.inl rfl) (hin.trans (List.suffix_cons _ _).isInfix)
        · exact h l (Or.inr hl) hin
    · exact h l hl hin

/-- C99: a collection of Medline records that has noted their type, or none, writes a file that is recognised as one of these and reads as
records with the same id and the same fields, if their characters are those of Latin-1. -/
theorem C99_medline {ws alpha : Char → Bool} (hc : Verif.Spec.Medline.Classes ws alpha) (rs : List Medline.Rec) (hne : rs ≠ [])
    (hg : ∀ r ∈ rs, Verif.Props.MedlineFiles.GoodInFile alpha r) (hd : Verif.Props.MedlineFiles.Distinct rs)
    (hl : ∀ r ∈ rs, ∀ f ∈ r.fields, (∀ c ∈ f.1, Latin c) ∧ ∀ v ∈ f.2, ∀ c ∈ v, Latin c)
    (types : List String) (hty : types = ["MedlineRecord"] ∨ types = []) (cwd : Loc) (fname name : Str) (fs : FS (List UInt8))
    (hw : fs.CanWrite (place cwd fname name)) (process : Str → Files.File → List ρ × Option ε) :
    ∃ fs' b rs', writeFile cwd fname name types (rs.map .medline) fs = (fs', none) ∧ Changed fs fs' (place cwd fname name) b ∧
      Medline.medlineParser ws alpha (asFile b).latin1 = some (.ok ⟨rs', false⟩) ∧ List.Forall₂ Verif.Props.MedlineFiles.Alike rs' rs ∧
      ((∀ t, (asFile b).utf8 = some t → NoVR t) → ∃ h, Chosen (recordHandlers process) (asFile b) h ∧ h.kind = "MedlineRecord".toList) := by
  obtain ⟨ts, ls, rs', h1, h2, h3, h4, h5, h6, h7⟩ := Verif.Props.MedlineFiles.chunks hc rs hg [] (by simp) (by simpa [Verif.Props.MedlineFiles.Distinct] using hd)
  obtain ⟨p, ls', hls⟩ := h6 hne
  have hfit : Codec.fits .latin1 (block ts) = true := by
    have : ∀ (rs : List Medline.Rec) (ts : List Str), (∀ r ∈ rs, ∀ f ∈ r.fields, (∀ c ∈ f.1, Latin c) ∧ ∀ v ∈ f.2, ∀ c ∈ v, Latin c) →
        rs.mapM Medline.writeRecord = some ts → Codec.fits .latin1 (block ts) = true := by
      intro rs
      induction rs with
      | nil => intro ts _ h; simp at h; subst h; rfl
      | cons r rs ih =>
        intro ts hl h
        rw [List.mapM_cons] at h
        cases hr : Medline.writeRecord r with
        | none => rw [hr] at h; simp at h
        | some t =>
          cases hrs : rs.mapM Medline.writeRecord with
          | none => rw [hr, hrs] at h; simp at h
          | some ts' =>
            rw [hr, hrs] at h
            simp at h
            subst h
            rw [block_cons, fits_append, fits_append, ih ts' (fun s hs => hl s (by simp [hs])) hrs]
            have ht : t = Medline.writeFields r.fields := by
              unfold Medline.writeRecord at hr
              split at hr <;> simp at hr
              exact hr.symm
            subst ht
            have hch := writeFields_chars (fun c => Latin c) (by unfold Latin; decide) r.fields (hl r (by simp))
            have : Codec.fits .latin1 (Medline.writeFields r.fields) = true := by
              unfold Codec.fits
              simp only [List.all_eq_true, decide_eq_true_eq]
              exact hch
            rw [this]
            rfl
    exact this rs ts hl h1
  have hfull : Codec.fits .latin1 ((header types).flatten ++ block ts ++ (footer types).flatten) = true := by
    rw [fits_append, fits_append, hfit]
    rcases hty with rfl | rfl <;> rfl
  have hw' := written_ok .latin1 types (rs.map .medline) ts (forall₂_map _ _ text_medline rs ts h1) hfull
  have hce : recEncoding types (rs.map .medline) = some .latin1 := by
    unfold recEncoding
    rw [if_pos (by rcases hty with rfl | rfl <;> simp)]
    cases rs with
    | nil => exact absurd rfl hne
    | cons r rs => rfl
  obtain ⟨fs', g1, g2⟩ := writeFile_eq cwd fname name types (rs.map .medline) fs .latin1 hce hw
  rw [hw'] at g1 g2
  have hback := Verif.Lemmas.Codec.latin1_back _ hfull
  have htx : ∃ blank : List Str, (blank = [] ∨ blank = [['\n']]) ∧ Lines.fileLines ((header types).flatten ++ block ts ++ (footer types).flatten) = blank ++ ls := by
    have hbl : block ts = ls.flatten := h2
    have hends : ∀ x : Str, '\r' ∉ x → Lines.fileLines (x ++ ls.flatten) = Lines.lines (x ++ ls.flatten) := by
      intro x hx
      unfold Lines.fileLines
      rw [Lines.univ_id]
      simp [hx, h4]
    have hl' : Lines.lines ls.flatten = ls := by
      have := Lines.lines_flatten ls h3 []
      simpa [Lines.lines] using this
    rcases hty with rfl | rfl
    · refine ⟨[['\n']], Or.inr rfl, ?_⟩
      rw [hbl]
      show Lines.fileLines (['\n'] ++ ls.flatten ++ []) = _
      rw [List.append_nil, hends _ (by decide), List.singleton_append, Lines.lines, if_pos rfl, hl']
      rfl
    · refine ⟨[], Or.inl rfl, ?_⟩
      rw [hbl]
      show Lines.fileLines ([] ++ ls.flatten ++ []) = _
      rw [List.append_nil, hends _ (by decide), List.nil_append, hl']
      rfl
  obtain ⟨blank, hb, hlines⟩ := htx
  refine ⟨fs', _, rs', g1, g2, ?_, h5, ?_⟩
  · show Medline.medlineParser ws alpha (Codec.latin1Text _) = _
    rw [hback, Verif.Lemmas.Medline.medlineParser_eq _ (by rw [hlines, hls]; simp), hlines]
    have h8 := h7 [] false
    rw [List.append_nil] at h8
    rcases hb with rfl | rfl
    · rw [List.nil_append, h8]; rfl
    · rw [List.singleton_append, Verif.Lemmas.Medline.run_cons, if_neg (by decide), if_pos rfl, h8]; rfl
  · intro hv
    refine ⟨_, ⟨(recordHandlers process).take 1, _, rfl, ?_, ?_⟩, rfl⟩
    · intro b hb'
      have : b = (recordHandlers process).head (by simp [recordHandlers, recordDetectors]) := by simpa [recordHandlers, recordDetectors] using hb'
      subst this
      show (asFile _).utf8.any Wos.isWOSFile = false
      cases hu : (asFile (Codec.bytes .latin1 ((header types).flatten ++ block ts ++ (footer types).flatten))).utf8 with
      | none => rfl
      | some t =>
        simp only [Option.any_some]
        exact isWOS_false t (hv t hu)
    · show Medline.isMedlineFile (Codec.latin1Text _) = true
      rw [hback]
      unfold Medline.isMedlineFile
      rw [hlines, hls, List.any_eq_true]
      refine ⟨"PMID- ".toList ++ p, ?_, by rw [List.isPrefixOf_iff_prefix]; exact List.prefix_append _ _⟩
      rcases hb with rfl | rfl <;> simp

theorem medline_utf8 (t : Str) : Medline.isMedlineFile (Codec.latin1Text (Codec.bytes .utf8 t)) = Medline.isMedlineFile t := by
  unfold Medline.isMedlineFile
  have := Verif.Lemmas.Codec.seen_fileLines t
  unfold Verif.Lemmas.Codec.seen at this
  rw [this, ← List.map_take, List.any_map]
  congr 1
  funext l
  rw [Function.comp_apply, Bool.eq_iff_iff, List.isPrefixOf_iff_prefix, List.isPrefixOf_iff_prefix]
  exact Verif.Lemmas.Codec.seen_prefix _ l (by decide)

theorem proQuest_false (ls : List Str) (h : ∀ l ∈ ls.take 2, l ≠ ProQuest.separator) : Files.proQuestGo 2 ls = false := by
  cases ls with
  | nil => rfl
  | cons a ls =>
    have ha := h a (by simp)
    cases ls with
    | nil => simp [Files.proQuestGo, ha]
    | cons b ls =>
      have hb := h b (by simp)
      cases ls <;> simp [Files.proQuestGo, ha, hb]

/-- How the detectors see a text written in UTF-8. -/
theorem detect_utf8 (t : Str) (hv : NoVR t) (hm : ∀ l ∈ (Lines.fileLines t).take 2, ¬ "PMID- ".toList <+: l)
    (hq : ∀ l ∈ (Lines.fileLines t).take 2, l ≠ ProQuest.separator) :
    (asFile (Codec.bytes .utf8 t)).utf8.any Wos.isWOSFile = false ∧ Medline.isMedlineFile (asFile (Codec.bytes .utf8 t)).latin1 = false ∧
    (asFile (Codec.bytes .utf8 t)).utf8.any Files.isProQuestFile = false := by
  have hu : (asFile (Codec.bytes .utf8 t)).utf8 = some t := Verif.Lemmas.Codec.utf8_back t
  rw [hu]
  refine ⟨isWOS_false t hv, ?_, proQuest_false _ hq⟩
  show Medline.isMedlineFile (Codec.latin1Text (Codec.bytes .utf8 t)) = false
  rw [medline_utf8]
  unfold Medline.isMedlineFile
  rw [List.any_eq_false]
  intro l hl
  rw [List.isPrefixOf_iff_prefix]
  exact hm l hl

theorem separator_head : ProQuest.separator.head? = some '_' := by decide +kernel

/-- Lines with other first characters. -/
theorem detect_heads (t : Str) (hv : NoVR t) (hh : ∀ l ∈ (Lines.fileLines t).take 2, l.head? ≠ some 'P' ∧ l.head? ≠ some '_') :
    (asFile (Codec.bytes .utf8 t)).utf8.any Wos.isWOSFile = false ∧ Medline.isMedlineFile (asFile (Codec.bytes .utf8 t)).latin1 = false ∧
    (asFile (Codec.bytes .utf8 t)).utf8.any Files.isProQuestFile = false := by
  apply detect_utf8 t hv
  · intro l hl ⟨s, hs⟩
    exact (hh l hl).1 (by rw [← hs]; rfl)
  · intro l hl e
    exact (hh l hl).2 (by rw [e]; exact separator_head)

theorem rows_head {rs : List Scopus.Rec} {ts : List Str} (h : rs.mapM Scopus.writeRecord = some ts) : ∀ t ∈ ts, t.head? = some '"' := by
  induction rs generalizing ts with
  | nil => simp at h; subst h; simp
  | cons r rs ih =>
    rw [List.mapM_cons] at h
    cases hr : Scopus.writeRecord r with
    | none => rw [hr] at h; simp at h
    | some t =>
      cases hrs : rs.mapM Scopus.writeRecord with
      | none => rw [hr, hrs] at h; simp at h
      | some ts' =>
        rw [hr, hrs] at h
        simp at h
        subst h
        intro x hx
        rcases List.mem_cons.1 hx with rfl | hx
        · unfold Scopus.writeRecord at hr
          split at hr
          · simp at hr
          · simp only [Option.some.injEq] at hr
            rw [← hr]
            rfl
        · exact ih hrs x hx

theorem block_complete (ts : List Str) (h : ∀ t ∈ ts, '\n' ∉ t ∧ '\r' ∉ t) : Lines.lines (block ts) = ts.map (· ++ ['\n']) ∧ '\r' ∉ block ts := by
  constructor
  · have := Lines.lines_flatten (ts.map (· ++ ['\n'])) (by
      intro l hl
      obtain ⟨t, ht, rfl⟩ := List.mem_map.1 hl
      exact ⟨t, rfl, (h t ht).1⟩) []
    simpa [Lines.lines, block] using this
  · intro hm
    obtain ⟨l, hl, hm⟩ := List.mem_flatten.1 hm
    obtain ⟨t, ht, rfl⟩ := List.mem_map.1 hl
    simp at hm
    exact (h t ht).2 hm

/-- C99: a collection of Scopus records that has noted their type writes a file that reads as records with the same id and the same columns,
and it is recognised as one of these unless one of its first three lines holds `VR 1.0`. -/
theorem C99_scopus (rs : List Scopus.Rec) (hne : rs ≠ []) (hg : ∀ r ∈ rs, Verif.Props.ScopusFiles.GoodInFile r)
    (hd : Verif.Props.ScopusFiles.Distinct rs) (cwd : Loc) (fname name : Str) (fs : FS (List UInt8))
    (hw : fs.CanWrite (place cwd fname name)) (process : Str → Files.File → List ρ × Option ε) :
    ∃ fs' b text rs', writeFile cwd fname name ["ScopusRecord"] (rs.map .scopus) fs = (fs', none) ∧ Changed fs fs' (place cwd fname name) b ∧
      (asFile b).utf8 = some text ∧ Scopus.scopusParser text = rs' ∧ List.Forall₂ Verif.Props.ScopusFiles.Alike rs' rs ∧
      (NoVR text → ∃ h, Chosen (recordHandlers process) (asFile b) h ∧ h.kind = "ScopusRecord".toList) := by
  obtain ⟨text, rs', h1, h2, h3, h4⟩ := Verif.Props.ScopusFiles.C59_round_trip rs hne hg hd
  obtain ⟨ts, -, ht, hl, -, -⟩ := Verif.Props.ScopusFiles.rows rs hg [] (by simp) (by simpa [Verif.Props.ScopusFiles.Distinct] using hd)
  have hw' := written_ok .utf8 ["ScopusRecord"] (rs.map .scopus) ts (forall₂_map _ _ text_scopus rs ts ht) rfl
  have htext : (header ["ScopusRecord"]).flatten ++ block ts ++ (footer ["ScopusRecord"]).flatten = text := by
    unfold Scopus.writeFile at h1
    rw [if_neg hne, ht, Option.map_some, Option.some.injEq] at h1
    rw [← h1, show footer ["ScopusRecord"] = [] from rfl, List.flatten_nil, List.append_nil]
    unfold header
    rw [if_neg (by decide), if_neg (by decide), if_pos rfl]
    simp [block]
  have htx : text = '﻿' :: Verif.Props.ScopusFiles.headerLine ++ ['\n'] ++ block ts := by
    rw [← htext, show footer ["ScopusRecord"] = [] from rfl, List.flatten_nil, List.append_nil]
    unfold header
    rw [if_neg (by decide), if_neg (by decide), if_pos rfl]
    simp [Verif.Props.ScopusFiles.headerLine]
  rw [htext] at hw'
  have hc : recEncoding ["ScopusRecord"] (rs.map .scopus) = some .utf8 := by
    cases rs with
    | nil => exact absurd rfl hne
    | cons r rs => exact utf8_head _ _ _ rfl
  obtain ⟨fs', g1, g2⟩ := writeFile_eq cwd fname name ["ScopusRecord"] (rs.map .scopus) fs .utf8 hc hw
  rw [hw'] at g1 g2
  have hu : (asFile (Codec.bytes .utf8 text)).utf8 = some text := Verif.Lemmas.Codec.utf8_back text
  refine ⟨fs', _, text, rs', g1, g2, hu, h2, h3, ?_⟩
  intro hv
  have hhl := Verif.Props.ScopusFiles.headerLine_plain
  have hlines : Lines.fileLines text = ('﻿' :: Verif.Props.ScopusFiles.headerLine ++ ['\n']) :: ts.map (· ++ ['\n']) := by
    rw [htx]
    unfold Lines.fileLines
    rw [Lines.univ_id _ (by
      simp only [List.cons_append, List.mem_cons, List.mem_append, List.not_mem_nil, or_false, not_or]
      exact ⟨by decide, ⟨hhl.2, by decide⟩, (block_complete ts hl).2⟩)]
    rw [List.append_assoc, List.singleton_append, Lines.lines_append _ _ (by
      simp only [List.mem_cons, not_or]
      exact ⟨by decide, hhl.1⟩), (block_complete ts hl).1]
  obtain ⟨a1, a2, a3⟩ := detect_heads text hv (by
    rw [hlines]
    intro l hl'
    rw [List.take_succ_cons, List.mem_cons] at hl'
    rcases hl' with rfl | hl'
    · simp
    · obtain ⟨t, ht', rfl⟩ := List.mem_map.1 (List.mem_of_mem_take hl')
      have := rows_head ht t ht'
      rw [Verif.Lemmas.Paths.head_append _ _ (by rintro rfl; simp at this), this]
      simp)
  refine ⟨_, ⟨(recordHandlers process).take 3, _, rfl, ?_, ?_⟩, rfl⟩
  · intro b hb
    simp [recordHandlers, recordDetectors] at hb
    rcases hb with rfl | rfl | rfl
    · exact a1
    · exact a2
    · exact a3
  · show (asFile _).utf8.any Scopus.isScopusFile = true
    rw [hu]
    exact h4

/-! ## Collections that have not -/

theorem unmarked_header (types : List String) (h1 : types ≠ ["WOSRecord"]) (h2 : types ≠ ["MedlineRecord"]) (h3 : types ≠ ["ScopusRecord"]) :
    header types = [] ∧ footer types = [] := by
  simp [header, footer, h1, h2, h3]

theorem body_lines {ws : Char → Bool} (rs : List Wos.Rec) (hg : ∀ r ∈ rs, Verif.Props.WosFiles.Good ws r) :
    ∀ l ∈ rs.flatMap Verif.Props.WosFiles.chunk, l[2]? = some ' ' ∨ l = "ER\n".toList ∨ l = "\n".toList := by
  intro l hl
  obtain ⟨r, hr, hl⟩ := List.mem_flatMap.1 hl
  unfold Verif.Props.WosFiles.chunk at hl
  rcases List.mem_append.1 hl with hl | hl
  · left
    unfold Verif.Spec.Wos.recordLines at hl
    obtain ⟨⟨t, vs⟩, hf, hl⟩ := List.mem_flatMap.1 hl
    have hok := (hg r hr).fields.ok _ hf
    cases vs with
    | nil => simp [Verif.Spec.Wos.fieldLines] at hl
    | cons v vs =>
      simp only [Verif.Spec.Wos.fieldLines, List.mem_cons, List.mem_map] at hl
      rcases hl with rfl | ⟨w, _, rfl⟩
      · have h2 : t.length = 2 := hok.tagLen
        rw [List.append_assoc, List.append_assoc, List.getElem?_append_right (by omega), h2]
        rfl
      · rfl
  · right
    simpa using hl

/-- C99: a collection of Web of Science records that has not noted just their type writes the records with nothing around them, and then no
reader recognises the file, unless it happens to hold `VR 1.0` near its start. -/
theorem C99_unmarked_wos {ws : Char → Bool} (rs : List Wos.Rec) (hne : rs ≠ []) (hg : ∀ r ∈ rs, Verif.Props.WosFiles.Good ws r)
    (types : List String) (hty : types ≠ ["WOSRecord"] ∧ types ≠ ["MedlineRecord"] ∧ types ≠ ["ScopusRecord"])
    (cwd : Loc) (fname name : Str) (fs : FS (List UInt8)) (hw : fs.CanWrite (place cwd fname name))
    (process : Str → Files.File → List ρ × Option ε) :
    ∃ fs' b text, writeFile cwd fname name types (rs.map .wos) fs = (fs', none) ∧ Changed fs fs' (place cwd fname name) b ∧
      (asFile b).utf8 = some text ∧
      text = (rs.flatMap (fun r => Verif.Spec.Wos.recordLines r.fields ++ ["ER\n".toList, "\n".toList])).flatten ∧
      (NoVR text → text.head? ≠ some '\uFEFF' → Unknown (recordHandlers process) (asFile b)) := by
  obtain ⟨ts, ht, hbl⟩ := mapM_wos rs hg
  obtain ⟨hh, hf⟩ := unmarked_header types hty.1 hty.2.1 hty.2.2
  have hw' := written_ok .utf8 types (rs.map .wos) ts (forall₂_map _ _ text_wos rs ts ht) rfl
  rw [hh, hf, List.flatten_nil, List.nil_append, List.append_nil, hbl] at hw'
  have hc : recEncoding types (rs.map .wos) = some .utf8 := by
    cases rs with
    | nil => exact absurd rfl hne
    | cons r rs => exact utf8_head _ _ _ rfl
  obtain ⟨fs', g1, g2⟩ := writeFile_eq cwd fname name types (rs.map .wos) fs .utf8 hc hw
  rw [hw'] at g1 g2
  have hu : (asFile (Codec.bytes .utf8 (Verif.Props.WosFiles.body rs))).utf8 = some (Verif.Props.WosFiles.body rs) := Verif.Lemmas.Codec.utf8_back _
  refine ⟨fs', _, _, g1, g2, hu, rfl, ?_⟩
  intro hv hbom
  have hlines : Lines.fileLines (Verif.Props.WosFiles.body rs) = rs.flatMap Verif.Props.WosFiles.chunk := by
    unfold Lines.fileLines
    rw [Lines.univ_id _ (Verif.Props.WosFiles.body_noCR rs hg)]
    have := Lines.lines_flatten _ (Verif.Props.WosFiles.flatMap_chunk_complete rs hg) []
    simpa [Lines.lines, Verif.Props.WosFiles.body] using this
  have hmem : ∀ l ∈ (Lines.fileLines (Verif.Props.WosFiles.body rs)).take 2, l[2]? = some ' ' ∨ l = "ER\n".toList ∨ l = "\n".toList := by
    intro l hl
    rw [hlines] at hl
    exact body_lines rs hg l (List.mem_of_mem_take hl)
  obtain ⟨a1, a2, a3⟩ := detect_utf8 (Verif.Props.WosFiles.body rs) hv (by
    rintro l hl ⟨s, hs⟩
    rcases hmem l hl with h | h | h <;> rw [← hs] at h
    · exact absurd h (by simp)
    · exact absurd (congrArg List.head? h) (by simp)
    · exact absurd (congrArg List.head? h) (by simp)) (by
    rintro l hl rfl
    revert hmem
    intro hmem
    rcases hmem _ hl with h | h | h
    · exact absurd h (by decide +kernel)
    · exact absurd h (by decide +kernel)
    · exact absurd h (by decide +kernel))
  intro h hh'
  simp only [recordHandlers, recordDetectors, List.map_cons, List.map_nil, List.mem_cons, List.not_mem_nil, or_false] at hh'
  rcases hh' with rfl | rfl | rfl | rfl
  · exact a1
  · exact a2
  · exact a3
  · show (asFile _).utf8.any Scopus.isScopusFile = false
    rw [hu, Option.any_some]
    unfold Scopus.isScopusFile
    rw [Lines.univ_id _ (Verif.Props.WosFiles.body_noCR rs hg)]
    change (Verif.Props.WosFiles.body rs).head? ≠ some '\uFEFF' at hbom
    cases hb : Verif.Props.WosFiles.body rs with
    | nil => rfl
    | cons c s =>
      rw [hb] at hbom
      simp only
      rw [if_neg]
      rintro rfl
      exact hbom rfl

/-- C99: nor is a file of Scopus records recognised if the collection has not noted just their type. -/
theorem C99_unmarked_scopus (rs : List Scopus.Rec) (hne : rs ≠ []) (hg : ∀ r ∈ rs, Verif.Props.ScopusFiles.GoodInFile r)
    (hd : Verif.Props.ScopusFiles.Distinct rs)
    (types : List String) (hty : types ≠ ["WOSRecord"] ∧ types ≠ ["MedlineRecord"] ∧ types ≠ ["ScopusRecord"])
    (cwd : Loc) (fname name : Str) (fs : FS (List UInt8)) (hw : fs.CanWrite (place cwd fname name))
    (process : Str → Files.File → List ρ × Option ε) :
    ∃ fs' b text, writeFile cwd fname name types (rs.map .scopus) fs = (fs', none) ∧ Changed fs fs' (place cwd fname name) b ∧
      (asFile b).utf8 = some text ∧
      text = rs.flatMap (fun r => Verif.Spec.Scopus.line (Dict.get? r.fields)) ∧
      (NoVR text → Unknown (recordHandlers process) (asFile b)) := by
  obtain ⟨ts, -, ht, hl, -, -⟩ := Verif.Props.ScopusFiles.rows rs hg [] (by simp) (by simpa [Verif.Props.ScopusFiles.Distinct] using hd)
  obtain ⟨hh, hf⟩ := unmarked_header types hty.1 hty.2.1 hty.2.2
  have hw' := written_ok .utf8 types (rs.map .scopus) ts (forall₂_map _ _ text_scopus rs ts ht) rfl
  rw [hh, hf, List.flatten_nil, List.nil_append, List.append_nil] at hw'
  have hc : recEncoding types (rs.map .scopus) = some .utf8 := by
    cases rs with
    | nil => exact absurd rfl hne
    | cons r rs => exact utf8_head _ _ _ rfl
  obtain ⟨fs', g1, g2⟩ := writeFile_eq cwd fname name types (rs.map .scopus) fs .utf8 hc hw
  rw [hw'] at g1 g2
  have hu : (asFile (Codec.bytes .utf8 (block ts))).utf8 = some (block ts) := Verif.Lemmas.Codec.utf8_back _
  refine ⟨fs', _, _, g1, g2, hu, ?_, ?_⟩
  · have h1 := (Verif.Props.ScopusFiles.C59_written rs).1 hne (fun r hr => (hg r hr).notBad)
    unfold Scopus.writeFile at h1
    rw [if_neg hne, ht, Option.map_some, Option.some.injEq, Verif.Props.Bib.join_intercalate] at h1
    exact List.append_cancel_left h1
  · intro hv
    have hlines : Lines.fileLines (block ts) = ts.map (· ++ ['\n']) := by
      unfold Lines.fileLines
      rw [Lines.univ_id _ (block_complete ts hl).2, (block_complete ts hl).1]
    have hts : ts ≠ [] := by
      rintro rfl
      cases rs with
      | nil => exact hne rfl
      | cons r rs =>
        rw [List.mapM_cons] at ht
        cases h1 : Scopus.writeRecord r <;> cases h2 : rs.mapM Scopus.writeRecord <;> rw [h1, h2] at ht <;> simp at ht
    obtain ⟨a1, a2, a3⟩ := detect_heads (block ts) hv (by
      rw [hlines]
      intro l hl'
      obtain ⟨t, ht', rfl⟩ := List.mem_map.1 (List.mem_of_mem_take hl')
      have := rows_head ht t ht'
      rw [Verif.Lemmas.Paths.head_append _ _ (by rintro rfl; simp at this), this]
      simp)
    intro h hh'
    simp only [recordHandlers, recordDetectors, List.map_cons, List.map_nil, List.mem_cons, List.not_mem_nil, or_false] at hh'
    rcases hh' with rfl | rfl | rfl | rfl
    · exact a1
    · exact a2
    · exact a3
    · show (asFile _).utf8.any Scopus.isScopusFile = false
      rw [hu, Option.any_some]
      unfold Scopus.isScopusFile
      rw [Lines.univ_id _ (block_complete ts hl).2]
      cases ts with
      | nil => exact absurd rfl hts
      | cons t ts =>
        have := rows_head ht t (by simp)
        cases t with
        | nil => simp at this
        | cons c t =>
          simp only [List.head?_cons, Option.some.injEq] at this
          subst this
          rw [block_cons]
          simp only [List.cons_append]
          rw [if_neg (by decide)]

/-- The result of one of the operators `|`, `&`, `-` and `^`. -/
def Combined {κ ξ : Type} [DecidableEq κ] (a b c : Coll AnyRec κ ξ) : Prop := a.or b = some c ∨ a.and b = some c ∨ a.sub b = some c ∨ a.xor b = some c

/-- C99: whatever two collections have noted, the result of an operator on them has noted nothing. -/
theorem C99_operators {κ ξ : Type} [DecidableEq κ] (a b c : Coll AnyRec κ ξ) (h : Combined a b c) :
    c.types = [] ∧ ∀ r ∈ c.items, r ∈ a.items ∨ r ∈ b.items := by
  have key : ∀ sym items, (Coll.binaryWith sym items a b).types = [] ∧ (Coll.binaryWith sym items a b).items = PSet.ofList items := by
    intro sym items
    unfold Coll.binaryWith
    simp only
    split <;> exact ⟨rfl, rfl⟩
  have hmem : ∀ sym items, (∀ r ∈ items, r ∈ a.items ∨ r ∈ b.items) → c = Coll.binaryWith sym items a b →
      c.types = [] ∧ ∀ r ∈ c.items, r ∈ a.items ∨ r ∈ b.items := by
    intro sym items hi hc
    subst hc
    refine ⟨(key sym items).1, ?_⟩
    intro r hr
    rw [(key sym items).2] at hr
    exact hi r ((PSet.mem_ofList _ _).1 hr)
  unfold Combined Coll.or Coll.and Coll.sub Coll.xor at h
  by_cases hcls : a.cls ≠ b.cls
  · simp [hcls] at h
  · simp only [if_neg hcls, Option.some.injEq] at h
    rcases h with h | h | h | h
    · exact hmem _ _ (by intro r hr; exact (PSet.mem_union _ _ _).1 hr) h.symm
    · exact hmem _ _ (by intro r hr; left; have := (PSet.mem_inter _ _ _).1 hr; exact this.1) h.symm
    · exact hmem _ _ (by intro r hr; left; have := (PSet.mem_diff _ _ _).1 hr; exact this.1) h.symm
    · exact hmem _ _ (by intro r hr; have := (PSet.mem_symm _ _ _).1 hr; rcases this with ⟨h, _⟩ | ⟨h, _⟩ <;> simp [h]) h.symm

/-- C99: so the union of two collections of Web of Science records, and what the other operators make of them, is written to a file no reader
recognises, although both files the collections came from are recognised (the code disagrees with the property). -/
theorem C99_union_lost {κ ξ : Type} [DecidableEq κ] {ws : Char → Bool} (a b c : Coll AnyRec κ ξ) (h : Combined a b c) (hne : c.items ≠ [])
    (hg : ∀ x, x ∈ a.items ∨ x ∈ b.items → ∃ r, x = .wos r ∧ Verif.Props.WosFiles.Good ws r)
    (cwd : Loc) (fname : Str) (fs : FS (List UInt8)) (hw : fs.CanWrite (place cwd fname c.name.toList))
    (process : Str → Files.File → List ρ × Option ε) :
    ∃ fs' b text, writeFile cwd fname c.name.toList c.types c.items fs = (fs', none) ∧ Changed fs fs' (place cwd fname c.name.toList) b ∧
      (asFile b).utf8 = some text ∧ (NoVR text → text.head? ≠ some '\uFEFF' → Unknown (recordHandlers process) (asFile b)) := by
  obtain ⟨h1, h2⟩ := C99_operators a b c h
  have hrs : ∃ rs : List Wos.Rec, c.items = rs.map .wos ∧ ∀ r ∈ rs, Verif.Props.WosFiles.Good ws r := by
    have : ∀ l : List AnyRec, (∀ x ∈ l, ∃ r, x = .wos r ∧ Verif.Props.WosFiles.Good ws r) →
        ∃ rs : List Wos.Rec, l = rs.map .wos ∧ ∀ r ∈ rs, Verif.Props.WosFiles.Good ws r := by
      intro l
      induction l with
      | nil => intro _; exact ⟨[], rfl, by simp⟩
      | cons x l ih =>
        intro hl
        obtain ⟨r, rfl, hr⟩ := hl x (by simp)
        obtain ⟨rs, rfl, hrs⟩ := ih (fun y hy => hl y (by simp [hy]))
        exact ⟨r :: rs, rfl, by intro s hs; rcases List.mem_cons.1 hs with rfl | hs; exact hr; exact hrs s hs⟩
    exact this c.items (fun x hx => hg x (h2 x hx))
  obtain ⟨rs, hrs, hgood⟩ := hrs
  rw [h1, hrs]
  obtain ⟨fs', b, text, k1, k2, k3, -, k5⟩ := C99_unmarked_wos rs (by rintro rfl; exact hne hrs) hgood [] (by decide) cwd fname c.name.toList fs hw process
  exact ⟨fs', b, text, k1, k2, k3, k5⟩

/-- C99: the operators that change a collection, and `add`, keep the one type both sides have noted. -/
theorem C99_noted {κ ξ : Type} [DecidableEq κ] (a b c : Coll AnyRec κ ξ) (T : String) (ha : a.types = [T]) (hb : b.types = [T])
    (h : a.ior b = some c ∨ a.iand b = some c ∨ a.isub b = some c ∨ a.ixor b = some c ∨
      ∃ isInst x, AnyRec.tyName x = T ∧ a.add isInst AnyRec.tyName x = .ok c) : c.types = [T] := by
  have key : ∀ sym items, (Coll.inplaceWith sym items a b).types = [T] := by
    intro sym items
    simp [Coll.inplaceWith, ha, hb, PSet.union]
  by_cases hcls : a.cls ≠ b.cls
  · simp only [Coll.ior, Coll.iand, Coll.isub, Coll.ixor, if_pos hcls, reduceCtorEq, false_or] at h
    obtain ⟨isInst, x, hx, h⟩ := h
    unfold Coll.add at h
    split at h
    · cases h; simp [ha, hx, PSet.add]
    · cases h
  · simp only [Coll.ior, Coll.iand, Coll.isub, Coll.ixor, if_neg hcls, Option.some.injEq] at h
    rcases h with h | h | h | h | ⟨isInst, x, hx, h⟩
    · rw [← h]; exact key _ _
    · rw [← h]; exact key _ _
    · rw [← h]; exact key _ _
    · rw [← h]; exact key _ _
    · unfold Coll.add at h
      split at h
      · cases h; simp [ha, hx, PSet.add]
      · cases h

/-- All records are from the source that is called `T`. -/
def AllOf (T : String) (rs : List AnyRec) : Prop :=
  (T = "WOSRecord" ∧ ∀ r ∈ rs, ∃ w, r = .wos w) ∨ (T = "MedlineRecord" ∧ ∀ r ∈ rs, ∃ m, r = .medline m) ∨
  (T = "ScopusRecord" ∧ ∀ r ∈ rs, ∃ s, r = .scopus s) ∨ (T = "ProQuestRecord" ∧ ∀ r ∈ rs, ∃ p, r = .proQuest p)

/-- C99: a collection that has noted nothing and is filled with `add` has noted the source of the records, if they have one. -/
theorem C99_filled {κ ξ : Type} [DecidableEq κ] (isInst : AnyRec → Bool) (c d : Coll AnyRec κ ξ) (hc : c.types = []) (rs : List AnyRec) (hne : rs ≠ [])
    (T : String) (hT : AllOf T rs) (h : rs.foldlM (fun c r => c.add isInst AnyRec.tyName r) c = .ok d) : d.types = [T] := by
  have hty : ∀ r ∈ rs, r.tyName = T := by
    intro r hr
    rcases hT with ⟨rfl, h⟩ | ⟨rfl, h⟩ | ⟨rfl, h⟩ | ⟨rfl, h⟩ <;> obtain ⟨x, rfl⟩ := h r hr <;> rfl
  have key : ∀ (rs : List AnyRec) (c d : Coll AnyRec κ ξ), (∀ r ∈ rs, r.tyName = T) → c.types = [T] →
      rs.foldlM (fun c r => c.add isInst AnyRec.tyName r) c = .ok d → d.types = [T] := by
    intro rs
    induction rs with
    | nil => intro c d _ h1 h2; cases h2; exact h1
    | cons r rs ih =>
      intro c d h1 h2 h3
      rw [List.foldlM_cons] at h3
      unfold Coll.add at h3
      split at h3
      · refine ih _ d (fun s hs => h1 s (by simp [hs])) ?_ h3
        simp [h2, h1 r (by simp), PSet.add]
      · cases h3
  cases rs with
  | nil => exact absurd rfl hne
  | cons r rs =>
    rw [List.foldlM_cons] at h
    unfold Coll.add at h
    split at h
    · refine key rs _ d (fun s hs => hty s (by simp [hs])) ?_ h
      simp [hc, hty r (by simp), PSet.add]
    · cases h

/-! ## Any records -/

/-- The text of a record, `none` if it can not be written. -/
def recText : AnyRec → Option Str
  | .wos r => Wos.writeRecord r
  | .medline r => Medline.writeRecord r
  | .scopus r => Scopus.writeRecord r
  | .proQuest _ => none

theorem text_any (r : AnyRec) (t : Str) (h : recText r = some t) : Text r t := by
  cases r with
  | wos r => exact text_wos r t h
  | medline r => exact text_medline r t h
  | scopus r => exact text_scopus r t h
  | proQuest _ => simp [recText] at h

theorem stop_any (r : AnyRec) (h : recText r = none) : ∃ e, pieces r = .error e := by
  cases r with
  | wos r =>
    simp only [recText, Wos.writeRecord] at h
    split at h
    · rename_i hb; exact ⟨.badRecord, by simp [pieces, hb]⟩
    · simp at h
  | medline r =>
    simp only [recText, Medline.writeRecord] at h
    split at h
    · rename_i hb; exact ⟨.badRecord, by simp [pieces, hb]⟩
    · simp at h
  | scopus r => exact ⟨.badRecord, by simp only [recText] at h; simp [pieces, h]⟩
  | proQuest _ => exact ⟨.notCompatible, rfl⟩

theorem front_eq (types : List String) : (header types).flatten = front Scopus.scopusHeader types := by
  unfold header front
  by_cases h1 : types = ["WOSRecord"]
  · rw [if_pos h1, if_pos h1]; rfl
  rw [if_neg h1, if_neg h1]
  by_cases h2 : types = ["MedlineRecord"]
  · rw [if_pos h2, if_pos h2]; rfl
  rw [if_neg h2, if_neg h2]
  by_cases h3 : types = ["ScopusRecord"]
  · rw [if_pos h3, if_pos h3, Verif.Props.Bib.join_intercalate]; simp
  · rw [if_neg h3, if_neg h3]; rfl

theorem back_eq (types : List String) : (footer types).flatten = back types := by
  unfold footer back
  split <;> rfl

/-- The collection is written in UTF-8: it has noted several types, or the record looked at first is not of Medline. -/
def Utf8 (types : List String) (rs : List AnyRec) : Prop := 2 ≤ types.length ∨ ∃ r, rs.head? = some r ∧ ∀ m, r ≠ .medline m

theorem recEncoding_utf8 (types : List String) (rs : List AnyRec) (h : Utf8 types rs) : recEncoding types rs = some .utf8 := by
  unfold recEncoding
  rcases h with h | ⟨r, h, hm⟩
  · rw [if_neg (by omega)]
  · split
    · rw [h]
      cases r with
      | medline m => exact absurd rfl (hm m)
      | wos => rfl
      | scopus => rfl
      | proQuest => rfl
    · rfl

/-- C99: the text of a file in UTF-8: the front, the texts of the records in their order with a line end behind each, and the back. Whatever the
kinds of the records, only the noted types decide about front and back. -/
theorem C99_text (types : List String) (rs : List AnyRec) (ts : List Str) (ht : rs.mapM recText = some ts) (hu : Utf8 types rs)
    (cwd : Loc) (fname name : Str) (fs : FS (List UInt8)) (hw : fs.CanWrite (place cwd fname name)) :
    ∃ fs' b, writeFile cwd fname name types rs fs = (fs', none) ∧ Changed fs fs' (place cwd fname name) b ∧
      (asFile b).utf8 = some (front Scopus.scopusHeader types ++ ts.flatMap (· ++ ['\n']) ++ back types) := by
  have h2 : List.Forall₂ Text rs ts := by simpa using forall₂_map id recText text_any rs ts ht
  have hw' := written_ok .utf8 types rs ts h2 rfl
  obtain ⟨fs', g1, g2⟩ := writeFile_eq cwd fname name types rs fs .utf8 (recEncoding_utf8 types rs hu) hw
  rw [hw'] at g1 g2
  refine ⟨fs', _, g1, g2, ?_⟩
  rw [← front_eq, ← back_eq, List.flatMap_def]
  exact Verif.Lemmas.Codec.utf8_back _

/-- C99: a record that can not be written ends it with an exception, and the file then holds the front and the records before that one; what the
file held before is gone. -/
theorem C99_stop (types : List String) (rs : List AnyRec) (ts : List Str) (ht : rs.mapM recText = some ts) (r : AnyRec) (hr : recText r = none)
    (rest : List AnyRec) (hu : Utf8 types (rs ++ r :: rest))
    (cwd : Loc) (fname name : Str) (fs : FS (List UInt8)) (hw : fs.CanWrite (place cwd fname name)) :
    ∃ fs' e b, writeFile cwd fname name types (rs ++ r :: rest) fs = (fs', some e) ∧ Changed fs fs' (place cwd fname name) b ∧
      (asFile b).utf8 = some (front Scopus.scopusHeader types ++ ts.flatMap (· ++ ['\n'])) := by
  have h2 : List.Forall₂ Text rs ts := by simpa using forall₂_map id recText text_any rs ts ht
  obtain ⟨e, he⟩ := stop_any r hr
  have hw' := written_stop .utf8 types rs ts h2 rfl r e he rest
  obtain ⟨fs', g1, g2⟩ := writeFile_eq cwd fname name types _ fs .utf8 (recEncoding_utf8 types _ hu) hw
  rw [hw'] at g1 g2
  refine ⟨fs', e, _, g1, g2, ?_⟩
  rw [← front_eq, List.flatMap_def]
  exact Verif.Lemmas.Codec.utf8_back _

/-- C99: for Web of Science records the file left behind reads as the records before the bad one, and is reported as damaged. -/
theorem C99_stop_wos (ws : Char → Bool) (hws : ws '\n' = true) (rs : List Wos.Rec) (hg : ∀ r ∈ rs, Verif.Props.WosFiles.Good ws r)
    (hd : Verif.Props.WosFiles.Distinct rs) (r : Wos.Rec) (hr : r.bad = true) (rest : List AnyRec)
    (cwd : Loc) (fname name : Str) (fs : FS (List UInt8)) (hw : fs.CanWrite (place cwd fname name)) :
    ∃ fs' e b text, writeFile cwd fname name ["WOSRecord"] (rs.map .wos ++ .wos r :: rest) fs = (fs', some e) ∧
      Changed fs fs' (place cwd fname name) b ∧ (asFile b).utf8 = some text ∧ Wos.wosParser ws text = some ⟨rs, some .noEF, false⟩ := by
  obtain ⟨ts, ht, hbl⟩ := mapM_wos rs hg
  have ht' : (rs.map AnyRec.wos).mapM recText = some ts := by rw [List.mapM_map]; exact ht
  obtain ⟨fs', e, b, h1, h2, h3⟩ := C99_stop ["WOSRecord"] (rs.map .wos) ts ht' (.wos r) (by simp [recText, Wos.writeRecord, hr]) rest
    (by
      right
      cases rs with
      | nil => exact ⟨_, rfl, by simp⟩
      | cons s rs => exact ⟨_, rfl, by simp⟩) cwd fname name fs hw
  refine ⟨fs', e, b, _, h1, h2, h3, ?_⟩
  have : ts.flatMap (· ++ ['\n']) = Verif.Props.WosFiles.body rs := by rw [← hbl, List.flatMap_def]; rfl
  rw [this]
  have := Verif.Props.WosFiles.parse_written ws hws rs hg hd []
  rw [List.append_nil] at this
  exact this

/-! ## Characters that can not be encoded -/

/-- C99: a collection with at most one noted type whose first record is of Medline is written in Latin-1; if all its records could be written but
the text has a character outside of it, writing ends with an exception. -/
theorem C99_not_latin (types : List String) (hty : types.length < 2) (m : Medline.Rec) (rs : List AnyRec) (ts : List Str)
    (ht : (.medline m :: rs : List AnyRec).mapM recText = some ts) (hx : ∃ t ∈ ts, ∃ c ∈ t, ¬ Latin c)
    (cwd : Loc) (fname name : Str) (fs : FS (List UInt8)) (hw : fs.CanWrite (place cwd fname name)) :
    ∃ fs', writeFile cwd fname name types (.medline m :: rs) fs = (fs', some .encodeError) := by
  have h2 : List.Forall₂ Text (.medline m :: rs) ts := by simpa using forall₂_map id recText text_any _ ts ht
  have hput : ∀ (ps : List Str) (d : Str), Codec.fits .latin1 ps.flatten = false → ∃ d', putAll .latin1 d ps = (d', some .encodeError) := by
    intro ps
    induction ps with
    | nil => intro d h; simp [Codec.fits] at h
    | cons p ps ih =>
      intro d h
      rw [putAll]
      split
      · rename_i hp
        rw [List.flatten_cons, fits_append, hp, Bool.true_and] at h
        exact ih _ h
      · exact ⟨_, rfl⟩
  have hrec : ∀ (rs : List AnyRec) (ts : List Str), List.Forall₂ Text rs ts → ∀ d, Codec.fits .latin1 (block ts) = false →
      ∃ d', records .latin1 d rs = (d', some .encodeError) := by
    intro rs ts h
    induction h with
    | nil => intro d h; simp [block, Codec.fits] at h
    | @cons r t rs ts hr _ ih =>
      intro d hf
      obtain ⟨ps, h1, h2⟩ := hr
      rw [records, h1]
      simp only
      by_cases hp : Codec.fits .latin1 (ps ++ [['\n']]).flatten = true
      · rw [putAll_ok _ d _ hp]
        simp only
        apply ih
        rw [block_cons, fits_append, Bool.and_eq_false_iff] at hf
        rcases hf with hf | hf
        · rw [List.flatten_append, h2] at hp
          simp only [List.flatten_cons, List.flatten_nil, List.append_nil] at hp
          rw [hp] at hf; simp at hf
        · exact hf
      · obtain ⟨d', hd'⟩ := hput _ d (Bool.eq_false_iff.2 hp)
        exact ⟨d', by rw [hd']⟩
  have hno : Codec.fits .latin1 (block ts) = false := by
    obtain ⟨t, ht', c, hc, hl⟩ := hx
    unfold Codec.fits
    simp only [List.all_eq_false, decide_eq_true_eq]
    exact ⟨c, List.mem_flatten.2 ⟨t ++ ['\n'], List.mem_map_of_mem ht', by simp [hc]⟩, hl⟩
  have hwr : ∃ d', written .latin1 types (.medline m :: rs) = (d', some .encodeError) := by
    unfold written
    by_cases hh : Codec.fits .latin1 (header types).flatten = true
    · rw [putAll_ok _ _ _ hh]
      simp only
      obtain ⟨d', hd'⟩ := hrec _ ts h2 ([] ++ (header types).flatten) hno
      exact ⟨d', by rw [hd']⟩
    · obtain ⟨d', hd'⟩ := hput _ [] (by simpa using hh)
      exact ⟨d', by rw [hd']⟩
  obtain ⟨d', hwr⟩ := hwr
  obtain ⟨fs', g1, -⟩ := writeFile_eq cwd fname name types (.medline m :: rs) fs .latin1
    (by unfold recEncoding; rw [if_pos hty]; rfl) hw
  exact ⟨fs', by rw [g1, hwr]⟩

/-- A title with a letter outside ASCII. -/
def accented : Medline.Rec := ⟨[("PMID".toList, ["1".toList]), ("TI".toList, ["café".toList])], some "PMID:1".toList, false⟩

def exWs (c : Char) : Bool := c = ' ' || c = '\n'
def exAlpha (c : Char) : Bool := c.isAlpha

/-- C99: but a collection that has noted another type too is written in UTF-8, while a Medline file is read as Latin-1: the letters outside ASCII
come back as others (the code disagrees with the property). -/
theorem C99_garbled (fs : FS (List UInt8)) (cwd : Loc) (fname name : Str) (hw : fs.CanWrite (place cwd fname name)) :
    ∃ fs' b, writeFile cwd fname name ["MedlineRecord", "WOSRecord"] [.medline accented] fs = (fs', none) ∧ Changed fs fs' (place cwd fname name) b ∧
      Medline.medlineParser exWs exAlpha (asFile b).latin1 =
        some (.ok ⟨[⟨[("PMID".toList, ["1".toList]), ("TI".toList, ["cafÃ©".toList])], some "PMID:1".toList, false⟩], false⟩) := by
  obtain ⟨fs', g1, g2⟩ := writeFile_eq cwd fname name ["MedlineRecord", "WOSRecord"] [.medline accented] fs .utf8 rfl hw
  have hw' : written .utf8 ["MedlineRecord", "WOSRecord"] [.medline accented] = ("PMID- 1\nTI  - café\n\n".toList, none) := by decide +kernel
  rw [hw'] at g1 g2
  exact ⟨fs', _, g1, g2, by decide +kernel⟩

/-! ## Default names -/

/-- C99: without a name the file is in the current directory and called after the first 200 characters of the name of the collection, if there is
no slash in these; so collections whose names agree there are written to the same file, and one without a name to `.txt`. -/
theorem C99_default (cwd : Loc) (name : Str) (h : '/' ∉ name.take 200) : place cwd [] name = cwd ++ [name.take 200 ++ ".txt".toList] := by
  unfold place
  rw [if_pos rfl]
  have hi : InDir (name.take 200 ++ ".txt".toList) [] (name.take 200 ++ ".txt".toList) := by
    refine ⟨rfl, .inl rfl, by simp [h], by simp, ?_, ?_⟩ <;>
    · intro e
      have := congrArg List.length e
      simp at this
  rw [Verif.Lemmas.Paths.walk_inDir hi]
  rfl

/-- C99: the collection read from the file `stem.txt`, wherever that is, is by default written to `stem.txt` in the current directory; so if the
file was there it is itself replaced. -/
theorem C99_source (home : Str → Option Str) (cwd : Loc) (path dir stem : Str) (h : InDir path dir (stem ++ ".txt".toList)) (ht : NoTilde path)
    (hs : ∃ c ∈ stem, c ≠ '.') (hl : stem.length ≤ 200) :
    place cwd [] (nameOfFile home cwd path) = cwd ++ [stem ++ ".txt".toList] ∧
    (walk cwd dir = cwd → place cwd [] (nameOfFile home cwd path) = walk cwd path) := by
  have hns : '/' ∉ stem := fun hm => h.noSlash (by simp [hm])
  have hhead : path.head? ≠ some '~' := by
    intro e
    obtain ⟨s, rfl⟩ : ∃ s, path = '~' :: s := by
      cases path with
      | nil => simp at e
      | cons c s => simp at e; exact ⟨s, by rw [e]⟩
    have hj := Str.join_split ['/'] ('~' :: s) (by simp)
    cases hp : Str.split ['/'] ('~' :: s) with
    | nil => exact absurd hp (Str.split_ne_nil _ _)
    | cons x xs =>
      rw [hp] at hj
      have hx := ht x (by rw [hp]; simp)
      cases x with
      | nil => cases xs <;> simp [Str.join] at hj
      | cons d x => cases xs <;> simp [Str.join] at hj <;> exact hx (by simp [hj.1])
  have hn : nameOfFile home cwd path = stem := by
    unfold nameOfFile
    rw [Verif.Lemmas.Paths.expanduser_id _ _ hhead, Verif.Lemmas.GraphPaths.abspath_tail h, splitext_txt stem hns hs]
  have hp : place cwd [] (nameOfFile home cwd path) = cwd ++ [stem ++ ".txt".toList] := by
    rw [hn, C99_default cwd stem (fun hm => hns (List.mem_of_mem_take hm)), List.take_of_length_le hl]
  refine ⟨hp, fun hd => ?_⟩
  rw [hp, Verif.Lemmas.Paths.walk_inDir h, hd]

/-- The part of the name of a collection read from a directory in front of the path. -/
def dirPrefix (extension : Str) : Str := if extension = [] then "files-from-".toList else extension ++ "-files-from-".toList

/-- C99: the default name of a collection read from a directory has slashes in it, so that it can not be written without a name, unless there is
a directory called `files-from-` (the code disagrees with the property). -/
theorem C99_directory (home : Str → Option Str) (cwd : Loc) (extension path : Str) (he : '/' ∉ extension) (hl : extension.length ≤ 180)
    (types : List String) (rs : List AnyRec) (hne : rs ≠ []) (fs : FS (List UInt8)) (hc : Closed fs)
    (hd : fs.dir (cwd ++ [dirPrefix extension]) = false) :
    writeFile cwd [] (nameOfDir home cwd extension path) types rs fs = (fs, some .osError) := by
  apply (C99_one_file cwd [] _ types rs fs).2.1 (fun h => hne h.1)
  rintro ⟨-, -, hpar⟩
  have hpre : '/' ∉ dirPrefix extension ∧ (dirPrefix extension).length ≤ 192 ∧ dirPrefix extension ≠ [] ∧ dirPrefix extension ≠ ['.'] ∧
      dirPrefix extension ≠ ['.', '.'] := by
    have h3 : 3 ≤ (dirPrefix extension).length := by unfold dirPrefix; split <;> simp
    refine ⟨?_, ?_, ?_, ?_, ?_⟩
    · unfold dirPrefix; split
      · decide
      · simp [he]
    · unfold dirPrefix; split <;> simp; omega
    · intro e; rw [e] at h3; simp at h3
    · intro e; rw [e] at h3; simp at h3
    · intro e; rw [e] at h3; simp at h3
  obtain ⟨p1, p2, p3⟩ := hpre
  have hname : nameOfDir home cwd extension path = dirPrefix extension ++ Path.abspath cwd (Path.expanduser home path) := by
    unfold nameOfDir dirPrefix
    dsimp only
    by_cases h0 : extension = []
    · rw [if_neg (by simp [h0]), if_pos h0]
    · rw [if_pos h0, if_neg h0]
  have hhead := Verif.Lemmas.Paths.abspath_head cwd (Path.expanduser home path)
  have hdots := abspath_parts cwd (Path.expanduser home path)
  generalize Path.abspath cwd (Path.expanduser home path) = q at hname hhead hdots
  obtain ⟨q', rfl⟩ : ∃ q', q = '/' :: q' := by
    cases q with
    | nil => simp at hhead
    | cons c q => simp at hhead; exact ⟨q, by rw [hhead]⟩
  generalize dirPrefix extension = pre at *
  have hdots' : ['.', '.'] ∉ Str.split ['/'] q' := by
    have := Verif.Lemmas.Paths.split_append '/' [] q'
    rw [List.nil_append] at this
    rw [this] at hdots
    exact fun hm => hdots (List.mem_append_right _ hm)
  obtain ⟨l, z, hz1, hz2, hz3⟩ := split_take q' ".txt".toList (199 - pre.length) (by decide)
  have htake : (pre ++ '/' :: q').take 200 = pre ++ '/' :: q'.take (199 - pre.length) := by
    rw [List.take_append, List.take_of_length_le (by omega)]
    congr 1
    rw [show 200 - pre.length = (199 - pre.length) + 1 by omega, List.take_succ_cons]
  have hplace : place cwd [] (nameOfDir home cwd extension path) = l.foldl walkStep (cwd ++ [pre]) ++ [z ++ ".txt".toList] := by
    unfold place
    rw [if_pos rfl, hname, htake]
    unfold walk
    rw [show (pre ++ '/' :: q'.take (199 - pre.length)) ++ ".txt".toList = pre ++ '/' :: (q'.take (199 - pre.length) ++ ".txt".toList) by simp,
      Verif.Lemmas.Paths.split_append, Verif.Lemmas.Paths.split_single _ _ p1, hz1]
    rw [if_neg (by
      rw [Verif.Lemmas.Paths.head_append _ _ p3.1]
      intro e
      exact p1 (List.mem_of_mem_head? e))]
    rw [List.foldl_append, List.foldl_cons, List.foldl_nil, List.foldl_append, List.foldl_cons, List.foldl_nil]
    have e1 : walkStep cwd pre = cwd ++ [pre] := by simp [walkStep, p3]
    rw [e1]
    have hne : ∀ s : Str, s.length ≤ 2 → z ++ ".txt".toList ≠ s := by
      intro s hs e
      have := congrArg List.length e
      simp at this
      omega
    rw [walkStep, if_neg (by
      rintro (e | e)
      · exact hne [] (by simp) e
      · exact hne ['.'] (by simp) e), if_neg (hne ['.', '.'] (by simp))]
  rw [hplace, List.dropLast_concat] at hpar
  have hpfx : cwd ++ [pre] <+: l.foldl walkStep (cwd ++ [pre]) := foldl_down _ _ (fun hm => hdots' (hz3 _ hm))
  obtain ⟨m, hm⟩ := hpfx
  rw [← hm] at hpar
  have hup : ∀ (m : Loc) (base : Loc), fs.dir (base ++ m) = true → fs.dir base = true := by
    intro m
    induction m using List.reverseRecOn with
    | nil => intro base h; simpa using h
    | append_singleton m x ih =>
      intro base h
      rw [← List.append_assoc] at h
      exact ih base (hc _ _ h)
  rw [hup m _ hpar] at hd
  simp at hd

/-! ## Non-vacuity -/

/-- A file system with the directories `/` and `/work`. -/
def exFS : FS (List UInt8) := ⟨fun l => if l = ["work".toList, "a.txt".toList] then some [1, 2, 3] else none, fun l => l = [] ∨ l = ["work".toList]⟩

example : exFS.CanWrite (place ["work".toList] "b.txt".toList []) := by
  show _ ≠ _ ∧ _ = _ ∧ _ = _
  decide +kernel
example : exFS.CanWrite (place ["work".toList] [] "a".toList) := by
  show _ ≠ _ ∧ _ = _ ∧ _ = _
  decide +kernel
example : ¬ exFS.CanWrite (place ["work".toList] [] (nameOfDir (fun _ => none) ["work".toList] [] "data".toList)) := by
  show ¬ (_ ≠ _ ∧ _ = _ ∧ _ = _)
  decide +kernel
example : Closed exFS := by
  intro l x h
  simp only [exFS, decide_eq_true_eq] at h ⊢
  rcases h with h | h
  · simp at h
  · left
    have := congrArg List.length h
    simp at this
    exact this
example : exFS.dir (["work".toList] ++ [dirPrefix []]) = false := by decide +kernel

/-- Two records of Web of Science. -/
def exWos : List Wos.Rec := [⟨[("UT".toList, ["WOS:1".toList]), ("TI".toList, ["On".toList, "names".toList])], "WOS:1".toList, false⟩,
  ⟨[("PT".toList, ["J".toList]), ("UT".toList, ["WOS:2".toList])], "WOS:2".toList, false⟩]

example : (written .utf8 ["WOSRecord"] (exWos.map .wos)) =
    ("﻿FN Thomson Reuters Web of Science™\nVR 1.0\nUT WOS:1\nTI On\n   names\nER\n\nPT J\nUT WOS:2\nER\n\nEF".toList, none) := by decide +kernel
example : (written .utf8 [] (exWos.map .wos)) = ("UT WOS:1\nTI On\n   names\nER\n\nPT J\nUT WOS:2\nER\n\n".toList, none) := by decide +kernel
example : NoVR "UT WOS:1\nTI On\n   names\nER\n\nPT J\nUT WOS:2\nER\n\n".toList := by
  intro l hl hi
  revert l
  decide +kernel
example : Combined (κ := Nat) (ξ := Nat) ⟨"RecordCollection", (exWos.take 1).map .wos, ["WOSRecord"], "a", false, []⟩
    ⟨"RecordCollection", (exWos.drop 1).map .wos, ["WOSRecord"], "b", false, []⟩
    ⟨"RecordCollection", exWos.map .wos, [], "a | b", false, []⟩ := .inl (by decide +kernel)
example : AllOf "WOSRecord" (exWos.map .wos) := .inl ⟨rfl, by simp⟩
example : InDir "a.txt".toList [] ("a".toList ++ ".txt".toList) := ⟨rfl, .inl rfl, by decide, by decide⟩

end Verif.Props.WriteFile
