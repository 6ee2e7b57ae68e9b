import Verif.Model.Files
import Verif.Props.Wos
import Verif.Props.Medline
import Verif.Props.Scopus

/-!
# C55: choosing the reader of a file
-/
set_option autoImplicit false
set_option linter.unusedSimpArgs false
set_option linter.unusedSectionVars false
namespace Verif.Props.FileChoice
open Verif.Py Verif.Model.Files

variable {φ ρ ε : Type} [DecidableEq φ] [DecidableEq ρ]

/-- The reader in the table that should be used: it accepts the file and all before it do not. -/
def Chosen (hs : List (Handler φ ρ ε)) (f : φ) (h : Handler φ ρ ε) : Prop :=
  ∃ before after, hs = before ++ h :: after ∧ (∀ b ∈ before, b.detector f = false) ∧ h.detector f = true

def Unknown (hs : List (Handler φ ρ ε)) (f : φ) : Prop := ∀ h ∈ hs, h.detector f = false

/-- C55: the reader used is the first which accepts the file. -/
theorem C55_first (hs : List (Handler φ ρ ε)) (f : φ) (h : Handler φ ρ ε) : pick f hs = some h ↔ Chosen hs f h := by
  induction hs with
  | nil => simp [pick, Chosen]
  | cons g hs ih =>
    rw [pick]
    by_cases hg : g.detector f = true
    · rw [if_pos hg]
      constructor
      · intro e
        cases e
        exact ⟨[], hs, rfl, by simp, hg⟩
      · rintro ⟨before, after, e, h1, h2⟩
        cases before with
        | nil => simp at e; rw [e.1]
        | cons b before =>
          simp at e
          have := h1 b (by simp)
          rw [← e.1, hg] at this
          cases this
    · rw [if_neg hg, ih]
      constructor
      · rintro ⟨before, after, e, h1, h2⟩
        refine ⟨g :: before, after, by rw [e]; rfl, ?_, h2⟩
        intro b hb
        rcases List.mem_cons.1 hb with rfl | hb
        · simpa using hg
        · exact h1 b hb
      · rintro ⟨before, after, e, h1, h2⟩
        cases before with
        | nil => simp at e; rw [e.1] at hg; exact absurd h2 hg
        | cons b before =>
          simp at e
          exact ⟨before, after, e.2, fun x hx => h1 x (by simp [hx]), h2⟩

theorem pick_none (hs : List (Handler φ ρ ε)) (f : φ) : pick f hs = none ↔ Unknown hs f := by
  unfold Unknown
  induction hs with
  | nil => simp [pick]
  | cons g hs ih =>
    rw [pick]
    by_cases hg : g.detector f = true
    · simp [hg]
    · simp [hg, ih]

theorem mem_addAll {α : Type} [DecidableEq α] (a b : List α) (x : α) : x ∈ addAll a b ↔ x ∈ a ∨ x ∈ b := by
  unfold addAll
  induction b generalizing a with
  | nil => simp
  | cons y b ih =>
    rw [List.foldl_cons, ih]
    by_cases h : y ∈ a
    · rw [if_pos h]
      constructor
      · rintro (h' | h') <;> simp [h']
      · rintro (h' | h')
        · exact Or.inl h'
        · rcases List.mem_cons.1 h' with rfl | h'
          · exact Or.inl h
          · exact Or.inr h'
    · rw [if_neg h]
      simp [or_assoc]

theorem readWith_recs (h : Handler φ ρ ε) (f : φ) (c : Loaded φ ρ ε) : (readWith h f c).recs = addAll c.recs (h.process f).1 := by
  unfold readWith; dsimp only; split <;> rfl

theorem readWith_kinds (h : Handler φ ρ ε) (f : φ) (c : Loaded φ ρ ε) : (readWith h f c).kinds = addAll c.kinds [h.kind] := by
  unfold readWith; dsimp only; split <;> rfl

theorem readWith_bad (h : Handler φ ρ ε) (f : φ) (c : Loaded φ ρ ε) : (readWith h f c).bad = true ↔ c.bad = true ∨ (h.process f).2 ≠ none := by
  unfold readWith; dsimp only; cases (h.process f).2 <;> simp

theorem readWith_errors (h : Handler φ ρ ε) (f : φ) (c : Loaded φ ρ ε) (g : φ) : Dict.get? (readWith h f c).errors g =
    if g = f then (match (h.process f).2 with | some e => some e | none => Dict.get? c.errors f) else Dict.get? c.errors g := by
  unfold readWith
  dsimp only
  cases (h.process f).2 with
  | none => by_cases e : g = f <;> simp [e]
  | some e =>
    simp only
    rw [Dict.get?_set]
    by_cases hg : f = g
    · rw [if_pos hg, if_pos hg.symm]
    · rw [if_neg hg, if_neg (Ne.symm hg)]

/-- C55: a single file is read by the chosen reader and nothing else, its error is kept, and a file no reader accepts is refused. -/
theorem C55_file (hs : List (Handler φ ρ ε)) (suits : φ → Bool) (f : φ) (hf : suits f = true) :
    (∀ h, Chosen hs f h → ∃ c, loadFile hs suits f = .ok c ∧ (∀ r, r ∈ c.recs ↔ r ∈ (h.process f).1) ∧ c.kinds = [h.kind] ∧
      (c.bad = true ↔ (h.process f).2 ≠ none) ∧ ∀ g, Dict.get? c.errors g = if g = f then (h.process f).2 else none) ∧
    (Unknown hs f → loadFile hs suits f = .error .badInput) := by
  constructor
  · intro h hc
    unfold loadFile
    rw [hf, (C55_first hs f h).2 hc]
    refine ⟨_, rfl, ?_, ?_, ?_, ?_⟩
    · intro r; rw [readWith_recs, mem_addAll]; simp
    · rw [readWith_kinds]; rfl
    · rw [readWith_bad]; simp
    · intro g
      rw [readWith_errors]
      cases (h.process f).2 <;> by_cases e : g = f <;> simp [e, Dict.get?]
  · intro hu
    unfold loadFile
    rw [hf, (pick_none hs f).2 hu]
    rfl

/-- A file with another extension is refused. -/
theorem C55_extension (hs : List (Handler φ ρ ε)) (suits : φ → Bool) (f : φ) (hf : suits f = false) : loadFile hs suits f = .error .extension := by
  unfold loadFile; rw [hf]; rfl

theorem readFiles_ok (hs : List (Handler φ ρ ε)) (any : Bool) (fs : List φ) (c : Loaded φ ρ ε) (hnd : fs.Nodup) (hc : ∀ f ∈ fs, Dict.get? c.errors f = none)
    (hok : any = true ∨ ∀ f ∈ fs, ¬ Unknown hs f) :
    ∃ c', readFiles hs any fs c = .ok c' ∧
      (∀ r, r ∈ c'.recs ↔ r ∈ c.recs ∨ ∃ f ∈ fs, ∃ h, Chosen hs f h ∧ r ∈ (h.process f).1) ∧
      (∀ k, k ∈ c'.kinds ↔ k ∈ c.kinds ∨ ∃ f ∈ fs, ∃ h, Chosen hs f h ∧ k = h.kind) ∧
      (∀ f e, Dict.get? c'.errors f = some e ↔ Dict.get? c.errors f = some e ∨ (f ∈ fs ∧ ∃ h, Chosen hs f h ∧ (h.process f).2 = some e)) ∧
      (c'.bad = true ↔ c.bad = true ∨ ∃ f ∈ fs, ∃ h, Chosen hs f h ∧ (h.process f).2 ≠ none) := by
  induction fs generalizing c with
  | nil => exact ⟨c, rfl, by simp, by simp, by simp, by simp⟩
  | cons f fs ih =>
    obtain ⟨hf, hnd'⟩ := List.nodup_cons.1 hnd
    rw [readFiles]
    cases hp : pick f hs with
    | none =>
      have hu := (pick_none hs f).1 hp
      have hany : any = true := by
        rcases hok with h | h
        · exact h
        · exact absurd hu (h f (by simp))
      simp only [hany, if_true]
      obtain ⟨c', h1, h2, h3, h4, h5⟩ := ih c hnd' (fun g hg => hc g (by simp [hg])) (Or.inl hany)
      have hno : ∀ h, ¬ Chosen hs f h := by
        intro h hh; rw [← C55_first, hp] at hh; cases hh
      subst hany
      refine ⟨c', h1, ?_, ?_, ?_, ?_⟩
      · intro r; rw [h2]; simp [hno]
      · intro k; rw [h3]; simp [hno]
      · intro g e
        rw [h4]
        constructor
        · rintro (h | ⟨h, h'⟩)
          · exact Or.inl h
          · exact Or.inr ⟨by simp [h], h'⟩
        · rintro (h | ⟨h, x, h', h''⟩)
          · exact Or.inl h
          · rcases List.mem_cons.1 h with rfl | h
            · exact absurd h' (hno x)
            · exact Or.inr ⟨h, x, h', h''⟩
      · rw [h5]; simp [hno]
    | some h =>
      have hch := (C55_first hs f h).1 hp
      have huniq : ∀ g, Chosen hs f g → g = h := by
        intro g hg; rw [← C55_first, hp] at hg; cases hg; rfl
      simp only
      have hrec : ∀ r, r ∈ (readWith h f c).recs ↔ r ∈ c.recs ∨ r ∈ (h.process f).1 := by
        intro r; rw [readWith_recs]; exact mem_addAll _ _ _
      have hkind : ∀ k, k ∈ (readWith h f c).kinds ↔ k ∈ c.kinds ∨ k = h.kind := by
        intro k
        have : k ∈ addAll c.kinds [h.kind] ↔ k ∈ c.kinds ∨ k = h.kind := by rw [mem_addAll]; simp
        rw [readWith_kinds]; exact this
      have herr : ∀ g, Dict.get? (readWith h f c).errors g = if g = f then (match (h.process f).2 with | some e => some e | none => Dict.get? c.errors f) else Dict.get? c.errors g := by
        exact readWith_errors h f c
      have hbad : (readWith h f c).bad = true ↔ c.bad = true ∨ (h.process f).2 ≠ none := by
        exact readWith_bad h f c
      obtain ⟨c', h1, h2, h3, h4, h5⟩ := ih (readWith h f c) hnd' (by
        intro g hg
        rw [herr, if_neg (by rintro rfl; exact hf hg)]
        exact hc g (by simp [hg])) (by
        rcases hok with h | h
        · exact Or.inl h
        · exact Or.inr (fun g hg => h g (by simp [hg])))
      refine ⟨c', h1, ?_, ?_, ?_, ?_⟩
      · intro r
        rw [h2, hrec]
        constructor
        · rintro ((h' | h') | ⟨g, hg, h'⟩)
          · exact Or.inl h'
          · exact Or.inr ⟨f, by simp, h, hch, h'⟩
          · exact Or.inr ⟨g, by simp [hg], h'⟩
        · rintro (h' | ⟨g, hg, x, hx, h'⟩)
          · exact Or.inl (Or.inl h')
          · rcases List.mem_cons.1 hg with rfl | hg
            · rw [huniq x hx] at h'; exact Or.inl (Or.inr h')
            · exact Or.inr ⟨g, hg, x, hx, h'⟩
      · intro k
        rw [h3, hkind]
        constructor
        · rintro ((h' | h') | ⟨g, hg, h'⟩)
          · exact Or.inl h'
          · exact Or.inr ⟨f, by simp, h, hch, h'⟩
          · exact Or.inr ⟨g, by simp [hg], h'⟩
        · rintro (h' | ⟨g, hg, x, hx, h'⟩)
          · exact Or.inl (Or.inl h')
          · rcases List.mem_cons.1 hg with rfl | hg
            · rw [huniq x hx] at h'; exact Or.inl (Or.inr h')
            · exact Or.inr ⟨g, hg, x, hx, h'⟩
      · intro g e
        rw [h4, herr]
        by_cases hg : g = f
        · subst hg
          rw [if_pos rfl, hc g (by simp)]
          constructor
          · rintro (h' | ⟨h', -⟩)
            · right
              refine ⟨by simp, h, hch, ?_⟩
              cases hpe : (h.process g).2 with
              | none => rw [hpe] at h'; simp at h'
              | some e' => rw [hpe] at h'; simpa using h'
            · exact absurd h' hf
          · rintro (h' | ⟨-, x, hx, h'⟩)
            · cases h'
            · rw [huniq x hx] at h'
              left; rw [h']
        · rw [if_neg hg]
          simp [hg]
      · rw [h5, hbad]
        constructor
        · rintro ((h' | h') | ⟨g, hg, h'⟩)
          · exact Or.inl h'
          · exact Or.inr ⟨f, by simp, h, hch, h'⟩
          · exact Or.inr ⟨g, by simp [hg], h'⟩
        · rintro (h' | ⟨g, hg, x, hx, h'⟩)
          · exact Or.inl (Or.inl h')
          · rcases List.mem_cons.1 hg with rfl | hg
            · rw [huniq x hx] at h'; exact Or.inl (Or.inr h')
            · exact Or.inr ⟨g, hg, x, hx, h'⟩

/-- C55: a directory read without an extension: every file is read by its chosen reader, files no reader accepts are left out, and nothing
else is in the collection. With an extension the same holds if every file with that extension is accepted by some reader. -/
theorem C55_directory (hs : List (Handler φ ρ ε)) (suits : φ → Bool) (anyExtension : Bool) (listing : List φ) (hnd : listing.Nodup)
    (hok : anyExtension = true ∨ ∀ f ∈ listing, suits f = true → ¬ Unknown hs f) :
    ∃ c, loadDir hs suits anyExtension listing = .ok c ∧
      (∀ r, r ∈ c.recs ↔ ∃ f ∈ listing, suits f = true ∧ ∃ h, Chosen hs f h ∧ r ∈ (h.process f).1) ∧
      (∀ k, k ∈ c.kinds ↔ ∃ f ∈ listing, suits f = true ∧ ∃ h, Chosen hs f h ∧ k = h.kind) ∧
      (∀ f e, Dict.get? c.errors f = some e ↔ f ∈ listing ∧ suits f = true ∧ ∃ h, Chosen hs f h ∧ (h.process f).2 = some e) ∧
      (c.bad = true ↔ ∃ f ∈ listing, suits f = true ∧ ∃ h, Chosen hs f h ∧ (h.process f).2 ≠ none) := by
  obtain ⟨c, h1, h2, h3, h4, h5⟩ := readFiles_ok hs anyExtension (listing.filter suits) ⟨[], [], false, []⟩ (hnd.filter _) (by simp [Dict.get?]) (by
    rcases hok with h | h
    · exact Or.inl h
    · exact Or.inr (fun f hf => h f (List.mem_filter.1 hf).1 (List.mem_filter.1 hf).2))
  refine ⟨c, h1, ?_, ?_, ?_, ?_⟩
  · intro r; rw [h2]; simp [and_assoc]
  · intro k; rw [h3]; simp [and_assoc]
  · intro f e; rw [h4]; simp [Dict.get?, and_assoc]
  · rw [h5]; simp [and_assoc]

/-- C55: with an extension, one file of that extension that no reader accepts makes the whole load fail. -/
theorem C55_directory_unknown (hs : List (Handler φ ρ ε)) (suits : φ → Bool) (listing : List φ) (f : φ) (hf : f ∈ listing) (hs' : suits f = true) (hu : Unknown hs f) :
    loadDir hs suits false listing = .error .badInput := by
  unfold loadDir
  have : f ∈ listing.filter suits := List.mem_filter.2 ⟨hf, hs'⟩
  generalize listing.filter suits = fs at this
  generalize (⟨[], [], false, []⟩ : Loaded φ ρ ε) = c
  induction fs generalizing c with
  | nil => simp at this
  | cons g fs ih =>
    rw [readFiles]
    rcases List.mem_cons.1 this with rfl | hm
    · rw [(pick_none hs f).2 hu]; rfl
    · cases pick g hs with
      | none => rfl
      | some h => exact ih hm _

/-! ## The readers of records -/

/-- C55: the table of record readers, in order. -/
theorem C55_record_order (process : Str → File → List ρ × Option ε) :
    (recordHandlers process).map (·.kind) = ["WOSRecord".toList, "MedlineRecord".toList, "ProQuestRecord".toList, "ScopusRecord".toList] := rfl

/-- C55: a file written for WOS records is read by the WOS reader. -/
theorem C55_wos_written (ws : Char → Bool) (hws : ws '\n' = true) (hE : ws 'E' = false) (rs : List Verif.Model.Wos.Rec) (hne : rs ≠ [])
    (hg : ∀ r ∈ rs, Verif.Props.WosFiles.Good ws r) (hd : Verif.Props.WosFiles.Distinct rs) (f : File) (text : Str)
    (ht : Verif.Model.Wos.writeFile rs = some text) (hf : f.utf8 = some text) (process : Str → File → List ρ × Option ε) :
    ∃ h, Chosen (recordHandlers process) f h ∧ h.kind = "WOSRecord".toList := by
  obtain ⟨text', h1, -, h3⟩ := Verif.Props.WosFiles.C30_round_trip ws hws hE rs hne hg hd
  rw [ht] at h1
  cases h1
  refine ⟨_, ⟨[], _, rfl, by simp, ?_⟩, rfl⟩
  simp [hf, h3]

/-- C55: a file written for Medline records is read by the Medline reader unless one of its first three lines holds `VR 1.0`. -/
theorem C55_medline_written {ws alpha : Char → Bool} (hc : Verif.Spec.Medline.Classes ws alpha) (rs : List Verif.Model.Medline.Rec) (hne : rs ≠ [])
    (hg : ∀ r ∈ rs, Verif.Props.MedlineFiles.GoodInFile alpha r) (hd : Verif.Props.MedlineFiles.Distinct rs) (f : File) (text : Str)
    (ht : Verif.Model.Medline.writeFile rs = some text) (hf : f.latin1 = text)
    (hv : ∀ t, f.utf8 = some t → ∀ l ∈ (Lines.fileLines (Verif.Model.Wos.dropBOM t)).take 3, ¬ "VR 1.0".toList <:+: l)
    (process : Str → File → List ρ × Option ε) :
    ∃ h, Chosen (recordHandlers process) f h ∧ h.kind = "MedlineRecord".toList := by
  obtain ⟨text', rs', h1, -, -, h3⟩ := Verif.Props.MedlineFiles.C58_round_trip hc rs hne hg hd
  rw [ht] at h1
  cases h1
  refine ⟨_, ⟨(recordHandlers process).take 1, _, rfl, ?_, ?_⟩, rfl⟩
  · intro b hb
    have : b = (recordHandlers process).head (by simp [recordHandlers, recordDetectors]) := by simpa [recordHandlers, recordDetectors] using hb
    subst this
    show f.utf8.any Verif.Model.Wos.isWOSFile = false
    cases hu : f.utf8 with
    | none => rfl
    | some t =>
      simp only [Option.any_some]
      unfold Verif.Model.Wos.isWOSFile
      rw [List.any_eq_false]
      intro l hl hcn
      exact hv t hu l hl ((Str.contains_iff _ _).1 hcn)
  · simp [hf, h3]

/-- Such a line makes it read as a WOS file: here the title of the first record. -/
theorem C55_medline_taken_for_wos : (recordDetectors.find? (fun p => p.2 ⟨some "\nPMID- 1\nTI  - On VR 1.0 files\n".toList, "\nPMID- 1\nTI  - On VR 1.0 files\n".toList⟩)).map (·.1)
    = some "WOSRecord".toList := by decide +kernel

/-! ## Non-vacuity -/

def exHandlers : List (Handler Nat Nat Nat) := [⟨"a".toList, fun n => ([n, n + 1], none), fun n => n % 2 = 0⟩, ⟨"b".toList, fun n => ([10 * n], some 7), fun n => n % 3 = 0⟩]

example : ∃ c, loadDir exHandlers (fun _ => true) true [2, 3, 5, 6] = .ok c ∧ c.recs = [2, 3, 30, 6, 7] ∧ c.errors = [(3, 7)] ∧ c.bad = true := ⟨_, rfl, by decide⟩
example : loadDir exHandlers (fun _ => true) false [2, 3, 5, 6] = .error .badInput := rfl

example : (recordDetectors.find? (fun p => p.2 ⟨some "PMID- 1\n".toList, "PMID- 1\n".toList⟩)).map (·.1) = some "MedlineRecord".toList := by decide +kernel

end Verif.Props.FileChoice
