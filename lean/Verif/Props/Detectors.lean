import Verif.Spec.Scopus
import Mathlib.Data.List.Dedup
import Verif.Model.Files

/-!
# C55: what the detectors of record files look at
-/
set_option autoImplicit false
set_option linter.unusedSimpArgs false
namespace Verif.Props.Detectors
open Verif.Py Verif.Model.Files

/-- The line of underscores ProQuest starts a section with. -/
def rule : Str := List.replicate 60 '_' ++ ['\n']

/-- The three lines a ProQuest file starts with, and what follows. -/
def Heading (ls : List Str) : Prop := ∃ rest, ls = rule :: "\n".toList :: "Report Information from ProQuest\n".toList :: rest

theorem go_heading (n : Nat) (rest : List Str) : proQuestGo (n + 1) (rule :: "\n".toList :: "Report Information from ProQuest\n".toList :: rest) = true := by
  rw [proQuestGo.eq_def]
  dsimp only
  rw [if_pos (by rfl)]
  rfl

/-- One attempt: the heading is there, or the attempt failed at some line and the next one starts behind it. -/
theorem go_step (n : Nat) (ls : List Str) : proQuestGo (n + 1) ls = true ↔ Heading ls ∨
    (∃ l rest, ls = l :: rest ∧ l ≠ rule ∧ proQuestGo n rest = true) ∨
    (∃ l rest, ls = rule :: l :: rest ∧ l ≠ "\n".toList ∧ proQuestGo n rest = true) ∨
    ∃ l rest, ls = rule :: "\n".toList :: l :: rest ∧ l ≠ "Report Information from ProQuest\n".toList ∧ proQuestGo n rest = true := by
  constructor
  · intro h
    cases ls with
    | nil => simp [proQuestGo] at h
    | cons l ls =>
      rw [proQuestGo.eq_def] at h
      dsimp only at h
      by_cases hl : l = rule
      · rw [if_pos (show l = Verif.Model.ProQuest.separator from hl)] at h
        subst hl
        cases ls with
        | nil => simp at h
        | cons b ls =>
          dsimp only at h
          by_cases hb : b = ['\n']
          · rw [if_pos hb] at h
            subst hb
            cases ls with
            | nil => simp at h
            | cons r ls =>
              dsimp only at h
              by_cases hr : r = "Report Information from ProQuest\n".toList
              · subst hr; exact Or.inl ⟨ls, rfl⟩
              · rw [if_neg hr] at h; exact Or.inr (Or.inr (Or.inr ⟨r, ls, rfl, hr, h⟩))
          · rw [if_neg hb] at h; exact Or.inr (Or.inr (Or.inl ⟨b, ls, rfl, hb, h⟩))
      · rw [if_neg (show ¬ l = Verif.Model.ProQuest.separator from hl)] at h
        exact Or.inr (Or.inl ⟨l, ls, rfl, hl, h⟩)
  · rintro (⟨rest, rfl⟩ | ⟨l, rest, rfl, h1, h2⟩ | ⟨l, rest, rfl, h1, h2⟩ | ⟨l, rest, rfl, h1, h2⟩)
    · exact go_heading n rest
    · rw [proQuestGo.eq_def]
      dsimp only
      rw [if_neg (show ¬ l = Verif.Model.ProQuest.separator from h1)]; exact h2
    · rw [proQuestGo.eq_def]
      dsimp only
      rw [if_pos (show rule = Verif.Model.ProQuest.separator from rfl)]
      rw [if_neg (show ¬ l = ['\n'] from h1)]; exact h2
    · rw [proQuestGo.eq_def]
      dsimp only
      rw [if_pos (show rule = Verif.Model.ProQuest.separator from rfl)]
      rw [if_pos (show "\n".toList = ['\n'] from rfl)]
      rw [if_neg h1]; exact h2

theorem go_one (ls : List Str) : proQuestGo 1 ls = true ↔ Heading ls := by
  have h0 : ∀ l, proQuestGo 0 l = true ↔ False := by intro l; simp [proQuestGo]
  rw [go_step]
  simp only [h0, and_false, exists_false, or_false]

/-- C55: a file is taken for a ProQuest file exactly if its text starts with the heading, or has it behind one line, or behind the first one or two
lines of a heading and a line that does not go on with it. -/
theorem C55_proquest (text : Str) : isProQuestFile text = true ↔
    ∃ skipped ls, Lines.fileLines text = skipped ++ ls ∧ Heading ls ∧
      (skipped = [] ∨ (∃ l, skipped = [l] ∧ l ≠ rule) ∨ (∃ l, skipped = [rule, l] ∧ l ≠ "\n".toList) ∨
        ∃ l, skipped = [rule, "\n".toList, l] ∧ l ≠ "Report Information from ProQuest\n".toList) := by
  unfold isProQuestFile
  rw [go_step]
  simp only [go_one]
  constructor
  · rintro (h | ⟨l, rest, h, h1, h2⟩ | ⟨l, rest, h, h1, h2⟩ | ⟨l, rest, h, h1, h2⟩)
    · exact ⟨[], _, rfl, h, Or.inl rfl⟩
    · exact ⟨[l], rest, h, h2, Or.inr (Or.inl ⟨l, rfl, h1⟩)⟩
    · exact ⟨[rule, l], rest, h, h2, Or.inr (Or.inr (Or.inl ⟨l, rfl, h1⟩))⟩
    · exact ⟨[rule, "\n".toList, l], rest, h, h2, Or.inr (Or.inr (Or.inr ⟨l, rfl, h1⟩))⟩
  · rintro ⟨skipped, ls, h, hh, rfl | ⟨l, rfl, h1⟩ | ⟨l, rfl, h1⟩ | ⟨l, rfl, h1⟩⟩
    · exact Or.inl (by rw [h]; exact hh)
    · exact Or.inr (Or.inl ⟨l, ls, h, h1, hh⟩)
    · exact Or.inr (Or.inr (Or.inl ⟨l, ls, h, h1, hh⟩))
    · exact Or.inr (Or.inr (Or.inr ⟨l, ls, h, h1, hh⟩))

/-- C55: a doubled first line hides the heading that starts within the first two lines (the code disagrees with its documentation). -/
theorem C55_proquest_missed (rest : List Str) (text : Str) (h : Lines.fileLines text = rule :: rule :: "\n".toList :: "Report Information from ProQuest\n".toList :: rest) :
    isProQuestFile text = false := by
  cases hi : isProQuestFile text with
  | false => rfl
  | true =>
    exfalso
    obtain ⟨sk, ls, h1, ⟨r, h2⟩, h3⟩ := (C55_proquest text).1 hi
    rw [h, h2] at h1
    rcases h3 with rfl | ⟨l, rfl, h3⟩ | ⟨l, rfl, h3⟩ | ⟨l, rfl, h3⟩
    · exact absurd (List.cons.inj (List.cons.inj h1).2).1 (by decide)
    · exact h3 (List.cons.inj h1).1.symm
    · have := (List.cons.inj (List.cons.inj (List.cons.inj h1).2).2).1
      exact absurd this (by decide)
    · exact absurd (List.cons.inj (List.cons.inj h1).2).1 (by decide)

/-- C55: a file is taken for a WOS file exactly if it is UTF-8 and one of its first three lines holds `VR 1.0`; a byte order mark is not looked at. -/
theorem C55_wos (text : Str) : Verif.Model.Wos.isWOSFile text = true ↔
    ∃ l ∈ (Lines.fileLines (if text.head? = some '﻿' then text.drop 1 else text)).take 3, "VR 1.0".toList <:+: l := by
  have hb : Verif.Model.Wos.dropBOM text = if text.head? = some '﻿' then text.drop 1 else text := by
    cases text with
    | nil => rfl
    | cons c s =>
      rw [Verif.Model.Wos.dropBOM]
      simp only [List.head?_cons, Option.some.injEq, List.drop_succ_cons, List.drop_zero]
  unfold Verif.Model.Wos.isWOSFile
  rw [hb, List.any_eq_true]
  constructor
  · rintro ⟨l, h1, h2⟩; exact ⟨l, h1, (Str.contains_iff _ _).1 h2⟩
  · rintro ⟨l, h1, h2⟩; exact ⟨l, h1, (Str.contains_iff _ _).2 h2⟩

/-- C55: a file is taken for a Medline file exactly if one of its first two lines starts with `PMID- `. -/
theorem C55_medline (text : Str) : Verif.Model.Medline.isMedlineFile text = true ↔
    ∃ l ∈ (Lines.fileLines text).take 2, "PMID- ".toList <+: l := by
  unfold Verif.Model.Medline.isMedlineFile
  rw [List.any_eq_true]
  constructor
  · rintro ⟨l, h1, h2⟩; exact ⟨l, h1, List.isPrefixOf_iff_prefix.1 h2⟩
  · rintro ⟨l, h1, h2⟩; exact ⟨l, h1, List.isPrefixOf_iff_prefix.2 h2⟩

/-- The columns in which two headers differ, each once. -/
def Differ (a b d : List Str) : Prop := d.Nodup ∧ ∀ x, x ∈ d ↔ (x ∈ a ∧ x ∉ b) ∨ (x ∈ b ∧ x ∉ a)

theorem symDiff_spec (a b : List Str) : ∃ d, Differ a b d ∧ d.length = Verif.Model.Scopus.symDiff a b := by
  refine ⟨_, ⟨?_, ?_⟩, rfl⟩
  · rw [List.nodup_append]
    refine ⟨List.nodup_dedup _, List.nodup_dedup _, ?_⟩
    intro x hx y hy e
    subst e
    simp only [List.mem_dedup, List.mem_filter, decide_eq_true_eq] at hx hy
    exact hx.2 hy.1
  · intro x
    simp

theorem differ_length (a b d d' : List Str) (h : Differ a b d) (h' : Differ a b d') : d.length = d'.length := by
  have : d.Perm d' := (List.perm_ext_iff_of_nodup h.1 h'.1).2 (fun x => by rw [h.2, h'.2])
  exact this.length_eq

theorem one_line (text : Str) (c : Char) (s : Str) (h : Lines.univ text = c :: s) (l : Str) :
    l ∈ (Lines.lines s ++ [[], []]).take 2 ↔ l ∈ (Lines.lines s).take 2 ∨ (l = [] ∧ (Lines.lines s).length < 2) := by
  match hL : Lines.lines s with
  | [] => simp
  | [a] => simp
  | a :: b :: r => simp; omega

/-- C55: a file is taken for a Scopus file exactly if it starts with a byte order mark and the columns of one of its first two lines, cut at the
commas, differ from the known ones in fewer than three. -/
theorem C55_scopus (text : Str) : Verif.Model.Scopus.isScopusFile text = true ↔
    ∃ s, Lines.univ text = '﻿' :: s ∧ ∃ l ∈ (Lines.lines s).take 2, ∃ d, Differ (Str.split [','] l.dropLast) (Verif.Spec.Scopus.columns.map String.toList) d ∧ d.length < 3 := by
  rw [show Verif.Spec.Scopus.columns.map String.toList = Verif.Model.Scopus.scopusHeader from rfl]
  have hempty : ¬ Verif.Model.Scopus.symDiff (Str.split [','] ([] : Str).dropLast) Verif.Model.Scopus.scopusHeader < 3 := by decide +kernel
  have hiff : ∀ a b, (∃ d, Differ a b d ∧ d.length < 3) ↔ Verif.Model.Scopus.symDiff a b < 3 := by
    intro a b
    obtain ⟨d, h1, h2⟩ := symDiff_spec a b
    constructor
    · rintro ⟨d', h3, h4⟩; rw [← h2, differ_length a b d d' h1 h3]; exact h4
    · intro h; exact ⟨d, h1, by rw [h2]; exact h⟩
  simp only [hiff]
  unfold Verif.Model.Scopus.isScopusFile
  cases hu : Lines.univ text with
  | nil => simp
  | cons c s =>
    dsimp only
    by_cases hc : c = '﻿'
    · rw [if_pos hc, List.any_eq_true]
      subst hc
      constructor
      · rintro ⟨l, hl, h⟩
        have h : Verif.Model.Scopus.symDiff (Str.split [','] l.dropLast) Verif.Model.Scopus.scopusHeader < 3 := of_decide_eq_true h
        rcases (one_line text _ s hu l).1 hl with hl | ⟨rfl, -⟩
        · exact ⟨s, rfl, l, hl, h⟩
        · exact absurd h hempty
      · rintro ⟨s', e, l, hl, h⟩
        injection e with _ e
        subst e
        exact ⟨l, (one_line text _ s hu l).2 (Or.inl hl), decide_eq_true h⟩
    · rw [if_neg hc]
      constructor
      · intro h; cases h
      · rintro ⟨s', e, -⟩
        injection e with e _
        exact absurd e hc

/-! ## Non-vacuity -/

def exHead : Str := "Report\n".toList ++ rule ++ "\nReport Information from ProQuest\n1\n".toList
example : isProQuestFile exHead = true := (C55_proquest exHead).2 ⟨["Report\n".toList], _, by decide +kernel, ⟨["1\n".toList], rfl⟩, Or.inr (Or.inl ⟨_, rfl, by decide⟩)⟩
example : isProQuestFile (rule ++ exHead.drop 7) = false := C55_proquest_missed ["1\n".toList] _ (by decide +kernel)
example : Verif.Model.Wos.isWOSFile "FN x\nVR 1.0\n".toList = true := (C55_wos _).2 ⟨"VR 1.0\n".toList, by decide, ⟨[], ['\n'], by decide⟩⟩
example : Verif.Model.Medline.isMedlineFile "\nPMID- 1\n".toList = true := (C55_medline _).2 ⟨"PMID- 1\n".toList, by decide, ⟨"1\n".toList, by decide⟩⟩
example : Verif.Model.Scopus.isScopusFile ('﻿' :: Str.join [','] (Verif.Model.Scopus.scopusHeader.drop 2) ++ ['\n']) = true := by decide +kernel

end Verif.Props.Detectors
