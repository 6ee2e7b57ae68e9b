import Verif.Py.Str

/-!
# Text files

Reading a text file in Python: line ends are translated (`'\r\n'` and `'\r'` become `'\n'`), and iteration gives the lines with their ends.
Writing leaves `'\n'` alone (on Linux). Nothing here models a particular file of /repo.
-/
set_option autoImplicit false
namespace Verif.Py.Lines
open Verif.Py

/-- Translation of line ends. -/
def univ : Str → Str
  | [] => []
  | '\r' :: '\n' :: s => '\n' :: univ s
  | c :: s => (if c = '\r' then '\n' else c) :: univ s

/-- The lines of a text, with their ends. -/
def lines : Str → List Str
  | [] => []
  | c :: s => if c = '\n' then ['\n'] :: lines s else
    match lines s with
    | [] => [[c]]
    | l :: ls => (c :: l) :: ls

/-- The lines seen when a file with this text is read. -/
def fileLines (s : Str) : List Str := lines (univ s)

theorem univ_id (s : Str) (h : '\r' ∉ s) : univ s = s := by
  induction s with
  | nil => rfl
  | cons c s ih =>
    have hc : c ≠ '\r' := fun e => h (by simp [e])
    have hs := ih (fun e => h (List.mem_cons_of_mem _ e))
    rw [univ]
    · rw [hs, if_neg hc]
    · intro s' e
      exact fun _ => hc e

theorem lines_append (l s : Str) (h : '\n' ∉ l) : lines (l ++ '\n' :: s) = (l ++ ['\n']) :: lines s := by
  induction l with
  | nil => simp [lines]
  | cons c l ih =>
    have hc : c ≠ '\n' := fun e => h (by simp [e])
    rw [List.cons_append, lines, if_neg hc, ih (fun e => h (List.mem_cons_of_mem _ e))]
    rfl

theorem lines_last (l : Str) (h : '\n' ∉ l) (hl : l ≠ []) : lines l = [l] := by
  induction l with
  | nil => exact absurd rfl hl
  | cons c l ih =>
    have hc : c ≠ '\n' := fun e => h (by simp [e])
    rw [lines, if_neg hc]
    cases l with
    | nil => rfl
    | cons d l => rw [ih (fun e => h (List.mem_cons_of_mem _ e)) (by simp)]

/-- Lines which are complete. -/
def Complete (ls : List Str) : Prop := ∀ l ∈ ls, ∃ x, l = x ++ ['\n'] ∧ '\n' ∉ x

theorem lines_flatten (ls : List Str) (h : Complete ls) (s : Str) : lines (ls.flatten ++ s) = ls ++ lines s := by
  induction ls with
  | nil => rfl
  | cons l ls ih =>
    obtain ⟨x, rfl, hx⟩ := h l (by simp)
    rw [List.flatten_cons, List.append_assoc, List.append_assoc, List.singleton_append, lines_append x _ hx,
      ih (fun l hl => h l (List.mem_cons_of_mem _ hl))]
    rfl

/-- The lines of a text make up the text. -/
theorem flatten_lines (s : Str) : (lines s).flatten = s := by
  induction s with
  | nil => rfl
  | cons c s ih =>
    rw [lines]
    split
    · rename_i h; subst h; simp [ih]
    · split
      · rename_i h; rw [h] at ih; simp at ih; simp [← ih]
      · rename_i l ls h
        rw [h] at ih
        simpa using ih

theorem lines_shape (s : Str) (l : Str) (h : l ∈ lines s) : l ≠ [] ∧ '\n' ∉ l.dropLast := by
  induction s generalizing l with
  | nil => simp [lines] at h
  | cons c s ih =>
    rw [lines] at h
    split at h
    · rcases List.mem_cons.1 h with rfl | h
      · simp
      · exact ih l h
    · rename_i hc
      split at h
      · simp at h; subst h; simp
      · rename_i l0 ls0 h0
        rcases List.mem_cons.1 h with rfl | h
        · obtain ⟨h1, h2⟩ := ih l0 (by rw [h0]; simp)
          refine ⟨by simp, ?_⟩
          rw [List.dropLast_cons_of_ne_nil h1]
          simp only [List.mem_cons, not_or]
          exact ⟨fun e => hc e.symm, h2⟩
        · exact ih l (by rw [h0]; exact List.mem_cons_of_mem _ h)

end Verif.Py.Lines
