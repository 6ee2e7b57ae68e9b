import Verif.Model.Tables

/-! # Filling the columns of a table -/
set_option autoImplicit false
set_option linter.unusedSectionVars false
set_option linter.unusedSimpArgs false
namespace Verif.Model.Tables
open Verif.Py

section Columns
variable {κ V ρ : Type} [DecidableEq κ]

/-- Setting keys one by one. -/
theorem keys_foldl_set (f : κ → V) (ts : List κ) (d : Dict κ V) (k : κ) :
    k ∈ Dict.keys (ts.foldl (fun (d : Dict κ V) t => d.set t (f t)) d) ↔ k ∈ ts ∨ k ∈ Dict.keys d := by
  induction ts generalizing d with
  | nil => simp
  | cons t ts ih =>
    rw [List.foldl_cons, ih, Dict.mem_keys_set]
    simp only [List.mem_cons]
    tauto

theorem get?_foldl_set (f : κ → V) (ts : List κ) (d : Dict κ V) (k : κ) :
    Dict.get? (ts.foldl (fun (d : Dict κ V) t => d.set t (f t)) d) k = if k ∈ ts then some (f k) else Dict.get? d k := by
  induction ts generalizing d with
  | nil => simp
  | cons t ts ih =>
    rw [List.foldl_cons, ih, Dict.get?_set]
    by_cases h : k ∈ ts
    · simp [h]
    · by_cases ht : t = k
      · subst ht; simp
      · have ht' : k ≠ t := fun hh => ht hh.symm
        simp [h, ht, ht']

theorem WF_foldl_set (f : κ → V) (ts : List κ) (d : Dict κ V) (hd : Dict.WF d) :
    Dict.WF (ts.foldl (fun (d : Dict κ V) t => d.set t (f t)) d) := by
  induction ts generalizing d with
  | nil => exact hd
  | cons t ts ih => exact ih _ (Dict.WF_set hd _ _)

/-- The cells a row adds to a column. -/
def cells (k : κ) (row : List (κ × V)) : List V := row.filterMap (fun p => if p.1 = k then some p.2 else none)

theorem appendRow_general (row : List (κ × V)) (d : Dict κ (List V)) (hd : ∀ p ∈ row, p.1 ∈ Dict.keys d) :
    ∃ d', appendRow d row = some d' ∧ Dict.keys d' = Dict.keys d ∧
      ∀ k, Dict.get? d' k = (Dict.get? d k).map (fun l => l ++ cells k row) := by
  induction row generalizing d with
  | nil => exact ⟨d, rfl, rfl, fun k => by cases Dict.get? d k <;> simp [cells]⟩
  | cons p row ih =>
    obtain ⟨a, x⟩ := p
    obtain ⟨l, hl⟩ := Option.isSome_iff_exists.1 ((Dict.mem_keys_iff d a).1 (hd (a, x) (by simp)))
    have hk : Dict.keys (d.set a (l ++ [x])) = Dict.keys d := by
      rw [Dict.keys_set, if_pos (hd (a, x) (by simp))]
    obtain ⟨d', h1, h2, h3⟩ := ih (d.set a (l ++ [x])) (fun k hk' => by
      rw [hk]; exact hd k (List.mem_cons_of_mem _ hk'))
    refine ⟨d', ?_, h2.trans hk, ?_⟩
    · show (do let y ← appendCell d (a, x); appendRow y row) = some d'
      simp only [appendCell, hl, bind, Option.bind]
      exact h1
    · intro k
      rw [h3 k, Dict.get?_set]
      by_cases hka : a = k
      · subst hka
        rw [if_pos rfl, hl]
        simp [cells]
      · rw [if_neg hka]
        simp [cells, hka]

theorem fill_general (row : ρ → List (κ × V)) (recs : List ρ) (d : Dict κ (List V)) (hd : ∀ R, ∀ p ∈ row R, p.1 ∈ Dict.keys d) :
    ∃ d', recs.foldlM (fun d R => appendRow d (row R)) d = some d' ∧ Dict.keys d' = Dict.keys d ∧
      ∀ k, Dict.get? d' k = (Dict.get? d k).map (fun l => l ++ recs.flatMap (fun R => cells k (row R))) := by
  induction recs generalizing d with
  | nil => exact ⟨d, rfl, rfl, fun k => by cases Dict.get? d k <;> simp⟩
  | cons R rs ih =>
    obtain ⟨d1, h1, h2, h3⟩ := appendRow_general (row R) d (hd R)
    obtain ⟨d', g1, g2, g3⟩ := ih d1 (fun R k hk => by rw [h2]; exact hd R k hk)
    refine ⟨d', ?_, g2.trans h2, ?_⟩
    · rw [List.foldlM_cons, h1]
      exact g1
    · intro k
      rw [g3, h3]
      cases Dict.get? d k with
      | none => rfl
      | some l => simp

theorem cells_append (k : κ) (a b : List (κ × V)) : cells k (a ++ b) = cells k a ++ cells k b := by simp [cells]

theorem cells_subDict (get : κ → V) (tags : List κ) (k : κ) : cells k (subDict get tags) = if k ∈ tags then [get k] else [] := by
  have hw : Dict.WF (subDict get tags) := WF_foldl_set get tags [] Dict.WF_nil
  have h : ∀ (d : Dict κ V), Dict.WF d → cells k d = (Dict.get? d k).toList := by
    intro d
    induction d with
    | nil => exact fun _ => rfl
    | cons p d ih =>
      intro hd
      obtain ⟨a, b⟩ := p
      have hd' : a ∉ Dict.keys d ∧ Dict.WF d := by simpa [Dict.WF, Dict.keys] using hd
      have := ih hd'.2
      by_cases hak : a = k
      · subst hak
        have hn := (Dict.get?_eq_none_iff d a).2 hd'.1
        rw [hn] at this
        simp only [cells] at this
        simp [cells, Dict.get?, this]
      · simp only [cells] at this
        simp [cells, Dict.get?, hak, this]
  rw [h _ hw, subDict, get?_foldl_set]
  split <;> simp

end Columns

end Verif.Model.Tables
