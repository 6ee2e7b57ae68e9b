import Verif.Py.StrOps
import Verif.Spec.Splitting

/-!
# `split` and `strip` meet their specification
-/
set_option autoImplicit false
set_option linter.unusedSimpArgs false
namespace Verif.Lemmas.Splitting
open Verif.Py Verif.Spec.Splitting

theorem first_occ (sep s : Str) (hs : sep ≠ []) (h : sep <:+: s) : ∃ p t, s = p ++ sep ++ t ∧ ¬ sep <:+: p ++ sep.dropLast := by
  induction s with
  | nil =>
    obtain ⟨a, b, e⟩ := h
    simp at e
    exact absurd e.2.1 hs
  | cons c s ih =>
    have hz : ¬ sep <:+: [] ++ sep.dropLast := by
      intro hi
      have := hi.length_le
      have : 0 < sep.length := List.length_pos_of_ne_nil hs
      simp at *
      omega
    by_cases hc : sep <+: c :: s
    · obtain ⟨t, ht⟩ := hc
      exact ⟨[], t, by simp [ht], hz⟩
    · have h : sep <:+: s := by
        rcases List.infix_cons_iff.1 h with h | h
        · exact absurd h hc
        · exact h
      obtain ⟨p, t, e, hp⟩ := ih h
      refine ⟨c :: p, t, by rw [e]; simp, ?_⟩
      intro hi
      rw [List.cons_append] at hi
      rcases List.infix_cons_iff.1 hi with hi | hi
      · apply hc
        refine hi.trans ⟨[sep.getLast hs] ++ t, ?_⟩
        rw [e]
        have := List.dropLast_append_getLast hs
        conv_rhs => rw [← this]
        simp
      · exact hp hi

theorem split_first (sep p t : Str) (hs : sep ≠ []) (hp : ¬ sep <:+: p ++ sep.dropLast) : Str.split sep (p ++ sep ++ t) = p :: Str.split sep t := by
  unfold Str.split
  rw [Str.splitGo_append _ hs [] p t hp]
  rfl

theorem splits_split (sep s : Str) (hs : sep ≠ []) : Splits sep s (Str.split sep s) := by
  induction hn : s.length using Nat.strong_induction_on generalizing s with
  | _ n ih =>
    by_cases h : sep <:+: s
    · obtain ⟨p, t, e, hp⟩ := first_occ sep s hs h
      rw [e, split_first sep p t hs hp]
      refine .cons p t _ hp (ih t.length ?_ t rfl)
      have := List.length_pos_of_ne_nil hs
      rw [← hn, e]
      simp
      omega
    · rw [Str.split_none _ _ h]
      exact .last s h

/-- The pieces are determined. -/
theorem splits_unique (sep s : Str) (hs : sep ≠ []) (ps : List Str) (h : Splits sep s ps) : ps = Str.split sep s := by
  induction h with
  | last p hp => rw [Str.split_none _ _ hp]
  | cons p t ps hp _ ih => rw [split_first sep p t hs hp, ih]

theorem strip_trimmed (ws : Char → Bool) (p : Str) : Trimmed ws p (Str.strip ws p) := by
  unfold Str.strip Str.lstrip
  obtain ⟨b, e, hb, hl⟩ := Str.rstrip_spec ws (p.dropWhile ws)
  refine ⟨p.takeWhile ws, b, ?_, ?_, hb, ?_, hl⟩
  · rw [List.append_assoc, ← e, List.takeWhile_append_dropWhile]
  · intro c hc
    exact List.all_eq_true.1 List.all_takeWhile c hc
  · intro c hc
    have h1 : (p.dropWhile ws).head? = some c := by
      rw [e]
      cases hr : Str.rstrip ws (p.dropWhile ws) with
      | nil => rw [hr] at hc; cases hc
      | cons d r => rw [hr] at hc; simpa using hc
    have := List.head?_dropWhile_not ws p
    rw [h1] at this
    simpa using this

end Verif.Lemmas.Splitting
