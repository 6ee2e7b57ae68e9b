import Verif.Model.Plotting
import Verif.Spec.Plotting
import Mathlib.Tactic.Linarith
import Mathlib.Algebra.BigOperators.Group.Finset.Basic
import Mathlib.Algebra.BigOperators.Ring.Finset

/-!
# Lemmas for the plots
-/
set_option autoImplicit false
set_option linter.unusedSimpArgs false
namespace Verif.Lemmas.Plotting
open Verif.Model.Plotting Verif.Spec.Plotting

section
variable {τ : Type} [DecidableEq τ]

/-- The types noted after a list of types. -/
def noted (seen : List τ) (ts : List τ) : List τ := ts.foldl noteType seen

theorem noteType_prefix (seen : List τ) (t : τ) : seen <+: noteType seen t := by
  unfold noteType; split
  · exact List.prefix_rfl
  · exact List.prefix_append _ _

theorem noted_prefix (ts : List τ) : ∀ seen : List τ, seen <+: noted seen ts := by
  induction ts with
  | nil => intro seen; exact List.prefix_rfl
  | cons t ts ih => intro seen; exact (noteType_prefix seen t).trans (ih _)

theorem mem_noteType (seen : List τ) (t x : τ) : x ∈ noteType seen t ↔ x ∈ seen ∨ x = t := by
  unfold noteType; split
  · constructor
    · exact Or.inl
    · rintro (h | rfl) <;> assumption
  · simp

theorem mem_noted (ts : List τ) : ∀ (seen : List τ) (x : τ), x ∈ noted seen ts ↔ x ∈ seen ∨ x ∈ ts := by
  induction ts with
  | nil => intro seen x; simp [noted]
  | cons t ts ih =>
    intro seen x
    show x ∈ noted (noteType seen t) ts ↔ _
    rw [ih, mem_noteType, List.mem_cons]
    tauto

theorem noteType_nodup (seen : List τ) (t : τ) (h : seen.Nodup) : (noteType seen t).Nodup := by
  unfold noteType; split
  · exact h
  · rename_i hn
    rw [List.nodup_append]
    refine ⟨h, by simp, ?_⟩
    intro a ha b hb
    rw [List.mem_singleton] at hb
    subst hb; rintro rfl; exact hn ha

theorem noted_nodup (ts : List τ) : ∀ seen : List τ, seen.Nodup → (noted seen ts).Nodup := by
  induction ts with
  | nil => intro seen h; exact h
  | cons t ts ih => intro seen h; exact ih _ (noteType_nodup seen t h)

theorem noted_length (ts : List τ) : (noted [] ts).length = ts.dedup.length := by
  apply List.Perm.length_eq
  rw [List.perm_ext_iff_of_nodup (noted_nodup ts [] List.nodup_nil) (List.nodup_dedup ts)]
  intro a; rw [mem_noted, List.mem_dedup]; simp

theorem idxOf_of_prefix {a b : List τ} (h : a <+: b) {t : τ} (ht : t ∈ a) : b.idxOf t = a.idxOf t := by
  obtain ⟨c, rfl⟩ := h
  exact List.idxOf_append_of_mem ht

theorem colourOf_of_prefix {a b : List τ} (h : a <+: b) {t : τ} (ht : t ∈ a) : colourOf b t = colourOf a t := by
  unfold colourOf; rw [idxOf_of_prefix h ht]

theorem noted_append (a b : List τ) (seen : List τ) : noted seen (a ++ b) = noted (noted seen a) b := by
  unfold noted; rw [List.foldl_append]

theorem dropWhile_to (ts : List τ) (t : τ) (ht : t ∈ ts) : ∃ r, ts.dropWhile (· ≠ t) = t :: r := by
  induction ts with
  | nil => simp at ht
  | cons a ts ih =>
    by_cases h : a = t
    · subst h; exact ⟨ts, by simp⟩
    · rw [List.dropWhile_cons_of_pos (by simpa using h)]
      exact ih (by rcases List.mem_cons.mp ht with e | e; exact absurd e.symm h; exact e)

theorem takeWhile_not (ts : List τ) (t : τ) : t ∉ ts.takeWhile (· ≠ t) := by
  induction ts with
  | nil => simp
  | cons a ts ih =>
    by_cases h : a = t
    · subst h; simp
    · rw [List.takeWhile_cons_of_pos (by simpa using h)]
      rintro (_ | ⟨_, h'⟩)
      · exact h rfl
      · exact ih h'

theorem idxOf_noted (ts : List τ) (t : τ) (ht : t ∈ ts) : (noted [] ts).idxOf t = typesBefore ts t := by
  unfold typesBefore
  have e : ts = ts.takeWhile (· ≠ t) ++ ts.dropWhile (· ≠ t) := (List.takeWhile_append_dropWhile).symm
  have hd := dropWhile_to ts t ht
  obtain ⟨r, hr⟩ := hd
  have hnt : t ∉ noted [] (ts.takeWhile (· ≠ t)) := by
    rw [mem_noted]
    rintro (h | h)
    · simp at h
    · exact takeWhile_not ts t h
  conv_lhs => rw [e, hr]
  rw [noted_append]
  have hp : noteType (noted [] (ts.takeWhile (· ≠ t))) t <+: noted (noted [] (ts.takeWhile (· ≠ t))) (t :: r) := noted_prefix r _
  rw [idxOf_of_prefix hp (by rw [mem_noteType]; exact Or.inr rfl)]
  unfold noteType
  rw [if_neg hnt, List.idxOf_append_of_notMem hnt]
  simp [noted_length]

/-- When the loop over the nodes stops. -/
theorem colourLoop_error (os : List (Option τ)) : ∀ (seen : List τ) (cols : List Char) (e : VErr),
    colourLoop seen cols os = .error e ↔ e = .untyped ∧ ∃ pre post, os = pre ++ none :: post ∧ 2 ≤ cols.length + (pre.filterMap id).length := by
  induction os with
  | nil => intro seen cols e; simp [colourLoop]
  | cons o os ih =>
    intro seen cols e
    cases o with
    | some t =>
      rw [colourLoop, ih]
      refine and_congr_right fun _ => ⟨?_, ?_⟩
      · rintro ⟨pre, post, rfl, h⟩
        refine ⟨some t :: pre, post, rfl, ?_⟩
        simp at h ⊢; omega
      · rintro ⟨pre, post, h1, h⟩
        cases pre with
        | nil => simp at h1
        | cons a pre =>
          simp only [List.cons_append, List.cons.injEq] at h1
          obtain ⟨rfl, rfl⟩ := h1
          refine ⟨pre, post, rfl, ?_⟩
          simp at h ⊢; omega
    | none =>
      rw [colourLoop]
      by_cases hc : cols.length > 1
      · rw [if_pos hc]
        constructor
        · intro h
          cases h
          exact ⟨rfl, [], os, rfl, by simp; omega⟩
        · rintro ⟨rfl, _⟩; rfl
      · rw [if_neg hc, ih]
        refine and_congr_right fun _ => ⟨?_, ?_⟩
        · rintro ⟨pre, post, rfl, h⟩
          exact ⟨none :: pre, post, rfl, by simpa using h⟩
        · rintro ⟨pre, post, h1, h⟩
          cases pre with
          | nil => simp at h; omega
          | cons a pre =>
            simp only [List.cons_append, List.cons.injEq] at h1
            obtain ⟨rfl, rfl⟩ := h1
            exact ⟨pre, post, rfl, by simpa using h⟩

/-- What the loop over the nodes gives. -/
theorem colourLoop_ok (os : List (Option τ)) : ∀ (seen : List τ) (cols out : List Char),
    colourLoop seen cols os = .ok out → out = cols ++ (os.filterMap id).map (colourOf (noted seen (os.filterMap id))) := by
  induction os with
  | nil => intro seen cols out h; simp [colourLoop] at h; simp [h]
  | cons o os ih =>
    intro seen cols out h
    cases o with
    | some t =>
      rw [colourLoop] at h
      have := ih _ _ _ h
      rw [this]
      have e1 : (some t :: os).filterMap id = t :: os.filterMap id := by simp
      rw [e1, List.map_cons]
      have e2 : noted seen (t :: os.filterMap id) = noted (noteType seen t) (os.filterMap id) := rfl
      rw [e2, colourOf_of_prefix (noted_prefix (os.filterMap id) (noteType seen t)) (by rw [mem_noteType]; exact Or.inr rfl)]
      simp
    | none =>
      rw [colourLoop] at h
      split at h
      · cases h
      · have := ih _ _ _ h
        rw [this]; simp

end

theorem npRound_nearest (q : Rat) : Nearest q (npRound q) := by
  have h1 : ((q.floor : Int) : Rat) ≤ q := Rat.floor_le q
  have h2 : q < (q.floor : Int) + 1 := by have := Rat.lt_floor_add_one q; push_cast at this; exact this
  unfold Nearest npRound
  dsimp only
  split
  · rename_i h
    rw [abs_of_nonneg (by linarith)]
    exact ⟨by linarith, fun h' => by linarith⟩
  · rename_i h
    split
    · rename_i h3
      push_cast
      rw [abs_of_nonpos (by linarith)]
      exact ⟨by linarith, fun h' => by linarith⟩
    · rename_i h3
      have he : q - (q.floor : Int) = 1 / 2 := by linarith
      split
      · rename_i h4
        rw [abs_of_nonneg (by linarith)]
        exact ⟨by linarith, fun _ => h4⟩
      · rename_i h4
        push_cast
        rw [abs_of_nonpos (by linarith)]
        exact ⟨by linarith, fun _ => by omega⟩

theorem nearest_unique {q : Rat} {a b : Int} (ha : Nearest q a) (hb : Nearest q b) : a = b := by
  obtain ⟨ha1, ha2⟩ := ha
  obtain ⟨hb1, hb2⟩ := hb
  rw [abs_le] at ha1 hb1
  by_contra hne
  have key : ∀ a b : Int, a < b → -(1/2) ≤ q - a → q - a ≤ 1/2 → -(1/2) ≤ q - b → q - b ≤ 1/2 → (b = a + 1 ∧ q - a = 1/2 ∧ q - b = -(1/2)) := by
    intro a b hlt h1 h2 h3 h4
    have hle : ((a : Rat)) + 1 ≤ b := by exact_mod_cast hlt
    have e : (b : Rat) = a + 1 := by linarith
    refine ⟨by exact_mod_cast e, by linarith, by linarith⟩
  rcases Int.lt_or_gt_of_ne hne with h | h
  · obtain ⟨e, e1, e2⟩ := key a b h ha1.1 ha1.2 hb1.1 hb1.2
    have := ha2 (by rw [e1]; norm_num)
    have := hb2 (by rw [e2]; norm_num)
    omega
  · obtain ⟨e, e1, e2⟩ := key b a h hb1.1 hb1.2 ha1.1 ha1.2
    have := hb2 (by rw [e1]; norm_num)
    have := ha2 (by rw [e2]; norm_num)
    omega

theorem nearest_ge {q : Rat} {r a : Int} (h : Nearest q r) (ha : (a : Rat) ≤ q) : a ≤ r := by
  have h1 := h.1
  rw [abs_le] at h1
  by_contra hlt
  have : (r : Rat) + 1 ≤ a := by exact_mod_cast (not_le.mp hlt)
  linarith

theorem nearest_le {q : Rat} {r b : Int} (h : Nearest q r) (hb : q ≤ (b : Rat)) : r ≤ b := by
  have h1 := h.1
  rw [abs_le] at h1
  by_contra hlt
  have : (b : Rat) + 1 ≤ r := by exact_mod_cast (not_le.mp hlt)
  linarith

theorem npRound_eq {q : Rat} {r : Int} (h : Nearest q r) : npRound q = r := nearest_unique (npRound_nearest q) h

/-- An index in reach means its residue. -/
theorem pyIndex_ok {n : Nat} {i : Int} (h1 : -(n : Int) ≤ i) (h2 : i < n) : pyIndex n i = some (i % n).toNat := by
  unfold pyIndex
  by_cases h0 : 0 ≤ i
  · rw [if_pos ⟨h0, h2⟩, Int.emod_eq_of_lt h0 h2]
  · rw [if_neg (fun h => h0 h.1), if_pos ⟨by omega, h1⟩]
    congr 2
    rw [← Int.add_emod_right, Int.emod_eq_of_lt (by omega) (by omega)]

theorem pyIndex_none {n : Nat} {i : Int} : pyIndex n i = none ↔ i < -(n : Int) ∨ (n : Int) ≤ i := by
  unfold pyIndex
  split
  · simp; omega
  · split
    · simp; omega
    · simp; omega

theorem fill_ok {n : Nat} : ∀ (ps : List (Rat × Rat)) (g : Grid) (cs : List (Int × Int)), List.Forall₂ InCell ps cs →
    (∀ c ∈ cs, -(n : Int) ≤ c.1 ∧ c.1 < n ∧ -(n : Int) ≤ c.2 ∧ c.2 < n) →
    fill n g ps = .ok (fun y x => g y x + cs.countP (fun c : Int × Int => (c.1 % (n : Int)).toNat = x ∧ (c.2 % (n : Int)).toNat = y)) := by
  intro ps
  induction ps with
  | nil => intro g cs h _; cases h; simp [fill]
  | cons p ps ih =>
    intro g cs h hb
    cases h with
    | @cons _ c _ cs h1 h2 =>
      obtain ⟨b1, b2, b3, b4⟩ := hb c (by simp)
      rw [fill, npRound_eq h1.1, npRound_eq h1.2]
      unfold bump
      rw [pyIndex_ok b3 b4, pyIndex_ok b1 b2]
      dsimp only
      rw [ih _ cs h2 (fun c hc => hb c (List.mem_cons_of_mem _ hc))]
      congr 1
      funext y x
      rw [List.countP_cons]
      by_cases hc : y = (c.2 % n).toNat ∧ x = (c.1 % n).toNat
      · rw [if_pos hc, if_pos (by simp [hc])]; omega
      · rw [if_neg hc, if_neg (by simp; intro e1 e2; exact hc ⟨e2.symm, e1.symm⟩)]; omega

theorem fill_error {n : Nat} : ∀ (ps : List (Rat × Rat)) (g : Grid),
    (∃ e, fill n g ps = .error e) ↔ ∃ p ∈ ps, (npRound p.1 < -(n : Int) ∨ (n : Int) ≤ npRound p.1) ∨ (npRound p.2 < -(n : Int) ∨ (n : Int) ≤ npRound p.2) := by
  intro ps
  induction ps with
  | nil => intro g; simp [fill]
  | cons p ps ih =>
    intro g
    rw [List.exists_mem_cons_iff, fill]
    unfold bump
    rw [← pyIndex_none, ← pyIndex_none]
    cases h2 : pyIndex n (npRound p.2) with
    | none => simp
    | some j =>
      cases h1 : pyIndex n (npRound p.1) with
      | none => simp
      | some i => dsimp only; rw [ih]; simp

theorem fill_err_index {n : Nat} : ∀ (ps : List (Rat × Rat)) (g : Grid) (e : GErr), fill n g ps = .error e → e = .index := by
  intro ps
  induction ps with
  | nil => intro g e h; simp [fill] at h
  | cons p ps ih =>
    intro g e h
    rw [fill] at h
    unfold bump at h
    cases h2 : pyIndex n (npRound p.2) with
    | none => rw [h2] at h; simp at h; exact h.symm
    | some j =>
      cases h1 : pyIndex n (npRound p.1) with
      | none => rw [h2, h1] at h; simp at h; exact h.symm
      | some i => rw [h2, h1] at h; exact ih _ _ h

/-- All cells together hold all that is counted. -/
theorem sum_cells {n : Nat} (hn : 0 < n) : ∀ (cs : List (Int × Int)),
    ∑ y ∈ Finset.range n, ∑ x ∈ Finset.range n, cs.countP (fun c : Int × Int => (c.1 % (n : Int)).toNat = x ∧ (c.2 % (n : Int)).toNat = y) = cs.length := by
  intro cs
  induction cs with
  | nil => simp
  | cons c cs ih =>
    have hx : (c.1 % n).toNat ∈ Finset.range n := by
      rw [Finset.mem_range]
      have := Int.emod_lt_of_pos c.1 (show (0 : Int) < n by omega)
      have := Int.emod_nonneg c.1 (show (n : Int) ≠ 0 by omega)
      omega
    have hy : (c.2 % n).toNat ∈ Finset.range n := by
      rw [Finset.mem_range]
      have := Int.emod_lt_of_pos c.2 (show (0 : Int) < n by omega)
      have := Int.emod_nonneg c.2 (show (n : Int) ≠ 0 by omega)
      omega
    simp only [List.countP_cons, Finset.sum_add_distrib, ih, List.length_cons]
    congr 1
    rw [Finset.sum_eq_single_of_mem _ hy, Finset.sum_eq_single_of_mem _ hx]
    · simp
    · intro b _ hb; simp [Ne.symm hb]
    · intro b _ hb
      apply Finset.sum_eq_zero
      intro x _
      simp [Ne.symm hb]

theorem exists_cells : ∀ ps : List (Rat × Rat), List.Forall₂ InCell ps (ps.map (fun p => (npRound p.1, npRound p.2))) := by
  intro ps
  induction ps with
  | nil => exact .nil
  | cons p ps ih => exact .cons ⟨npRound_nearest _, npRound_nearest _⟩ ih

end Verif.Lemmas.Plotting
