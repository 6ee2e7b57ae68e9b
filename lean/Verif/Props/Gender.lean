import Verif.Spec.Gender
import Verif.Lemmas.Splitting
import Mathlib.Tactic.FieldSimp
import Mathlib.Tactic.Ring
import Mathlib.Algebra.BigOperators.Group.List.Basic

/-!
# C53: gender counts
-/
set_option autoImplicit false
set_option linter.unusedSimpArgs false
set_option linter.unusedSectionVars false
namespace Verif.Props.Gender
open Verif.Py Verif.Model.Gender Verif.Spec.Gender

/-! ## Lemmas -/

theorem split_space_head (p : Str) : (Str.split " ".toList p)[0]? = some (p.takeWhile (· ≠ ' ')) := by
  have hs : " ".toList = [' '] := rfl
  by_cases h : ' ' ∈ p
  · obtain ⟨q, t, e, hq⟩ := Verif.Lemmas.Splitting.first_occ [' '] p (by simp) (by
      obtain ⟨a, b, rfl⟩ := List.append_of_mem h
      exact ⟨a, b, by simp⟩)
    have hq' : ' ' ∉ q := by
      intro hc
      obtain ⟨a, b, rfl⟩ := List.append_of_mem hc
      exact hq ⟨a, b, by simp⟩
    rw [hs, e, Verif.Lemmas.Splitting.split_first [' '] q t (by simp) hq]
    simp only [List.getElem?_cons_zero, Option.some.injEq]
    rw [List.append_assoc, List.takeWhile_append_of_pos]
    · simp
    · intro x hx
      simp only [ne_eq, decide_not, Bool.not_eq_true', decide_eq_false_iff_not]
      rintro rfl; exact hq' hx
  · rw [hs, Str.split_none [' '] p (by
      rintro ⟨a, b, rfl⟩
      exact h (by simp))]
    simp only [List.getElem?_cons_zero, Option.some.injEq]
    symm
    have : ∀ q : Str, ' ' ∉ q → q.takeWhile (· ≠ ' ') = q := by
      intro q
      induction q with
      | nil => intro _; rfl
      | cons a q ih =>
        intro hq
        simp only [List.mem_cons, not_or] at hq
        rw [List.takeWhile_cons_of_pos (by simpa using Ne.symm hq.1), ih hq.2]
    exact this p h

theorem sep_drop : (", ".toList).dropLast = ",".toList := rfl

theorem firstName_iff (s first : Str) : FirstName s first ↔
    ∃ p, (Str.split ", ".toList s)[1]? = some p ∧ first = p.takeWhile (· ≠ ' ') := by
  constructor
  · rintro ⟨last, rest, rfl, hl, h⟩
    rw [Verif.Lemmas.Splitting.split_first ", ".toList last rest (by decide) hl]
    rcases h with ⟨part, more, rfl, hp, rfl⟩ | ⟨hr, rfl⟩
    · rw [Verif.Lemmas.Splitting.split_first ", ".toList part more (by decide) hp]
      exact ⟨part, rfl, rfl⟩
    · rw [Str.split_none _ _ hr]
      exact ⟨rest, rfl, rfl⟩
  · rintro ⟨p, hp, rfl⟩
    by_cases h : ", ".toList <:+: s
    · obtain ⟨last, rest, rfl, hl⟩ := Verif.Lemmas.Splitting.first_occ ", ".toList s (by decide) h
      rw [Verif.Lemmas.Splitting.split_first ", ".toList last rest (by decide) hl] at hp
      refine ⟨last, rest, rfl, hl, ?_⟩
      by_cases h2 : ", ".toList <:+: rest
      · obtain ⟨part, more, rfl, hq⟩ := Verif.Lemmas.Splitting.first_occ ", ".toList rest (by decide) h2
        rw [Verif.Lemmas.Splitting.split_first ", ".toList part more (by decide) hq] at hp
        simp only [List.getElem?_cons_succ, List.getElem?_cons_zero, Option.some.injEq] at hp
        exact Or.inl ⟨part, more, rfl, hq, by rw [hp]⟩
      · rw [Str.split_none _ _ h2] at hp
        simp only [List.getElem?_cons_succ, List.getElem?_cons_zero, Option.some.injEq] at hp
        exact Or.inr ⟨h2, by rw [hp]⟩
    · rw [Str.split_none _ _ h] at hp; simp at hp

theorem isGender_iff (title : Str → Str) (mapping : Dict Str (Option Str)) (s : Str) (g : Option Str) :
    IsGender title mapping s g ↔ nameGender title mapping true s = some g := by
  unfold IsGender nameGender
  simp only [firstName_iff]
  cases hp : (Str.split ", ".toList s)[1]? with
  | none => simp [unknown, eq_comm]
  | some p =>
    dsimp only
    rw [split_space_head]
    simp only [Option.some.injEq, exists_eq_left', exists_and_left, not_exists]
    constructor
    · rintro (⟨first, rfl, rfl⟩ | ⟨h, _⟩)
      · cases mapping.get? (title (p.takeWhile (· ≠ ' '))) <;> rfl
      · exact absurd rfl (h _)
    · intro h
      refine Or.inl ⟨_, rfl, ?_⟩
      cases hm : mapping.get? (title (p.takeWhile (· ≠ ' '))) with
      | none => rw [hm] at h; simp only [Option.some.injEq] at h; exact h.symm
      | some v => rw [hm] at h; simp only [Option.some.injEq] at h; exact h.symm

theorem recordGenders_get (title : Str → Str) (mapping : Dict Str (Option Str)) (authors : List Str) :
    let d := recordGenders title mapping authors
    Dict.WF d ∧ (∀ a, a ∈ d.keys ↔ a ∈ authors) ∧ ∀ kv ∈ d, kv.2 = nameGender title mapping true kv.1 := by
  have : ∀ d : Dict Str (Option (Option Str)), Dict.WF d → (∀ kv ∈ d, kv.2 = nameGender title mapping true kv.1) →
      let e := authors.foldl (fun d a => d.set a (nameGender title mapping true a)) d
      Dict.WF e ∧ (∀ a, a ∈ e.keys ↔ a ∈ d.keys ∨ a ∈ authors) ∧ ∀ kv ∈ e, kv.2 = nameGender title mapping true kv.1 := by
    induction authors with
    | nil => intro d hw hd; exact ⟨hw, by simp, hd⟩
    | cons x xs ih =>
      intro d hw hd
      have hw' := Dict.WF_set hw x (nameGender title mapping true x)
      obtain ⟨h1, h2, h3⟩ := ih (d.set x (nameGender title mapping true x)) hw' (by
        rintro ⟨k, v⟩ hkv
        have := Dict.get?_of_mem hw' hkv
        rw [Dict.get?_set] at this
        split at this
        · rename_i e; injection this with this; subst e; exact this.symm
        · exact hd (k, v) (Dict.mem_of_get? this))
      refine ⟨h1, fun a => ?_, h3⟩
      rw [List.foldl_cons, h2, Dict.mem_keys_set]
      simp only [List.mem_cons]
      tauto
  obtain ⟨h1, h2, h3⟩ := this [] Dict.WF_nil (by simp)
  exact ⟨h1, fun a => by rw [recordGenders, h2]; simp [Dict.keys], h3⟩

open Classical in
theorem count_eq (title : Str → Str) (mapping : Dict Str (Option Str)) (authors : List Str) (g : Str) :
    ((recordGenders title mapping authors).map Prod.snd).count (some (some g)) =
      (authors.toFinset.filter (fun s => IsGender title mapping s (some g))).card := by
  obtain ⟨h1, h2, h3⟩ := recordGenders_get title mapping authors
  set d := recordGenders title mapping authors
  have e1 : (d.map Prod.snd).count (some (some g)) = (d.keys.filter (fun s => decide (IsGender title mapping s (some g)))).length := by
    unfold Dict.keys
    rw [List.count_eq_countP, List.countP_map, List.filter_map, List.length_map, List.countP_eq_length_filter]
    congr 1
    apply List.filter_congr
    intro kv hkv
    rw [Bool.eq_iff_iff]
    simp only [Function.comp, beq_iff_eq, decide_eq_true_eq]
    rw [h3 kv hkv, isGender_iff]
  rw [e1]
  have e2 : (d.keys.filter (fun s => decide (IsGender title mapping s (some g)))).Nodup := List.Nodup.filter _ h1
  rw [← List.toFinset_card_of_nodup e2]
  congr 1
  ext s
  simp only [List.mem_toFinset, List.mem_filter, Finset.mem_filter, decide_eq_true_eq, h2]

theorem totals_eq (title : Str → Str) (mapping : Dict Str (Option Str)) (recs : List (List Str)) :
    totals title mapping recs = (numberOf title mapping recs male, numberOf title mapping recs female, numberOf title mapping recs unknown) := by
  have : ∀ acc : Nat × Nat × Nat, recs.foldl (fun acc authors =>
      match authCounts title mapping authors with
      | [m, f, u] => (acc.1 + m, acc.2.1 + f, acc.2.2 + u)
      | _ => acc) acc = (acc.1 + numberOf title mapping recs male, acc.2.1 + numberOf title mapping recs female, acc.2.2 + numberOf title mapping recs unknown) := by
    induction recs with
    | nil => intro acc; simp [numberOf]
    | cons a recs ih =>
      intro acc
      rw [List.foldl_cons, ih]
      simp only [authCounts, List.map_cons, List.map_nil, numberOf, List.sum_cons, count_eq]
      refine Prod.ext ?_ (Prod.ext ?_ ?_) <;> (simp only; omega)
  have h0 := this (0, 0, 0)
  simp only [Nat.zero_add] at h0
  exact h0

/-! ## C53 -/

/-- **C53**. `genderStats` gives the number of different names of each gender, counted for each record. -/
theorem C53_counts (title : Str → Str) (mapping : Dict Str (Option Str)) (recs : List (List Str)) :
    genderStats title mapping recs = (numberOf title mapping recs "Male".toList, numberOf title mapping recs "Female".toList, numberOf title mapping recs "Unknown".toList) :=
  totals_eq title mapping recs

/-- **C53**. Every name has one gender in the list of names, so it is counted under at most one heading, and under exactly one when the list has no other values. -/
theorem C53_one (title : Str → Str) (mapping : Dict Str (Option Str)) (s : Str) :
    (∃! g, IsGender title mapping s g) ∧
    ((∀ k v, mapping.get? k = some v → v ∈ [some "Male".toList, some "Female".toList, some "Unknown".toList]) →
      ∃! g, g ∈ ["Male".toList, "Female".toList, "Unknown".toList] ∧ IsGender title mapping s (some g)) := by
  have hex : ∃ g, nameGender title mapping true s = some g ∧
      (g = some "Unknown".toList ∨ ∃ k, mapping.get? k = some g) := by
    unfold nameGender
    cases (Str.split ", ".toList s)[1]? with
    | none => exact ⟨_, rfl, Or.inl rfl⟩
    | some p =>
      dsimp only
      rw [split_space_head]
      dsimp only
      cases hm : mapping.get? (title (p.takeWhile (· ≠ ' '))) with
      | none => exact ⟨_, rfl, Or.inl rfl⟩
      | some v => exact ⟨v, rfl, Or.inr ⟨_, hm⟩⟩
  obtain ⟨g, hg, hcase⟩ := hex
  refine ⟨⟨g, (isGender_iff _ _ _ _).2 hg, fun g' hg' => ?_⟩, fun hv => ?_⟩
  · have := (isGender_iff _ _ _ _).1 hg'
    rw [hg] at this; injection this with this; exact this.symm
  · have hmem : g ∈ [some "Male".toList, some "Female".toList, some "Unknown".toList] := by
      rcases hcase with rfl | ⟨k, hk⟩
      · simp
      · exact hv k g hk
    obtain ⟨x, rfl, hx⟩ : ∃ x, g = some x ∧ x ∈ ["Male".toList, "Female".toList, "Unknown".toList] := by
      simp only [List.mem_cons, List.not_mem_nil, or_false] at hmem
      rcases hmem with h | h | h
      · exact ⟨_, h, by simp⟩
      · exact ⟨_, h, by simp⟩
      · exact ⟨_, h, by simp⟩
    refine ⟨x, ⟨hx, (isGender_iff _ _ _ _).2 hg⟩, ?_⟩
    rintro y ⟨_, hy⟩
    have := (isGender_iff _ _ _ _).1 hy
    rw [hg] at this
    injection this with this
    injection this with this
    exact this.symm

open Classical in
theorem card_split (title : Str → Str) (mapping : Dict Str (Option Str)) (A : Finset Str)
    (hv : ∀ k v, mapping.get? k = some v → v ∈ [some "Male".toList, some "Female".toList, some "Unknown".toList]) :
    (A.filter (fun s => IsGender title mapping s (some male))).card + (A.filter (fun s => IsGender title mapping s (some female))).card +
      (A.filter (fun s => IsGender title mapping s (some unknown))).card = A.card := by
  induction A using Finset.induction_on with
  | empty => simp
  | insert a A ha ih =>
    obtain ⟨g, ⟨hg, hgi⟩, hu⟩ := (C53_one title mapping a).2 hv
    rw [Finset.filter_insert, Finset.filter_insert, Finset.filter_insert, Finset.card_insert_of_notMem ha]
    have hc : ∀ x : Str, x ∈ ["Male".toList, "Female".toList, "Unknown".toList] → (IsGender title mapping a (some x) ↔ x = g) := by
      intro x hx
      constructor
      · intro h; exact hu x ⟨hx, h⟩
      · rintro rfl; exact hgi
    have hm := hc male (by simp [male])
    have hf := hc female (by simp [female])
    have hn := hc unknown (by simp [unknown])
    have n1 : male ≠ female := by decide
    have n2 : male ≠ unknown := by decide
    have n3 : female ≠ unknown := by decide
    have hnot : ∀ p : Str → Prop, a ∉ A.filter p := by
      intro p h; exact ha (Finset.mem_filter.1 h).1
    simp only [List.mem_cons, List.not_mem_nil, or_false] at hg
    rcases hg with e | e | e
    · have e : g = male := e
      subst e
      rw [if_pos (hm.2 rfl), if_neg (fun h => n1 (hf.1 h).symm), if_neg (fun h => n2 (hn.1 h).symm), Finset.card_insert_of_notMem (hnot _)]
      omega
    · have e : g = female := e
      subst e
      rw [if_neg (fun h => n1 (hm.1 h)), if_pos (hf.2 rfl), if_neg (fun h => n3 (hn.1 h).symm), Finset.card_insert_of_notMem (hnot _)]
      omega
    · have e : g = unknown := e
      subst e
      rw [if_neg (fun h => n2 (hm.1 h)), if_neg (fun h => n3 (hf.1 h)), if_pos (hn.2 rfl), Finset.card_insert_of_notMem (hnot _)]
      omega

/-- **C53**, the total: when the list of names has no other values, the three counts add up to the number of different names, counted for each record. -/
theorem C53_total (title : Str → Str) (mapping : Dict Str (Option Str)) (recs : List (List Str))
    (hv : ∀ k v, mapping.get? k = some v → v ∈ [some "Male".toList, some "Female".toList, some "Unknown".toList]) :
    (genderStats title mapping recs).1 + (genderStats title mapping recs).2.1 + (genderStats title mapping recs).2.2 = numberOfNames recs := by
  rw [C53_counts]
  simp only
  have h : ∀ a : List Str, _ := fun a => card_split title mapping a.toFinset hv
  unfold numberOf numberOfNames
  induction recs with
  | nil => rfl
  | cons a recs ih =>
    simp only [List.map_cons, List.sum_cons]
    rw [← ih, ← h a]
    unfold male female unknown
    omega

/-- **C53** as stated, when the list of names has no other values and no record lists a name twice: the counts add up to the number of authors. -/
theorem C53_authors_partial (title : Str → Str) (mapping : Dict Str (Option Str)) (recs : List (List Str))
    (hv : ∀ k v, mapping.get? k = some v → v ∈ [some "Male".toList, some "Female".toList, some "Unknown".toList]) (hn : ∀ a ∈ recs, a.Nodup) :
    (genderStats title mapping recs).1 + (genderStats title mapping recs).2.1 + (genderStats title mapping recs).2.2 = (recs.map List.length).sum := by
  rw [C53_total title mapping recs hv]
  unfold numberOfNames
  congr 1
  apply List.map_congr_left
  intro a ha
  exact List.toFinset_card_of_nodup (hn a ha)

/-- **C53**, fractions: `ZeroDivisionError` exactly when no name was counted, otherwise the counts divided by their sum, which add up to 1. -/
theorem C53_fractions (title : Str → Str) (mapping : Dict Str (Option Str)) (recs : List (List Str)) :
    (genderFractions title mapping recs = none ↔
      (genderStats title mapping recs).1 + (genderStats title mapping recs).2.1 + (genderStats title mapping recs).2.2 = 0) ∧
    ∀ m f u, genderFractions title mapping recs = some (m, f, u) → m + f + u = 1 ∧
      m * ((genderStats title mapping recs).1 + (genderStats title mapping recs).2.1 + (genderStats title mapping recs).2.2 : Nat) = (genderStats title mapping recs).1 ∧
      f * ((genderStats title mapping recs).1 + (genderStats title mapping recs).2.1 + (genderStats title mapping recs).2.2 : Nat) = (genderStats title mapping recs).2.1 := by
  unfold genderFractions genderStats
  obtain ⟨a, b, c⟩ := totals title mapping recs
  simp only
  by_cases h : a + b + c = 0
  · simp [h]
  · refine ⟨by rw [if_neg h]; simp only [reduceCtorEq, h], fun m f u hh => ?_⟩
    rw [if_neg h] at hh
    simp only [Option.some.injEq, Prod.mk.injEq] at hh
    obtain ⟨rfl, rfl, rfl⟩ := hh
    have h0 : ((a + b + c : Nat) : Rat) ≠ 0 := by exact_mod_cast h
    refine ⟨?_, ?_, ?_⟩
    · field_simp
      push_cast
      ring
    · field_simp
    · field_simp

/-- **C53**, one record: the three fractions come in the order of the counts. -/
theorem C53_record_fractions (title : Str → Str) (mapping : Dict Str (Option Str)) (authors : List Str) (l : List Rat) (h : authFractions title mapping authors = some l) :
    ∃ m f u : Nat, authCounts title mapping authors = [m, f, u] ∧ m + f + u ≠ 0 ∧
      l = [(m : Rat) / (m + f + u : Nat), (f : Rat) / (m + f + u : Nat), (u : Rat) / (m + f + u : Nat)] := by
  unfold authFractions at h
  obtain ⟨m, f, u, hc⟩ : ∃ m f u, authCounts title mapping authors = [m, f, u] := ⟨_, _, _, rfl⟩
  rw [hc] at h
  simp only [List.map_cons, List.map_nil, List.sum_cons, List.sum_nil, add_zero] at h
  split at h
  · cases h
  · rename_i h0
    injection h with h
    refine ⟨m, f, u, hc, ?_, ?_⟩
    · intro hz
      apply h0
      have : ((m + f + u : Nat) : Rat) = 0 := by rw [hz]; rfl
      push_cast at this
      rw [← this]; ring
    · rw [← h]
      push_cast
      simp only [List.cons_append, List.nil_append, add_assoc]

/-! ## Where the code disagrees -/

/-- A small list of names. -/
def exMap : Dict Str (Option Str) := [("Ann".toList, some "Female".toList), ("Bob".toList, some "Male".toList), ("Kim".toList, some "NA".toList)]

/-- A name that stands twice in a record is counted once. -/
theorem C53_repeated_name : genderStats id exMap [["Li, Ann".toList, "Li, Ann".toList]] = (0, 1, 0) := by decide +kernel

/-- A name whose entry is neither `Male`, `Female` nor `Unknown` is not counted at all. -/
theorem C53_other_value : genderStats id exMap [["Li, Kim".toList, "Li, Bob".toList]] = (1, 0, 0) := by decide +kernel

/-- C53: the list of names gives each name, in its normal spelling, the gender of the last row that has it. -/
theorem C53_list (title : Str → Str) (rows : List (Str × Option Str)) (name : Str) :
    Dict.get? (getMapping title rows) name = (rows.reverse.find? (fun row => decide (title row.1 = name))).map Prod.snd := by
  unfold getMapping
  suffices h : ∀ d : Dict Str (Option Str), Dict.get? (rows.foldl (fun d row => d.set (title row.1) row.2) d) name
      = ((rows.reverse.find? (fun row => decide (title row.1 = name))).map Prod.snd).or (Dict.get? d name) by
    have := h []
    simpa [Dict.get?] using this
  intro d
  induction rows generalizing d with
  | nil => rfl
  | cons row rows ih =>
    rw [List.foldl_cons, ih, List.reverse_cons, List.find?_append, Dict.get?_set]
    cases List.find? (fun row => decide (title row.1 = name)) rows.reverse with
    | some x => rfl
    | none => by_cases h : title row.1 = name <;> simp [h]

example : Dict.get? (getMapping (fun s => s.map Char.toUpper) [("Ann".toList, some female), ("Bob".toList, some male), ("ANN".toList, some unknown)]) "ANN".toList
    = some (some unknown) := by decide +kernel

/-! ## The hypotheses can be met -/

example : genderStats id exMap [["Li, Ann".toList, "Roe, Bob".toList, "Plato".toList], ["Li, Ann M.".toList]] = (1, 2, 1) := by decide +kernel
example : (∀ k v, Dict.get? (exMap.take 2) k = some v → v ∈ [some "Male".toList, some "Female".toList, some "Unknown".toList]) := by
  intro k v h
  have := Dict.mem_of_get? h
  simp only [exMap, List.take_succ_cons, List.take_zero, List.mem_cons, Prod.mk.injEq, List.not_mem_nil, or_false] at this
  rcases this with ⟨_, rfl⟩ | ⟨_, rfl⟩ <;> simp
example : FirstName "Li, Ann M.".toList "Ann".toList := by
  rw [firstName_iff]; exact ⟨"Ann M.".toList, by decide +kernel, by decide +kernel⟩

end Verif.Props.Gender
