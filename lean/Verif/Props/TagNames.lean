import Verif.Model.TagNames
import Verif.Spec.TagTable

/-! # C47: names of tags -/
set_option autoImplicit false
set_option linter.unusedSectionVars false
set_option linter.unusedSimpArgs false
set_option maxRecDepth 100000
namespace Verif.Props
open Verif.Py Verif.Model.TagNames Verif.Spec.TagTable

/-- Upper case of the ASCII letters. -/
def asciiUp (s : Str) : Str := s.map Char.toUpper

/-- What is assumed of `str.upper`: it does the usual thing on the tags and names of the table. -/
def UpperOk (upper : Str → Str) : Prop := ∀ t n, Wos t n → upper t = asciiUp t ∧ upper n = asciiUp n

/-- The table of the program is the documented one. -/
theorem mem_wos (t n : Str) : (t, n) ∈ wosTags ↔ Wos t n := by
  have h : wosTags = wos.map (fun p => (p.1.toList, p.2.toList)) := by decide +kernel
  rw [h, Wos]

theorem mem_medline (t n : Str) : (n, t) ∈ medlineTags ↔ Medline t n := by
  have h : medlineTags = medline.map (fun p => (p.2.toList, p.1.toList)) := by decide +kernel
  rw [h, Medline, List.mem_map, List.mem_map]
  simp only [Prod.mk.injEq, and_comm]

/-- The converter with the usual upper case. -/
theorem names_eq : tagsAndNames = wosTags.map Prod.fst ++ wosTags.map Prod.snd := by decide +kernel

theorem up_eq : fullToTagUpper asciiUp = wosTags.map (fun p => (asciiUp p.2, p.1)) := by decide +kernel
theorem wf_up : (fullToTagUpper asciiUp).WF := by unfold Dict.WF; decide +kernel
theorem wf_tags : Dict.WF wosTags := by unfold Dict.WF; decide +kernel
theorem up_tags : ∀ p ∈ wosTags, asciiUp p.1 = p.1 := by decide +kernel
theorem rev_eq : fullToTag = wosTags.map (fun p => (p.2, p.1)) := by decide +kernel

theorem fullToTagUpper_ok (upper : Str → Str) (h : UpperOk upper) : fullToTagUpper upper = fullToTagUpper asciiUp := by
  unfold fullToTagUpper
  rw [rev_eq]
  have : ∀ (l : List (Str × Str)) (acc : Dict Str Str), (∀ p ∈ l, upper p.2 = asciiUp p.2) →
      (l.map (fun p => (p.2, p.1))).foldl (fun r p => Dict.set r (upper p.1) p.2) acc =
      (l.map (fun p => (p.2, p.1))).foldl (fun r p => Dict.set r (asciiUp p.1) p.2) acc := by
    intro l
    induction l with
    | nil => intro acc _; rfl
    | cons p l ih =>
      intro acc hl
      simp only [List.map_cons, List.foldl_cons]
      rw [hl p (by simp)]
      exact ih _ (fun q hq => hl q (by simp [hq]))
  exact this wosTags [] (fun p hp => (h p.1 p.2 ((mem_wos _ _).1 hp)).2)

/-- **C47.** `normalizeToTag` gives the tag whose upper case, or the upper case of whose name, is the upper case of the argument. -/
theorem C47_normalizeToTag (upper : Str → Str) (h : UpperOk upper) (val t : Str) :
    normalizeToTag upper val = some t ↔ ∃ name, Wos t name ∧ (upper val = t ∨ upper val = asciiUp name) := by
  simp only [← mem_wos]
  unfold normalizeToTag
  simp only []
  have hmem : ∀ v, v ∈ tagsAndNames.map upper ↔ ∃ p ∈ wosTags, v = p.1 ∨ v = asciiUp p.2 := by
    intro v
    rw [names_eq, List.map_append, List.mem_append]
    simp only [List.mem_map, List.mem_map]
    constructor
    · rintro (⟨x, ⟨p, hp, rfl⟩, rfl⟩ | ⟨x, ⟨p, hp, rfl⟩, rfl⟩)
      · exact ⟨p, hp, Or.inl (by rw [(h p.1 p.2 ((mem_wos _ _).1 hp)).1, up_tags p hp])⟩
      · exact ⟨p, hp, Or.inr (h p.1 p.2 ((mem_wos _ _).1 hp)).2⟩
    · rintro ⟨p, hp, rfl | rfl⟩
      · exact Or.inl ⟨p.1, ⟨p, hp, rfl⟩, by rw [(h p.1 p.2 ((mem_wos _ _).1 hp)).1, up_tags p hp]⟩
      · exact Or.inr ⟨p.2, ⟨p, hp, rfl⟩, (h p.1 p.2 ((mem_wos _ _).1 hp)).2⟩
  rw [fullToTagUpper_ok upper h]
  have hget : ∀ v t, (fullToTagUpper asciiUp).get? v = some t ↔ ∃ p ∈ wosTags, v = asciiUp p.2 ∧ t = p.1 := by
    intro v t
    rw [Dict.get?_eq_some_iff wf_up, up_eq, List.mem_map]
    constructor
    · rintro ⟨p, hp, he⟩; simp only [Prod.mk.injEq] at he; exact ⟨p, hp, he.1.symm, he.2.symm⟩
    · rintro ⟨p, hp, rfl, rfl⟩; exact ⟨p, hp, rfl⟩
  have hj : ∀ p ∈ wosTags, ∀ q ∈ wosTags, p.1 = asciiUp q.2 → p.1 = q.1 := by decide +kernel
  generalize upper val = v
  by_cases hv : v ∈ tagsAndNames.map upper
  · rw [if_pos hv]
    cases hg : (fullToTagUpper asciiUp).get? v with
    | some t' =>
      simp only [Option.some.injEq]
      obtain ⟨p, hp, h1, h2⟩ := (hget v t').1 hg
      constructor
      · rintro rfl; exact ⟨p.2, by rw [h2]; exact hp, Or.inr h1⟩
      · rintro ⟨name, hm, h3 | h3⟩
        · rw [h2]; subst h3; exact (hj _ hm p hp h1).symm
        · have := (hget v t).2 ⟨(t, name), hm, h3, rfl⟩
          rw [hg] at this; simpa using this
    | none =>
      simp only [Option.some.injEq]
      have hnone : ∀ p ∈ wosTags, v ≠ asciiUp p.2 := by
        intro p hp he
        rw [(hget v p.1).2 ⟨p, hp, he, rfl⟩] at hg; cases hg
      obtain ⟨p, hp, h1 | h1⟩ := (hmem v).1 hv
      · constructor
        · rintro rfl; exact ⟨p.2, by rw [h1]; exact hp, Or.inl rfl⟩
        · rintro ⟨name, hm, h3 | h3⟩
          · exact h3
          · exact absurd h3 (hnone _ hm)
      · exact absurd h1 (hnone p hp)
  · rw [if_neg hv]
    constructor
    · intro h; cases h
    · rintro ⟨name, hm, h3⟩
      exact absurd ((hmem v).2 ⟨_, hm, h3⟩) hv

/-- **C47.** `normalizeToName` gives the name of the tag or name given, letter case included, and raises for every other string. -/
theorem C47_normalizeToName (val n : Str) :
    normalizeToName val = some n ↔ ∃ t, Wos t n ∧ (val = t ∨ val = n) := by
  simp only [← mem_wos]
  unfold normalizeToName
  have hmem : val ∈ tagsAndNames ↔ ∃ p ∈ wosTags, val = p.1 ∨ val = p.2 := by
    rw [names_eq, List.mem_append]
    simp only [List.mem_map]
    constructor
    · rintro (⟨p, hp, rfl⟩ | ⟨p, hp, rfl⟩)
      · exact ⟨p, hp, Or.inl rfl⟩
      · exact ⟨p, hp, Or.inr rfl⟩
    · rintro ⟨p, hp, rfl | rfl⟩
      · exact Or.inl ⟨p, hp, rfl⟩
      · exact Or.inr ⟨p, hp, rfl⟩
  have hne : ∀ p ∈ wosTags, ∀ q ∈ wosTags, p.1 ≠ q.2 := by decide +kernel
  by_cases hv : val ∈ tagsAndNames
  · rw [if_pos hv]
    cases hg : Dict.get? wosTags val with
    | some n' =>
      have hm := Dict.mem_of_get? hg
      simp only [Option.some.injEq]
      constructor
      · rintro rfl; exact ⟨val, hm, Or.inl rfl⟩
      · rintro ⟨t, hm', rfl | rfl⟩
        · have := Dict.get?_of_mem wf_tags hm'; rw [hg] at this; simpa using this
        · exact absurd rfl (hne _ hm _ hm')
    | none =>
      simp only [Option.some.injEq]
      obtain ⟨p, hp, rfl | rfl⟩ := hmem.1 hv
      · have := Dict.get?_of_mem wf_tags hp; rw [hg] at this; cases this
      · constructor
        · rintro rfl; exact ⟨p.1, hp, Or.inr rfl⟩
        · rintro ⟨t, hm', rfl | rfl⟩
          · have := Dict.get?_of_mem wf_tags hm'; rw [hg] at this; cases this
          · rfl
  · rw [if_neg hv]
    constructor
    · intro h; cases h
    · rintro ⟨t, hm, h3⟩; exact absurd (hmem.2 ⟨_, hm, h3⟩) hv

/-- **C47.** For every tag the two functions are inverse to each other, and neither changes what it returned. -/
theorem C47_inverse (upper : Str → Str) (h : UpperOk upper) (t n : Str) (htn : Wos t n) :
    normalizeToTag upper n = some t ∧ normalizeToName t = some n ∧ normalizeToTag upper t = some t ∧ normalizeToName n = some n := by
  refine ⟨(C47_normalizeToTag upper h n t).2 ⟨n, htn, Or.inr (h _ _ htn).2⟩, (C47_normalizeToName t n).2 ⟨t, htn, Or.inl rfl⟩,
    (C47_normalizeToTag upper h t t).2 ⟨n, htn, Or.inl ?_⟩, (C47_normalizeToName n n).2 ⟨t, htn, Or.inr rfl⟩⟩
  rw [(h _ _ htn).1]; exact up_tags _ ((mem_wos _ _).2 htn)

/-- **C47.** Both are idempotent. -/
theorem C47_idempotent (upper : Str → Str) (h : UpperOk upper) (val r : Str) :
    (normalizeToTag upper val = some r → normalizeToTag upper r = some r) ∧ (normalizeToName val = some r → normalizeToName r = some r) := by
  constructor
  · intro hv
    obtain ⟨n, hm, _⟩ := (C47_normalizeToTag upper h val r).1 hv
    exact (C47_inverse upper h r n hm).2.2.1
  · intro hv
    obtain ⟨t, hm, _⟩ := (C47_normalizeToName val r).1 hv
    exact (C47_inverse upper h t r hm).2.2.2

/-- **C47.** The letter case of the argument of `normalizeToTag` does not matter. -/
theorem C47_case (upper : Str → Str) (a b : Str) (hab : upper a = upper b) : normalizeToTag upper a = normalizeToTag upper b := by
  unfold normalizeToTag; simp only [hab]

/-- **C47.** `tagToFull` gives the name of a tag, where `normalizeToName` does the same; anything else, also a name, is refused. It is refused with
`TypeError`, not `KeyError` as by the other functions. -/
theorem C47_tagToFull (tag n : Str) :
    (tagToFull tag = .ok n ↔ Wos tag n) ∧ (tagToFull tag = .ok n → normalizeToName tag = some n) ∧
    ((∀ m, ¬ Wos tag m) → tagToFull tag = .error .typeError) := by
  simp only [← mem_wos]
  have hw : wosTags.WF := by unfold Dict.WF; decide +kernel
  have h1 : tagToFull tag = .ok n ↔ (tag, n) ∈ wosTags := by
    unfold tagToFull
    constructor
    · intro h
      cases hg : Dict.get? wosTags tag with
      | none => rw [hg] at h; cases h
      | some m => rw [hg] at h; cases h; exact Dict.mem_of_get? hg
    · intro h
      rw [Dict.get?_of_mem hw h]
  refine ⟨h1, fun h => (C47_normalizeToName tag n).2 ⟨tag, (mem_wos _ _).1 (h1.1 h), Or.inl rfl⟩, fun h => ?_⟩
  unfold tagToFull
  cases hg : Dict.get? wosTags tag with
  | none => rfl
  | some m => exact absurd (Dict.mem_of_get? hg) (h m)

example : tagToFull "AU".toList = .ok "authorsShort".toList ∧ tagToFull "authorsShort".toList = .error .typeError := ⟨by rfl, by rfl⟩

/-- **C47.** `isTagOrName` is true exactly when `normalizeToName` does not raise; then `normalizeToTag` does not raise either. -/
theorem C47_isTagOrName (upper : Str → Str) (h : UpperOk upper) (val : Str) :
    (isTagOrName val = true ↔ (normalizeToName val).isSome) ∧ (isTagOrName val = true → (normalizeToTag upper val).isSome) := by
  have hx : isTagOrName val = true ↔ (normalizeToName val).isSome := by
    unfold isTagOrName normalizeToName
    simp only [decide_eq_true_eq]
    by_cases hv : val ∈ tagsAndNames
    · simp only [hv, if_true, true_iff]; cases Dict.get? wosTags val <;> rfl
    · simp [hv]
  refine ⟨hx, fun hv => ?_⟩
  obtain ⟨n, hn⟩ := Option.isSome_iff_exists.1 (hx.1 hv)
  obtain ⟨t, hm, rfl | rfl⟩ := (C47_normalizeToName val n).1 hn
  · rw [(C47_inverse upper h _ _ hm).2.2.1]; rfl
  · rw [(C47_inverse upper h _ _ hm).1]; rfl

/-- **C47.** The alternative names of WOS tags go both ways: the one of a tag is its name and the one of a name is its tag. -/
theorem C47_wos_alternatives (a b : Str) : wosAlt a = some b ↔ (Wos a b ∨ Wos b a) := by
  simp only [← mem_wos]
  have hw : wosConverter.WF := by unfold Dict.WF; decide +kernel
  have he : wosConverter = wosTags ++ wosTags.map (fun p => (p.2, p.1)) := by decide +kernel
  unfold wosAlt
  rw [Dict.get?_eq_some_iff hw, he, List.mem_append, List.mem_map]
  constructor
  · rintro (h | ⟨p, hp, h⟩)
    · exact Or.inl h
    · simp only [Prod.mk.injEq] at h; obtain ⟨rfl, rfl⟩ := h; exact Or.inr hp
  · rintro (h | h)
    · exact Or.inl h
    · exact Or.inr ⟨_, h, rfl⟩

/-- **C47.** The alternative names of Medline tags go both ways. -/
theorem C47_medline_alternatives (a b : Str) : medlineAlt a = some b ↔ (Medline a b ∨ Medline b a) := by
  rw [or_comm]
  simp only [← mem_medline]
  have hw : medlineConverter.WF := by unfold Dict.WF; decide +kernel
  have he : ∀ p, p ∈ medlineConverter ↔ p ∈ medlineTags ++ medlineTags.map (fun p => (p.2, p.1)) := by
    have h1 : ∀ p ∈ medlineConverter, p ∈ medlineTags ++ medlineTags.map (fun p => (p.2, p.1)) := by decide +kernel
    have h2 : ∀ p ∈ medlineTags ++ medlineTags.map (fun p => (p.2, p.1)), p ∈ medlineConverter := by decide +kernel
    exact fun p => ⟨h1 p, h2 p⟩
  unfold medlineAlt
  rw [Dict.get?_eq_some_iff hw, he, List.mem_append, List.mem_map]
  constructor
  · rintro (h | ⟨p, hp, h⟩)
    · exact Or.inl h
    · simp only [Prod.mk.injEq] at h; obtain ⟨rfl, rfl⟩ := h; exact Or.inr hp
  · rintro (h | h)
    · exact Or.inl h
    · exact Or.inr ⟨_, h, rfl⟩

/-- **C47, disagreement.** Upper case of a name is accepted by `normalizeToTag` but is not a tag or name for `isTagOrName`. -/
theorem C47_case_mismatch (upper : Str → Str) (h : UpperOk upper) (hu : upper ['T', 'I', 'T', 'L', 'E'] = ['T', 'I', 'T', 'L', 'E']) :
    normalizeToTag upper ['T', 'I', 'T', 'L', 'E'] = some ['T', 'I'] ∧ isTagOrName ['T', 'I', 'T', 'L', 'E'] = false := by
  refine ⟨(C47_normalizeToTag upper h _ _).2 ⟨['t', 'i', 't', 'l', 'e'], (mem_wos _ _).1 (by decide +kernel), Or.inr ?_⟩, by decide +kernel⟩
  rw [hu]; decide +kernel

/-- **C47, disagreement.** The Medline table gives a name to two tags; the later one wins and the other tag has no name. -/
theorem C47_medline_unnamed :
    medlineAlt ['E', 'D'] = none ∧ medlineAlt ['O', 'A', 'B'] = none ∧ (['E', 'd', 'i', 't', 'o', 'r'], ['E', 'D']) ∈ medlineLiteral ∧
      medlineAlt ['E', 'd', 'i', 't', 'o', 'r'] = some ['F', 'E', 'D'] := by decide +kernel

/-- `UpperOk` holds for the usual upper case. -/
example : UpperOk asciiUp ∧ normalizeToTag asciiUp ['t', 'I', 't', 'l', 'E'] = some ['T', 'I'] := by
  refine ⟨?_, by decide +kernel⟩
  intro t n _; exact ⟨rfl, rfl⟩

end Verif.Props
