import Verif.Lemmas.MedlineOwned
import Verif.Props.MedlineSaved

/-! # C114: addresses and identifiers of authors are kept by saving where no author is listed twice -/
set_option autoImplicit false
set_option linter.unusedSimpArgs false
namespace Verif.Props.MedlineOwned
open Verif.Py Verif.Model.MedlinePipeline Verif.Spec.MedlinePipeline Verif.Spec Verif.Lemmas.MedlinePipeline Verif.Lemmas.MedlineSaved Verif.Lemmas.MedlineOwned
  Verif.Props.MedlinePipeline Verif.Props.MedlineSaved

section
variable {W : World} {order order' : List Model.Medline.Rec → List Model.Medline.Rec} {papers : List Paper}

/-- **C108, addresses and identifiers.** What a record holds under `AD` and `AUID`: the values that stand in the file, in their order, each behind the author that was
listed last before it, or behind `None`. -/
theorem C108_addresses (h : Setting W order) (hf : FileOk W.alpha papers) : ∃ (rs : List Model.Medline.Rec) (qs : List Paper),
    records W order (fileText papers) = some rs ∧ qs.Perm papers ∧
    List.Forall₂ (fun r p => r.id = some ("PMID:".toList ++ (valuesOf p "PMID").headD []) ∧ ∀ tag ∈ ["AD", "AUID"],
      (Dict.get? r.fields tag.toList).getD [] = (owned tag none p).map (fun x => x.1.getD "None".toList ++ " : ".toList ++ x.2)) rs qs := by
  obtain ⟨qs, h1, h2⟩ := ScopusPipeline.preimage (h.perm (papers.map toRec))
  refine ⟨qs.map toRec, qs, by rw [records_eq W order h.classes hf, h2], h1, ?_⟩
  have hq : ∀ q ∈ qs, PaperOk W.alpha q := fun q hq => hf.each q (h1.mem_iff.1 hq)
  clear h1 h2
  induction qs with
  | nil => exact .nil
  | cons q qs ih =>
    exact .cons ⟨rfl, fun tag ht => vals_owned (hq q (by simp)) tag ht⟩ (ih (fun x hx => hq x (by simp [hx])))

theorem both_trans {ps qs rs : List Paper} (h1 : List.Forall₂ (fun p q => SameValues p q ∧ SameOwned p q) ps qs)
    (h2 : List.Forall₂ (fun p q => SameValues p q ∧ SameOwned p q) qs rs) : List.Forall₂ (fun p q => SameValues p q ∧ SameOwned p q) ps rs := by
  induction h1 generalizing rs with
  | nil => exact h2
  | cons e _ ih =>
    cases h2 with
    | cons e' h2 => exact .cons ⟨fun t ht => (e.1 t ht).trans (e'.1 t ht), fun t ht => (e.2 t ht).trans (e'.2 t ht)⟩ (ih h2)

theorem both_map {qs : List Paper} (hq : ∀ q ∈ qs, PaperOk W.alpha q ∧ Attributed q) :
    List.Forall₂ (fun p q => SameValues p q ∧ SameOwned p q) (qs.map regroup) qs := by
  induction qs with
  | nil => exact .nil
  | cons q qs ih =>
    obtain ⟨h1, h2⟩ := hq q (by simp)
    exact .cons ⟨same_values q, regroup_owned h1 h2⟩ (ih (fun x hx => hq x (by simp [hx])))

/-- **C114, addresses kept.** Where each paper names no author twice and lists addresses and identifiers only behind an author, reading and writing the file any number of
times, whatever the orders of the sets, gives a file of papers with the same values under every tag, addresses and identifiers of the same authors included. -/
theorem C114_addresses_kept (hc : Spec.Medline.Classes W.ws W.alpha) (hf : FileOk W.alpha papers) (hpl : ∀ p ∈ papers, Plain p) (ha : ∀ p ∈ papers, Attributed p)
    (orders : List (List Model.Medline.Rec → List Model.Medline.Rec)) (ho : Pipeline.Orders orders) :
    ∃ papers' qs : List Paper, qs.Perm papers ∧ List.Forall₂ (fun p q => SameValues p q ∧ SameOwned p q) papers' qs ∧
      resaved W orders (fileText papers) = some (fileText papers') ∧ FileOk W.alpha papers' ∧ ∀ p ∈ papers', Plain p ∧ Attributed p := by
  induction orders generalizing papers with
  | nil =>
    refine ⟨papers, papers, .refl _, ?_, rfl, hf, fun p hp => ⟨hpl p hp, ha p hp⟩⟩
    clear hf hpl ha
    induction papers with
    | nil => exact .nil
    | cons p ps ih => exact .cons ⟨fun _ _ => rfl, fun _ _ => rfl⟩ ih
  | cons o os ih =>
    obtain ⟨qs, h1, h3⟩ := rewritten_regroup (order := o) ⟨hc, ho o (by simp)⟩ hf
    have hq : ∀ q ∈ qs, PaperOk W.alpha q ∧ Attributed q := fun q hq => ⟨hf.each q (h1.mem_iff.1 hq), ha q (h1.mem_iff.1 hq)⟩
    obtain ⟨ps', qs', i1, i2, i3, i4, i5⟩ := ih (regroup_file hf h1 hpl) (by
      intro q hq'
      obtain ⟨p, hp, rfl⟩ := List.mem_map.1 hq'
      exact regroup_plain (hpl p (h1.mem_iff.1 hp))) (by
      intro q hq'
      obtain ⟨p, hp, rfl⟩ := List.mem_map.1 hq'
      exact regroup_attributed (hq p hp).1 (hq p hp).2) (fun q hq => ho q (by simp [hq]))
    obtain ⟨w, w1, w2⟩ := List.perm_comp_forall₂ i1 (both_map hq)
    exact ⟨ps', w, w2.trans h1, both_trans i2 w1, by rw [resaved, h3, Option.bind_some, i3], i4, i5⟩

theorem same_fields {p q : Paper} (hp : PaperOk W.alpha p) (hq : PaperOk W.alpha q) (hv : SameValues p q) (ho : SameOwned p q) :
    Spec.Medline.Same (fieldsOf p) (fieldsOf q) := by
  refine Lemmas.Medline.same_of_vals _ _ (Lemmas.Medline.foldl_ne _ _ (by intro t; simp [Dict.get?])) (Lemmas.Medline.foldl_ne _ _ (by intro t; simp [Dict.get?])) ?_
  intro t
  rw [← String.toList_ofList (l := t)]
  generalize String.ofList t = tag
  by_cases ht : tag ∈ ["AD", "AUID"]
  · exact (vals_owned hp tag ht).trans (by rw [ho tag ht]; exact (vals_owned hq tag ht).symm)
  · have hta : tag.toList ∉ Spec.Medline.attachedTags := by
      intro hm
      have hm : tag.toList ∈ ["AD", "AUID"].map String.toList := hm
      obtain ⟨s, hs, e⟩ := List.mem_map.1 hm
      rw [String.toList_inj] at e
      exact ht (e ▸ hs)
    unfold Lemmas.Medline.vals
    have e1 := get?_values p tag hta
    rw [hv tag ht, ← get?_values q tag hta] at e1
    exact congrArg (·.getD []) e1

/-- **C114, records kept.** There, the collection made from what was saved holds the records of the one made from the file: the same numbers, and the same values under
every tag. -/
theorem C114_records_kept (h : Setting W order) (ho' : ∀ rs, (order' rs).Perm rs) (hf : FileOk W.alpha papers) (hpl : ∀ p ∈ papers, Plain p)
    (ha : ∀ p ∈ papers, Attributed p) (orders : List (List Model.Medline.Rec → List Model.Medline.Rec)) (ho : Pipeline.Orders orders) :
    ∃ (text : Str) (rs rs' ss : List Model.Medline.Rec), resaved W orders (fileText papers) = some text ∧ records W order (fileText papers) = some rs ∧
      records W order' text = some rs' ∧ ss.Perm rs ∧
      List.Forall₂ (fun r' r => r'.id = r.id ∧ r'.bad = r.bad ∧ ∀ t, Dict.get? r'.fields t = Dict.get? r.fields t) rs' ss := by
  obtain ⟨ps, qs, h1, h2, h3, h4, h5⟩ := C114_addresses_kept h.classes hf hpl ha orders ho
  have hq : ∀ q ∈ qs, PaperOk W.alpha q := fun q hq => hf.each q (h1.mem_iff.1 hq)
  have hp := h4.each
  have hr : List.Forall₂ (fun r' r => r'.id = r.id ∧ r'.bad = r.bad ∧ ∀ t, Dict.get? r'.fields t = Dict.get? r.fields t) (ps.map toRec) (qs.map toRec) := by
    clear h1 h3 h4 h5
    induction h2 with
    | nil => exact .nil
    | @cons p q ps qs e _ ih =>
      refine .cons ⟨?_, rfl, same_fields (hp p (by simp)) (hq q (by simp)) e.1 e.2⟩ (ih (fun x hx => hq x (by simp [hx])) (fun x hx => hp x (by simp [hx])))
      show some _ = some _
      rw [e.1 "PMID" (by decide)]
  obtain ⟨ss, s1, s2⟩ := List.perm_comp_forall₂ (ho' (ps.map toRec)) hr
  exact ⟨_, _, _, ss, h3, records_eq W order h.classes hf, records_eq W order' h.classes h4,
    s2.trans ((h1.map toRec).trans (h.perm _).symm), s1⟩

end

/-! ## The theorems at work -/

private theorem orders_ok : Pipeline.Orders (ρ := Model.Medline.Rec) [List.reverse, id] := by
  intro o ho rs
  simp only [List.mem_cons, List.not_mem_nil, or_false] at ho
  rcases ho with rfl | rfl
  · exact List.reverse_perm rs
  · exact .refl _

private theorem file_plain : ∀ p ∈ file, Plain p := by
  have : ∀ p ∈ file, ∀ e ∈ p, ∀ l ∈ e.2, Str.contains "VR 1.0".toList l = false := by decide +kernel
  intro p hp e he l hl hi
  have h1 := this p hp e he l hl
  rw [(Str.contains_iff _ _).2 hi] at h1
  cases h1

private theorem file_attributed : ∀ p ∈ file, Attributed p := by
  have h1 : ∀ p ∈ file, (valuesOf p "AU").Nodup := by decide +kernel
  have h2 : ∀ p ∈ file, ∀ a ∈ valuesOf p "AU", '\n' ∉ a ∧ Str.contains " : ".toList (a ++ " :".toList) = false := by decide +kernel
  have h3 : ∀ p ∈ file, ∀ tag ∈ ["AD", "AUID"], ∀ x ∈ owned tag none p, x.1 ≠ none := by decide +kernel
  intro p hp
  refine ⟨h1 p hp, fun a ha => ⟨(h2 p hp a ha).1, fun hi => ?_⟩, h3 p hp⟩
  have h := (h2 p hp a ha).2
  rw [(Str.contains_iff _ _).2 hi] at h
  cases h

example : owned "AD" none (file.headD []) = [(some "Ada A".toList, "Here: and there".toList)] := by decide +kernel
example := C108_addresses setting file_ok
example := C114_addresses_kept setting.classes file_ok file_plain file_attributed _ orders_ok
example := C114_records_kept (order' := id) setting (fun _ => .refl _) file_ok file_plain file_attributed _ orders_ok

end Verif.Props.MedlineOwned
