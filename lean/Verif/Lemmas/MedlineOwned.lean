import Verif.Lemmas.MedlineSaved

/-! # Lemmas for C114: values that belong to an author -/
set_option autoImplicit false
set_option linter.unusedSimpArgs false
namespace Verif.Lemmas.MedlineOwned
open Verif.Py Verif.Model.Medline Verif.Model.MedlinePipeline Verif.Spec.MedlinePipeline Verif.Spec.Medline Verif.Lemmas.Medline Verif.Lemmas.MedlinePipeline
  Verif.Lemmas.MedlineSaved

/-- The values of a tag with the author before each. -/
def ownedI (t : Str) : Option Str → List (Str × Str) → List (Option Str × Str)
  | _, [] => []
  | m, i :: is => (if i.1 = t then [(m, i.2)] else []) ++ ownedI t (if i.1 = auTag then some (firstLine i.2) else m) is

theorem gather_ownedI (t : Str) (ht : t ∈ authorBasedTags) (m : Option Str) (is : List (Str × Str)) :
    gather t m is = (ownedI t m is).map (fun x => showAuthor x.1 ++ " : ".toList ++ x.2) := by
  induction is generalizing m with
  | nil => rfl
  | cons i is ih =>
    rw [gather, ownedI, List.map_append, ← ih]
    congr 1
    by_cases h : i.1 = t
    · have hne : i.1 ≠ auTag := fun e => auTag_not (e ▸ h ▸ ht)
      rw [if_pos h, if_pos h, if_pos ht, if_neg hne]
      rfl
    · rw [if_neg h, if_neg h]; rfl

theorem firstLine_lines (ls : List Str) (h : ls ≠ []) (hl : ∀ l ∈ ls, '\n' ∉ l) : some (firstLine ("\n".toList.intercalate ls)) = ls.head? := by
  unfold firstLine
  rw [← Verif.Props.WosFields.join_eq, show "\n".toList = ['\n'] from rfl, Str.split_join_char '\n' ls h hl]
  cases ls with
  | nil => exact absurd rfl h
  | cons a l => rfl

theorem owned_items (tag : String) (p : Paper) (h : ∀ e ∈ p, e.2 ≠ [] ∧ ∀ l ∈ e.2, '\n' ∉ l ∧ '\r' ∉ l) (m : Option Str) :
    owned tag m p = ownedI tag.toList m (items p) := by
  induction p generalizing m with
  | nil => rfl
  | cons e p ih =>
    have h0 := h e (by simp)
    rw [owned, ih (fun x hx => h x (by simp [hx]))]
    show _ = (if e.1 = tag.toList then [(m, "\n".toList.intercalate e.2)] else []) ++
      ownedI tag.toList (if e.1 = auTag then some (firstLine ("\n".toList.intercalate e.2)) else m) (items p)
    rw [firstLine_lines e.2 h0.1 (fun l hl => (h0.2 l hl).1)]
    rfl

theorem ownedI_some (t : Str) (a : Str) (is : List (Str × Str)) : ∀ x ∈ ownedI t (some a) is, x.1 ≠ none := by
  induction is generalizing a with
  | nil => simp [ownedI]
  | cons i is ih =>
    intro x hx
    rw [ownedI] at hx
    rcases List.mem_append.1 hx with hx | hx
    · split at hx
      · rw [List.mem_singleton] at hx; rw [hx]; simp
      · cases hx
    · split at hx
      · exact ih _ x hx
      · exact ih _ x hx

theorem behind_iff (t : Str) (ht : t ∈ authorBasedTags) (is : List (Str × Str)) : (∀ x ∈ ownedI t none is, x.1 ≠ none) ↔ headPart t is = [] := by
  induction is with
  | nil => simp [ownedI, headPart]
  | cons i is ih =>
    rw [ownedI, headPart]
    by_cases h : i.1 = auTag
    · rw [if_pos h, if_pos h, if_neg (fun e => auTag_not (by rw [← h, e]; exact ht)), List.nil_append]
      exact ⟨fun _ => rfl, fun _ => ownedI_some t _ is⟩
    · rw [if_neg h, if_neg h]
      by_cases h1 : i.1 = t
      · rw [if_pos h1, if_pos h1]
        constructor
        · intro hx
          exact absurd rfl (hx (none, i.2) (by simp))
        · intro hx
          cases hx
      · rw [if_neg h1, if_neg h1, List.nil_append, List.nil_append, ih]

theorem ownedI_names (t : Str) (m : Option Str) (is : List (Str × Str)) : ∀ x ∈ ownedI t m is, x.1 = m ∨ ∃ a ∈ firsts is, x.1 = some a := by
  induction is generalizing m with
  | nil => simp [ownedI]
  | cons i is ih =>
    intro x hx
    rw [ownedI] at hx
    rcases List.mem_append.1 hx with hx | hx
    · split at hx
      · rw [List.mem_singleton] at hx; left; rw [hx]
      · cases hx
    · by_cases h : i.1 = auTag
      · rw [if_pos h] at hx
        have hf : firsts (i :: is) = firstLine i.2 :: firsts is := by simp [firsts, h]
        rw [hf]
        right
        rcases ih _ x hx with h1 | ⟨a, ha, h1⟩
        · exact ⟨_, by simp, h1⟩
        · exact ⟨a, by simp [ha], h1⟩
      · rw [if_neg h] at hx
        have hf : firsts (i :: is) = firsts is := by simp [firsts, h]
        rw [hf]
        exact ih _ x hx

theorem headPart_append (t : Str) (is js : List (Str × Str)) (h1 : headPart t is = []) (h2 : headPart t js = []) : headPart t (is ++ js) = [] := by
  induction is with
  | nil => exact h2
  | cons i is ih =>
    rw [headPart] at h1
    rw [List.cons_append, headPart]
    split
    · rfl
    · rename_i h
      rw [if_neg h] at h1
      rw [List.append_eq_nil_iff] at h1
      rw [h1.1, ih h1.2]
      rfl

theorem headPart_flatMap {α : Type} (t : Str) (f : α → List (Str × Str)) (l : List α) (h : ∀ a ∈ l, headPart t (f a) = []) : headPart t (l.flatMap f) = [] := by
  induction l with
  | nil => rfl
  | cons a l ih =>
    rw [List.flatMap_cons]
    exact headPart_append t _ _ (h a (by simp)) (ih (fun b hb => h b (by simp [hb])))

theorem headPart_written (t : Str) (ht : t ∈ authorBasedTags) (own : Str → Str → List Str) (d : Fields) : headPart t (d.flatMap (fieldItems own)) = [] := by
  refine headPart_flatMap t _ d (fun f _ => ?_)
  unfold fieldItems
  split
  · rfl
  · rename_i h
    refine headPart_flatMap t _ f.2 (fun v _ => ?_)
    rw [headPart]
    split
    · rfl
    · rename_i h1
      rw [if_neg (fun e => h (by rw [show f.1 = t from e]; exact ht))]
      rfl

theorem inj (t : Str) (l l' : List (Option Str × Str)) (h : ∀ x ∈ l, ∃ a, x.1 = some a ∧ NameOk a) (h' : ∀ x ∈ l', ∃ a, x.1 = some a ∧ NameOk a)
    (e : l.map (fun x => showAuthor x.1 ++ " : ".toList ++ x.2) = l'.map (fun x => showAuthor x.1 ++ " : ".toList ++ x.2)) : l = l' := by
  induction l generalizing l' with
  | nil =>
    cases l' with
    | nil => rfl
    | cons y l' => cases e
  | cons x l ih =>
    cases l' with
    | nil => cases e
    | cons y l' =>
      rw [List.map_cons, List.map_cons] at e
      obtain ⟨e1, e2⟩ := List.cons.inj e
      rw [ih l' (fun z hz => h z (by simp [hz])) (fun z hz => h' z (by simp [hz])) e2]
      obtain ⟨a, ha, hna⟩ := h x (by simp)
      obtain ⟨b, hb, hnb⟩ := h' y (by simp)
      obtain ⟨x1, x2⟩ := x
      obtain ⟨y1, y2⟩ := y
      dsimp only at ha hb e1
      subst ha hb
      change a ++ " : ".toList ++ x2 = b ++ " : ".toList ++ y2 at e1
      have n := congrArg name e1
      have c := congrArg content e1
      rw [name_attached a x2 hna, name_attached b y2 hnb] at n
      rw [content_attached a x2 hna, content_attached b y2 hnb] at c
      rw [n, c]

theorem firsts_values (p : Paper) (h : ∀ a ∈ valuesOf p "AU", NameOk a) : firsts (items p) = valuesOf p "AU" := by
  rw [valuesOf_items] at h ⊢
  apply List.map_congr_left
  intro i hi
  exact firstLine_id i.2 (h i.2 (List.mem_map_of_mem hi)).1

theorem vals_gather (p : Paper) (t : Str) : vals (fieldsOf p) t = gather t none (items p) := by
  have := vals_foldl ⟨[], pmid, none⟩ (items p) t
  rw [show vals (⟨[], pmid, none⟩ : St).d t = [] from rfl, List.nil_append] at this
  exact this

theorem mem_pair {tag : String} (h : tag ∈ ["AD", "AUID"]) : tag.toList ∈ authorBasedTags := by
  have : tag.toList ∈ ["AD", "AUID"].map String.toList := List.mem_map_of_mem h
  exact this

theorem authors_vals (p : Paper) : vals (fieldsOf p) auTag = valuesOf p "AU" := by
  rw [vals_gather, gather_plain _ auTag_not, valuesOf_items]
  rfl

variable {alpha : Char → Bool}

theorem same_gather {p : Paper} (hp : PaperOk alpha p) (h : Attributed p) (tag : String) (ht : tag ∈ ["AD", "AUID"]) :
    gather tag.toList none (items (regroup p)) = gather tag.toList none (items p) := by
  have hta := mem_pair ht
  have hh : headPart tag.toList (items p) = [] := by
    rw [← behind_iff _ hta, ← owned_items tag p hp.lines]
    exact h.behind tag ht
  have hg := gather_groups tag.toList hta (items p) (by rw [firsts_values p h.names]; exact h.once) none
  rw [hh, List.map_nil, List.nil_append, firsts_values p h.names] at hg
  have hau : ∀ f ∈ fieldsOf p, f.1 = auTag → f.2 = valuesOf p "AU" := by
    intro f hf h1
    rw [← authors_vals, vals, Dict.get?_of_mem (wf p) (show (auTag, f.2) ∈ fieldsOf p from h1 ▸ hf)]
    rfl
  rw [items_regroup, gather_attached_items _ _ _ hta (by
    intro f hf h1 v hv
    rw [hau f hf h1] at hv
    exact (h.names v hv).1), hg]
  have e1 := flatMap_field (fieldsOf p) (wf p) auTag
  rw [authors_vals] at e1
  have e2 : (fieldsOf p).flatMap (fun f => if f.1 = auTag then f.2.flatMap (fun a => (own (fieldsOf p) tag.toList a).map (fun c => a ++ " : ".toList ++ c)) else [])
      = (valuesOf p "AU").flatMap (fun a => (own (fieldsOf p) tag.toList a).map (fun c => a ++ " : ".toList ++ c)) := by
    rw [← e1, List.flatMap_assoc]
    congr 1
    funext f
    split <;> rfl
  rw [e2, List.flatMap_def, List.flatMap_def]
  congr 1
  apply List.map_congr_left
  intro a ha
  unfold own
  rw [vals_gather, hg, filter_attached _ _ h.once h.names, if_pos ha]

theorem named {p : Paper} (hp : PaperOk alpha p) (h : Attributed p) (tag : String) (ht : tag ∈ ["AD", "AUID"]) :
    ∀ x ∈ owned tag none p, ∃ a, x.1 = some a ∧ NameOk a := by
  intro x hx
  have hn := h.behind tag ht x hx
  rw [owned_items tag p hp.lines] at hx
  rcases ownedI_names _ _ _ x hx with h1 | ⟨a, ha, h1⟩
  · exact absurd h1 hn
  · rw [firsts_values p h.names] at ha
    exact ⟨a, h1, h.names a ha⟩

theorem regroup_attributed {p : Paper} (hp : PaperOk alpha p) (h : Attributed p) : Attributed (regroup p) where
  once := by rw [same_values p "AU" (by decide)]; exact h.once
  names := by rw [same_values p "AU" (by decide)]; exact h.names
  behind := by
    intro tag ht
    rw [owned_items tag _ (regroup_ok hp).lines, behind_iff _ (mem_pair ht), items_regroup]
    exact headPart_written _ (mem_pair ht) _ _

theorem regroup_owned {p : Paper} (hp : PaperOk alpha p) (h : Attributed p) : SameOwned (regroup p) p := by
  intro tag ht
  have hp' := regroup_ok hp
  refine inj [] _ _ (named hp' (regroup_attributed hp h) tag ht) (named hp h tag ht) ?_
  rw [owned_items tag p hp.lines, owned_items tag _ hp'.lines, ← gather_ownedI _ (mem_pair ht), ← gather_ownedI _ (mem_pair ht)]
  exact same_gather hp h tag ht

/-- What the record of a paper says under a tag whose values belong to an author. -/
theorem vals_owned {p : Paper} (hp : PaperOk alpha p) (tag : String) (ht : tag ∈ ["AD", "AUID"]) :
    vals (fieldsOf p) tag.toList = (owned tag none p).map (fun x => x.1.getD "None".toList ++ " : ".toList ++ x.2) := by
  rw [vals_gather, gather_ownedI _ (mem_pair ht), owned_items tag p hp.lines]
  apply List.map_congr_left
  rintro ⟨m, c⟩ _
  cases m <;> rfl

end Verif.Lemmas.MedlineOwned
