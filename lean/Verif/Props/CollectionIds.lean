import Verif.Model.CollectionIds
import Verif.Lemmas.Collection

/-! # C06, C07: items with ids -/
set_option autoImplicit false
set_option linter.unusedSectionVars false
namespace Verif.Props
open Verif.Py Verif.Model

variable {α κ ε ι : Type} [DecidableEq α] [DecidableEq κ] [DecidableEq ι]

theorem findID_some {idOf : α → ι} {i : ι} {l : List α} {x : α} (h : Coll.findID idOf i l = some x) :
    x ∈ l ∧ idOf x = i := by
  induction l with
  | nil => simp [Coll.findID] at h
  | cons y l ih =>
    unfold Coll.findID at h
    split at h
    · simp at h; subst h; simp; assumption
    · have := ih h; exact ⟨List.mem_cons_of_mem _ this.1, this.2⟩

theorem findID_none {idOf : α → ι} {i : ι} {l : List α} (h : Coll.findID idOf i l = none) : ∀ x ∈ l, idOf x ≠ i := by
  induction l with
  | nil => simp
  | cons y l ih =>
    unfold Coll.findID at h
    split at h
    · simp at h
    · intro x hx
      rcases List.mem_cons.1 hx with rfl | hx
      · assumption
      · exact ih h x hx

/-- C06, lookup: `containsID` says whether a member has the id. -/
theorem C06_containsID_iff (idOf : α → ι) (c : Coll α κ ε) (i : ι) :
    c.containsID idOf i = true ↔ ∃ x ∈ c.items, idOf x = i := by
  unfold Coll.containsID
  cases h : Coll.findID idOf i c.items with
  | some x => have := findID_some h; simp; exact ⟨x, this⟩
  | none => have := findID_none h; simp; exact this

/-- C06, lookup: `getID` returns a member with that id, and `None` exactly when there is none. -/
theorem C06_getID (idOf : α → ι) (c : Coll α κ ε) (i : ι) :
    (∀ x, c.getID idOf i = some x → x ∈ c.items ∧ idOf x = i) ∧
    (c.getID idOf i = none ↔ ¬ ∃ x ∈ c.items, idOf x = i) := by
  refine ⟨fun x h => findID_some h, ?_⟩
  constructor
  · intro h ⟨x, hx, hi⟩; exact findID_none h x hx hi
  · intro h
    cases hg : c.getID idOf i with
    | none => rfl
    | some x => exact absurd ⟨x, findID_some hg⟩ h

/-- C06, removal: when a member has the id, `removeID` and `discardID` both remove exactly one element, a member with
that id (the one `getID` returns), and nothing else of the collection changes. -/
theorem C06_remove_present (idOf : α → ι) (c : Coll α κ ε) (hc : c.items.Nodup) (i : ι)
    (h : ∃ x ∈ c.items, idOf x = i) :
    ∃ x ∈ c.items, idOf x = i ∧ c.getID idOf i = some x ∧
      c.removeID idOf i = .ok (c.discardID idOf i) ∧
      (∀ y, y ∈ (c.discardID idOf i).items ↔ y ∈ c.items ∧ y ≠ x) ∧
      (c.discardID idOf i).items.length + 1 = c.items.length ∧
      { c.discardID idOf i with items := c.items } = c := by
  cases hf : Coll.findID idOf i c.items with
  | none => obtain ⟨x, hx, hi⟩ := h; exact absurd hi (findID_none hf x hx)
  | some x =>
    obtain ⟨hx, hi⟩ := findID_some hf
    refine ⟨x, hx, hi, hf, by simp [Coll.removeID, Coll.discardID, hf], ?_, ?_, ?_⟩
    · intro y; simp [Coll.discardID, hf, PSet.mem_discard]
    · simp only [Coll.discardID, hf]
      have := (Coll.discard_perm hc hx).length_eq
      simpa using this
    · simp [Coll.discardID, hf]

/-- C06, removal of a missing id: `discardID` changes nothing, `removeID` raises `KeyError`. -/
theorem C06_remove_absent (idOf : α → ι) (c : Coll α κ ε) (i : ι) (h : ¬ ∃ x ∈ c.items, idOf x = i) :
    c.discardID idOf i = c ∧ c.removeID idOf i = .error .keyError := by
  have hf : Coll.findID idOf i c.items = none := (C06_getID idOf c i).2.2 h
  simp [Coll.discardID, Coll.removeID, hf]

/-- C06, unique ids: if no two members share the id, after `removeID` the id is gone. -/
theorem C06_removed_gone (idOf : α → ι) (c : Coll α κ ε) (hc : c.items.Nodup) (i : ι)
    (hu : ∀ x ∈ c.items, ∀ y ∈ c.items, idOf x = i → idOf y = i → x = y) :
    (c.discardID idOf i).containsID idOf i = false := by
  rw [← Bool.not_eq_true, C06_containsID_iff]
  rintro ⟨y, hy, hyi⟩
  by_cases h : ∃ x ∈ c.items, idOf x = i
  · obtain ⟨x, hx, hxi, _, _, hm, _, _⟩ := C06_remove_present idOf c hc i h
    rw [hm] at hy
    exact hy.2 (hu y hy.1 x hx hyi hxi)
  · rw [(C06_remove_absent idOf c i h).1] at hy
    exact h ⟨y, hy, hyi⟩

private def c6 : Coll (Nat × String × Bool) Nat Nat :=
  ⟨"RecordCollection", [(1, "WOS:1", false), (2, "WOS:Missing", true), (3, "WOS:Missing", true)], [], "n", true, []⟩

example : c6.items.Nodup ∧ (∃ x ∈ c6.items, x.2.1 = "WOS:Missing") ∧
    (c6.discardID (fun x => x.2.1) "WOS:Missing").items = [(1, "WOS:1", false), (3, "WOS:Missing", true)] := by decide
example : ¬ ∃ x ∈ c6.items, x.2.1 = "WOS:9" := by decide

theorem foldl_bad (badOf : α → Bool) (l acc : List α) :
    ∀ x, x ∈ l.foldl (fun acc i => if badOf i then PSet.add acc i else acc) acc ↔
      x ∈ acc ∨ (x ∈ l ∧ badOf x = true) := by
  induction l generalizing acc with
  | nil => simp
  | cons y l ih =>
    intro x
    rw [List.foldl_cons, ih]
    by_cases hy : badOf y = true
    · simp only [hy, if_true, PSet.mem_add, List.mem_cons]
      constructor
      · rintro ((rfl | h) | h)
        · exact Or.inr ⟨Or.inl rfl, hy⟩
        · exact Or.inl h
        · exact Or.inr ⟨Or.inr h.1, h.2⟩
      · rintro (h | ⟨rfl | h, hb⟩)
        · exact Or.inl (Or.inr h)
        · exact Or.inl (Or.inl rfl)
        · exact Or.inr ⟨h, hb⟩
    · simp only [hy, List.mem_cons]
      constructor
      · rintro (h | h)
        · exact Or.inl (by simpa using h)
        · exact Or.inr ⟨Or.inr h.1, h.2⟩
      · rintro (h | ⟨rfl | h, hb⟩)
        · exact Or.inl (by simpa using h)
        · exact absurd hb hy
        · exact Or.inr ⟨h, hb⟩

/-- C07: `badEntries` holds exactly the bad members, `dropBadEntries` exactly the others, without repetition; together
they are the collection; `dropBadEntries` resets the error state. -/
theorem C07_bad_entries (badOf : α → Bool) (c : Coll α κ ε) :
    (∀ x, x ∈ (c.badEntries badOf).items ↔ x ∈ c.items ∧ badOf x = true) ∧ (c.badEntries badOf).items.Nodup ∧
    (∀ x, x ∈ (c.dropBadEntries badOf).items ↔ x ∈ c.items ∧ badOf x = false) ∧ (c.dropBadEntries badOf).items.Nodup ∧
    (c.dropBadEntries badOf).bad = false ∧ (c.dropBadEntries badOf).errors = [] ∧
    (c.dropBadEntries badOf).name = c.name ∧ (c.badEntries badOf).cls = c.cls := by
  refine ⟨?_, PSet.nodup_ofList _, ?_, PSet.nodup_ofList _, rfl, rfl, rfl, rfl⟩
  · intro x
    simp [Coll.badEntries, Coll.fresh, PSet.mem_ofList, foldl_bad]
  · intro x
    simp [Coll.dropBadEntries, PSet.mem_ofList]

/-- C07, idempotence, and no bad entry is left. -/
theorem C07_drop_idempotent (badOf : α → Bool) (c : Coll α κ ε) :
    (c.dropBadEntries badOf).dropBadEntries badOf = c.dropBadEntries badOf ∧
    ((c.dropBadEntries badOf).badEntries badOf).items = [] := by
  have hm := (C07_bad_entries badOf c).2.2.1
  have hn := (C07_bad_entries badOf c).2.2.2.1
  constructor
  · have hfil : (c.dropBadEntries badOf).items.filter (fun i => !badOf i) = (c.dropBadEntries badOf).items := by
      rw [List.filter_eq_self]
      intro x hx; simp [((hm x).1 hx).2]
    rw [Coll.dropBadEntries, hfil, PSet.ofList_of_nodup hn]
    rfl
  · rw [List.eq_nil_iff_forall_not_mem]
    intro x hx
    have h1 := ((C07_bad_entries badOf (c.dropBadEntries badOf)).1 x).1 hx
    have h2 := ((hm x).1 h1.1).2
    rw [h1.2] at h2; simp at h2

/-- `tags()` is the set of all tags of the members. -/
theorem C07_tags {τ : Type} [DecidableEq τ] (keysOf : α → List τ) (c : Coll α κ ε) :
    (c.tags keysOf).Nodup ∧ ∀ t, t ∈ c.tags keysOf ↔ ∃ x ∈ c.items, t ∈ keysOf x := by
  have key : ∀ (l : List α) (acc : List τ), acc.Nodup →
      (l.foldl (fun acc i => PSet.union acc (PSet.ofList (keysOf i))) acc).Nodup ∧
      ∀ t, t ∈ l.foldl (fun acc i => PSet.union acc (PSet.ofList (keysOf i))) acc ↔
        t ∈ acc ∨ ∃ x ∈ l, t ∈ keysOf x := by
    intro l
    induction l with
    | nil => intro acc h; simp [h]
    | cons y l ih =>
      intro acc h
      rw [List.foldl_cons]
      obtain ⟨h1, h2⟩ := ih _ (PSet.nodup_union h (PSet.nodup_ofList (keysOf y)))
      refine ⟨h1, fun t => ?_⟩
      rw [h2]
      simp only [PSet.mem_union, PSet.mem_ofList, List.mem_cons, exists_eq_or_imp, or_assoc]
  have := key c.items [] List.nodup_nil
  refine ⟨this.1, fun t => ?_⟩
  simpa [Coll.tags] using this.2 t

example : (c6.badEntries (fun x => x.2.2)).items.length = 2 ∧ (c6.dropBadEntries (fun x => x.2.2)).items.length = 1 := by
  decide

end Verif.Props
