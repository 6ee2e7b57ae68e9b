/-!
# Python sets

A builtin `set` is a duplicate-free list; the order of the list stands for the (unspecified) iteration order.
Elements are compared with `=`; for records this is equality of the objects' `==` classes.
Nothing here models a particular file of /repo.
-/
namespace Verif.Py

namespace PSet
variable {α : Type _} [DecidableEq α]

/-- `s.add(x)` -/
def add (s : List α) (x : α) : List α := if x ∈ s then s else s ++ [x]
/-- `s.discard(x)` -/
def discard (s : List α) (x : α) : List α := s.filter (fun y => y ≠ x)
/-- `s | t` -/
def union (s t : List α) : List α := s ++ t.filter (fun x => x ∉ s)
/-- `s & t` -/
def inter (s t : List α) : List α := s.filter (fun x => x ∈ t)
/-- `s - t` -/
def diff (s t : List α) : List α := s.filter (fun x => x ∉ t)
/-- `s ^ t` -/
def symm (s t : List α) : List α := diff s t ++ diff t s
/-- `set(iterable)`: adds the elements one after the other -/
def ofList (l : List α) : List α := l.foldl add []

theorem mem_add (s : List α) (x y : α) : y ∈ add s x ↔ y = x ∨ y ∈ s := by
  unfold add; split
  · rename_i h; constructor
    · exact Or.inr
    · rintro (rfl | h') <;> assumption
  · simp [or_comm]

theorem mem_discard (s : List α) (x y : α) : y ∈ discard s x ↔ y ∈ s ∧ y ≠ x := by simp [discard]

theorem mem_union (s t : List α) (x : α) : x ∈ union s t ↔ x ∈ s ∨ x ∈ t := by
  simp only [union, List.mem_append, List.mem_filter, decide_eq_true_eq]
  by_cases h : x ∈ s <;> simp [h]

theorem mem_inter (s t : List α) (x : α) : x ∈ inter s t ↔ x ∈ s ∧ x ∈ t := by simp [inter]
theorem mem_diff (s t : List α) (x : α) : x ∈ diff s t ↔ x ∈ s ∧ x ∉ t := by simp [diff]
theorem mem_symm (s t : List α) (x : α) : x ∈ symm s t ↔ (x ∈ s ∧ x ∉ t) ∨ (x ∈ t ∧ x ∉ s) := by
  simp [symm, mem_diff]

theorem nodup_add {s : List α} (h : s.Nodup) (x : α) : (add s x).Nodup := by
  unfold add; split
  · exact h
  · rename_i hx
    rw [List.nodup_append]
    refine ⟨h, by simp, ?_⟩
    intro a ha b hb; simp at hb; subst hb; rintro rfl; exact hx ha

theorem nodup_discard {s : List α} (h : s.Nodup) (x : α) : (discard s x).Nodup := h.filter _
theorem nodup_inter {s : List α} (h : s.Nodup) (t : List α) : (inter s t).Nodup := h.filter _
theorem nodup_diff {s : List α} (h : s.Nodup) (t : List α) : (diff s t).Nodup := h.filter _

theorem nodup_union {s t : List α} (hs : s.Nodup) (ht : t.Nodup) : (union s t).Nodup := by
  unfold union
  rw [List.nodup_append]
  refine ⟨hs, ht.filter _, ?_⟩
  intro a ha b hb; simp only [List.mem_filter, decide_eq_true_eq] at hb; rintro rfl; exact hb.2 ha

theorem nodup_symm {s t : List α} (hs : s.Nodup) (ht : t.Nodup) : (symm s t).Nodup := by
  unfold symm
  rw [List.nodup_append]
  refine ⟨nodup_diff hs _, nodup_diff ht _, ?_⟩
  intro a ha b hb; rw [mem_diff] at ha hb; rintro rfl; exact hb.2 ha.1

theorem nodup_foldl_add {s : List α} (h : s.Nodup) (l : List α) : (l.foldl add s).Nodup := by
  induction l generalizing s with
  | nil => exact h
  | cons x l ih => exact ih (nodup_add h x)

theorem mem_foldl_add (s l : List α) (x : α) : x ∈ l.foldl add s ↔ x ∈ s ∨ x ∈ l := by
  induction l generalizing s with
  | nil => simp
  | cons y l ih =>
    rw [List.foldl_cons, ih, mem_add, List.mem_cons]
    constructor
    · rintro ((h | h) | h)
      · exact Or.inr (Or.inl h)
      · exact Or.inl h
      · exact Or.inr (Or.inr h)
    · rintro (h | h | h)
      · exact Or.inl (Or.inr h)
      · exact Or.inl (Or.inl h)
      · exact Or.inr h

theorem nodup_ofList (l : List α) : (ofList l).Nodup := nodup_foldl_add List.nodup_nil l
theorem mem_ofList (l : List α) (x : α) : x ∈ ofList l ↔ x ∈ l := by simp [ofList, mem_foldl_add]

theorem foldl_add_of_nodup (s l : List α) (h : (s ++ l).Nodup) : l.foldl add s = s ++ l := by
  induction l generalizing s with
  | nil => simp
  | cons x l ih =>
    have hx : x ∉ s := by
      rw [List.nodup_append] at h
      intro hx; exact h.2.2 x hx x (by simp) rfl
    rw [List.foldl_cons, show add s x = s ++ [x] by simp [add, hx], ih _ (by simpa using h)]
    simp

theorem ofList_of_nodup {l : List α} (h : l.Nodup) : ofList l = l := by
  simpa [ofList] using foldl_add_of_nodup [] l (by simpa using h)

end PSet
end Verif.Py
