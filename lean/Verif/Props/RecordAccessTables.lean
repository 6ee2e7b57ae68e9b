import Verif.Props.RecordAccess
import Verif.Props.TagNames

/-! # C28: the real tables of alternative names meet the hypotheses -/
set_option autoImplicit false
set_option maxRecDepth 100000
namespace Verif.Props
open Verif.Py Verif.Model.RecordAccess Verif.Model.TagNames

/-- A table of names on `String`. -/
def onString (alt : Str → Option Str) (k : String) : Option String := (alt k.toList).map String.ofList

theorem onString_invol (alt : Str → Option Str) (h : ∀ a b, alt a = some b → alt b = some a) (k a : String)
    (ha : onString alt k = some a) : onString alt a = some k := by
  unfold onString at ha ⊢
  obtain ⟨b, hb, rfl⟩ := Option.map_eq_some_iff.1 ha
  rw [String.toList_ofList, h _ _ hb]
  simp

/-- **C28** for WOS records: whatever the tag functions do, access does not depend on the history, unless a record has fields under both
names of a tag. -/
theorem C28_wos_records {Raw V : Type} (proc : String → Raw → Except AErr V) (truthy : V → Bool) (fin : List (Option V) → Except AErr V)
    (ident noGrants : V) (fields : Dict String Raw)
    (hf : NoClash ⟨onString wosAlt, proc, wosSpecial truthy fin ident noGrants⟩ fields) (ops : List (Op String V)) (k : String) :
    let C : Cls String Raw V := ⟨onString wosAlt, proc, wosSpecial truthy fin ident noGrants⟩
    let R := ops.foldl (after C 3) (fresh fields)
    R.fields = fields ∧ (getitem C 3 R k).1 = (getitem C 3 (fresh fields) k).1 ∧
      (∀ d, (Model.RecordAccess.get C 3 R k d).1 = (Model.RecordAccess.get C 3 (fresh fields) k d).1) ∧
      (contains C 3 R k).1 = (contains C 3 (fresh fields) k).1 ∧ ∀ d, getRaw C R k d = getRaw C (fresh fields) k d := by
  refine C28_history_independent (C28_wos_class _ (onString_invol _ ?_) ?_ proc truthy fin ident noGrants) fields hf ops k
  · intro a b h; rw [C47_wos_alternatives] at h ⊢; exact h.symm
  · intro k hk
    have : wosAlt k.toList = none := by
      simp only [List.mem_cons, List.not_mem_nil, or_false] at hk
      rcases hk with rfl | rfl | rfl <;> decide +kernel
    unfold onString; rw [this]; rfl

/-- **C28** for Medline records. -/
theorem C28_medline_records {Raw V : Type} (proc : String → Raw → Except AErr V) (truthy : V → Bool) (fin : List (Option V) → Except AErr V)
    (ident : V) (post : String → V → Except AErr V) (addr : V → V → Except AErr V) (fields : Dict String Raw)
    (hf : NoClash ⟨onString medlineAlt, proc, medlineSpecial truthy fin ident post addr⟩ fields) (ops : List (Op String V)) (k : String) :
    let C : Cls String Raw V := ⟨onString medlineAlt, proc, medlineSpecial truthy fin ident post addr⟩
    let R := ops.foldl (after C 3) (fresh fields)
    R.fields = fields ∧ (getitem C 3 R k).1 = (getitem C 3 (fresh fields) k).1 ∧
      (∀ d, (Model.RecordAccess.get C 3 R k d).1 = (Model.RecordAccess.get C 3 (fresh fields) k d).1) ∧
      (contains C 3 R k).1 = (contains C 3 (fresh fields) k).1 ∧ ∀ d, getRaw C R k d = getRaw C (fresh fields) k d := by
  refine C28_history_independent (C28_medline_class _ (onString_invol _ ?_) ?_ proc truthy fin ident post addr) fields hf ops k
  · intro a b h; rw [C47_medline_alternatives] at h ⊢; exact h.symm
  · have : ∀ k ∈ "selfCitation" :: medlineNames, medlineAlt k.toList = none := by decide +kernel
    intro k hk
    unfold onString; rw [this k hk]; rfl

end Verif.Props
