import Verif.Props.RecordAccess
import Verif.Spec.CommonNames
import Mathlib.Tactic.Tauto

/-! # C86: the common names of the fields of a record -/
set_option autoImplicit false
set_option linter.unusedSimpArgs false
namespace Verif.Props.CommonNames
open Verif.Py Verif.Model.RecordAccess Verif.Props

variable {Raw V : Type}

/-- What an access gives after a history. -/
def item (C : Cls String Raw V) (fields : Dict String Raw) (ops : List (Op String V)) (k : String) : Except AErr V :=
  (getitem C 3 (ops.foldl (after C 3) (fresh fields)) k).1

/-- The result of an access, changed by `f`. -/
def through (r : Except AErr V) (f : V → Except AErr V) : Except AErr V :=
  match r with
  | .ok v => f v
  | .error e => .error e

/-- What goes into a citation: nothing when the field is missing or false. -/
def shown (truthy : V → Bool) : Except AErr V → Option V
  | .ok v => if truthy v then some v else none
  | .error _ => none

/-- The citation made from the fields with these names: an exception other than `KeyError` of one of them, the first, ends it. -/
def cite (truthy : V → Bool) (fin : List (Option V) → Except AErr V) (g : String → Except AErr V) (names : List String) : Except AErr V :=
  match names.findSome? (fun k => match g k with | .error .keyError => none | .error e => some e | .ok _ => none) with
  | some e => .error e
  | none => fin (names.map (fun k => shown truthy (g k)))

/-! ## Proof -/

theorem item_special {C : Cls String Raw V} {rank : String → Nat} (hC : GoodCls C rank 3) (fields : Dict String Raw) (hf : NoClash C fields)
    (ops : List (Op String V)) (k : String) (h : fields.get? k = none) (ha : altField C (⟨fields, []⟩ : Rec String Raw V) k = none) :
    item C fields ops k = evalProg (item C fields ops) (C.special k) := by
  obtain ⟨h1, h2⟩ := after_sound hC fields hf ops (fresh fields) rfl (sound_fresh C 3 fields)
  have he : ∀ j, item C fields ops j = eval C fields 3 j := by
    intro j
    have := (getitem_sound hC 3 j (hC.bound j) _ (by rw [h1]; exact hf) h2).1
    rw [h1] at this
    exact this
  rw [he, eval_special C fields 2 k h ha]
  refine evalProg_congr _ _ rank (rank k) (fun j hj => ?_) _ (hC.below k)
  rw [he]
  have := hC.bound k
  exact eval_level hC fields 2 3 j (by omega) (by omega)

theorem altField_none {C : Cls String Raw V} {k : String} (fields : Dict String Raw) (h : C.alt k = none) :
    altField C (⟨fields, []⟩ : Rec String Raw V) k = none := by unfold altField; rw [h]

theorem eval_read1 (g : String → Except AErr V) (t : String) (f : V → Except AErr V) : evalProg g (read1 t f) = through (g t) f := by
  unfold read1 evalProg through
  cases g t <;> rfl

theorem through_ok (r : Except AErr V) : through r .ok = r := by cases r <;> rfl

theorem eval_cite (truthy : V → Bool) (fin : List (Option V) → Except AErr V) (g : String → Except AErr V) (names : List String) (acc : List (Option V)) :
    evalProg g (citeProg truthy fin names acc) = cite truthy (fun l => fin (acc ++ l)) g names := by
  induction names generalizing acc with
  | nil => simp [citeProg, evalProg, cite]
  | cons k ks ih =>
    unfold citeProg getOr evalProg
    cases hk : g k with
    | error e =>
      cases e with
      | keyError =>
        dsimp only
        rw [ih]
        unfold cite
        rw [List.findSome?_cons, hk]
        simp [hk, shown]
      | recursion => simp [cite, hk, evalProg]
      | other => simp [cite, hk, evalProg]
    | ok v =>
      dsimp only
      by_cases ht : truthy v = true
      · rw [if_pos ht]
        unfold evalProg
        rw [hk]
        dsimp only
        rw [ih]
        unfold cite
        rw [List.findSome?_cons, hk]
        simp [hk, shown, ht]
      · rw [if_neg ht, ih]
        unfold cite
        rw [List.findSome?_cons, hk]
        simp [hk, shown, ht]

theorem get_of_mem {l : List (String × String)} {k t : String} (hn : (l.map Prod.fst).Nodup) (h : (k, t) ∈ l) : Dict.get? l k = some t :=
  Dict.get?_of_mem hn h

/-! ## The property -/

/-- **C86** for Medline records: after any history a common name gives what its function makes of the value of its field — for most names the value itself —
and raises what reading that field raises. The address needs the affiliations and the authors. Other names that are no field of the record raise `KeyError`. -/
theorem C86_medline (alt : String → Option String) (halt : ∀ k a, alt k = some a → alt a = some k)
    (hspecial : ∀ k, k ∈ "selfCitation" :: "address" :: "id" :: Spec.CommonNames.medline.map Prod.fst → alt k = none)
    (proc : String → Raw → Except AErr V) (truthy : V → Bool) (fin : List (Option V) → Except AErr V) (ident : V)
    (post : String → V → Except AErr V) (addr : V → V → Except AErr V)
    (fields : Dict String Raw) (hf : NoClash ⟨alt, proc, medlineSpecial truthy fin ident post addr⟩ fields) (ops : List (Op String V)) :
    let R := item ⟨alt, proc, medlineSpecial truthy fin ident post addr⟩ fields ops
    (∀ p ∈ Spec.CommonNames.medline, fields.get? p.1 = none → R p.1 = through (R p.2) (post p.1)) ∧
    (fields.get? "address" = none → R "address" = through (R "AD") (fun ad => through (R "AU") (addr ad))) ∧
    (fields.get? "id" = none → R "id" = .ok ident) ∧
    (fields.get? "selfCitation" = none → R "selfCitation" = cite truthy fin R Spec.CommonNames.cited) ∧
    ∀ k, k ∉ "selfCitation" :: "address" :: "id" :: Spec.CommonNames.medline.map Prod.fst → fields.get? k = none →
      (∀ a, alt k = some a → fields.get? a = none) → R k = .error .keyError := by
  intro R
  have hperm : ∀ k, k ∈ medlineNames ↔ k ∈ "address" :: "id" :: Spec.CommonNames.medline.map Prod.fst := by
    intro k
    simp only [medlineNames, medlineReads, Spec.CommonNames.medline, List.map_cons, List.map_nil, List.mem_cons, List.not_mem_nil, or_false]
    tauto
  have hC := C28_medline_class alt halt (fun k hk => hspecial k (by
    rcases List.mem_cons.1 hk with rfl | hk
    · simp
    · exact List.mem_cons_of_mem _ ((hperm k).1 hk))) proc truthy fin ident post addr
  have key := fun k h ha => item_special hC fields hf ops k h ha
  refine ⟨?_, ?_, ?_, ?_, ?_⟩
  · rintro ⟨k, t⟩ hp hk
    have := key k hk (altField_none fields (hspecial k (by
      have := List.mem_map_of_mem (f := Prod.fst) hp; simp only [List.mem_cons]; tauto)))
    refine this.trans ?_
    rw [← eval_read1]
    congr 1
    have hne : k ≠ "selfCitation" ∧ k ≠ "id" ∧ k ≠ "address" ∧ Dict.get? medlineReads k = some t := by
      revert hp
      have hall : ∀ p ∈ Spec.CommonNames.medline, p.1 ≠ "selfCitation" ∧ p.1 ≠ "id" ∧ p.1 ≠ "address" ∧ Dict.get? medlineReads p.1 = some p.2 := by decide
      exact fun hp => hall (k, t) hp
    show medlineSpecial truthy fin ident post addr k = _
    unfold medlineSpecial
    rw [if_neg hne.1, if_neg hne.2.1, if_neg hne.2.2.1, hne.2.2.2]
  · intro h
    refine (key "address" h (altField_none fields (hspecial _ (by simp)))).trans ?_
    show evalProg R (medlineSpecial truthy fin ident post addr "address") = _
    have : medlineSpecial truthy fin ident post addr "address" = .read "AD" (fun r => match r with
        | .error e => .done (.error e)
        | .ok ad => read1 "AU" (addr ad)) := rfl
    rw [this, evalProg]
    cases R "AD" with
    | error e => rfl
    | ok ad => exact eval_read1 _ _ _
  · intro h
    exact (key "id" h (altField_none fields (hspecial _ (by simp)))).trans rfl
  · intro h
    refine (key "selfCitation" h (altField_none fields (hspecial _ (by simp)))).trans ?_
    exact (eval_cite truthy fin R citeTags []).trans rfl
  · intro k hk h ha
    refine (key k h ?_).trans ?_
    · unfold altField
      dsimp only
      cases hal : alt k with
      | none => rfl
      | some a => dsimp only; rw [ha a hal]
    · have hk' : k ≠ "selfCitation" ∧ k ∉ medlineNames := by
        rw [hperm]; simp only [List.mem_cons, not_or] at hk ⊢; tauto
      have h2 : k ≠ "address" ∧ k ≠ "id" ∧ k ∉ medlineReads.map Prod.fst := by
        have := hk'.2
        unfold medlineNames at this
        simp only [List.mem_cons, not_or] at this
        exact ⟨this.1, this.2.1, this.2.2⟩
      show evalProg R (medlineSpecial truthy fin ident post addr k) = _
      unfold medlineSpecial
      rw [if_neg hk'.1, if_neg h2.2.1, if_neg h2.1, (Dict.get?_eq_none_iff _ _).2 h2.2.2]
      rfl

/-- **C86** for Scopus records: a common name gives the value of its column. -/
theorem C86_scopus (proc : String → Raw → Except AErr V) (truthy : V → Bool) (fin : List (Option V) → Except AErr V)
    (fields : Dict String Raw) (ops : List (Op String V)) :
    let R := item ⟨fun _ => none, proc, scopusSpecial truthy fin⟩ fields ops
    (∀ p ∈ Spec.CommonNames.scopus, fields.get? p.1 = none → R p.1 = R p.2) ∧
    (fields.get? "selfCitation" = none → R "selfCitation" = cite truthy fin R Spec.CommonNames.citedScopus) ∧
    ∀ k, k ∉ "selfCitation" :: Spec.CommonNames.scopus.map Prod.fst → fields.get? k = none → R k = .error .keyError := by
  intro R
  have hC := C28_scopus_class proc truthy fin
  have key := fun k h => item_special hC fields (by intro k a h; cases h) ops k h (altField_none fields rfl)
  refine ⟨?_, ?_, ?_⟩
  · rintro ⟨k, t⟩ hp hk
    refine (key k hk).trans ?_
    have hne : k ≠ "selfCitation" ∧ Dict.get? scopusReads k = some t := by
      have hall : ∀ p ∈ Spec.CommonNames.scopus, p.1 ≠ "selfCitation" ∧ Dict.get? scopusReads p.1 = some p.2 := by decide
      exact hall (k, t) hp
    show evalProg R (scopusSpecial truthy fin k) = R t
    unfold scopusSpecial
    rw [if_neg hne.1, hne.2]
    exact (eval_read1 R t .ok).trans (through_ok _)
  · intro h
    refine (key "selfCitation" h).trans ?_
    exact (eval_cite truthy fin R _ []).trans rfl
  · intro k hk h
    refine (key k h).trans ?_
    have hk' : k ≠ "selfCitation" ∧ k ∉ scopusReads.map Prod.fst := by
      simp only [scopusReads, Spec.CommonNames.scopus, List.map_cons, List.map_nil, List.mem_cons, List.not_mem_nil, or_false, not_or] at hk ⊢
      tauto
    show evalProg R (scopusSpecial truthy fin k) = _
    unfold scopusSpecial
    rw [if_neg hk'.1, (Dict.get?_eq_none_iff _ _).2 hk'.2]
    rfl

/-- **C86** for ProQuest records. The page is always 0, and the full names of the authors are always the same word, `author`. -/
theorem C86_proQuest (proc : String → Raw → Except AErr V) (truthy : V → Bool) (fin : List (Option V) → Except AErr V)
    (ident zero author : V) (fields : Dict String Raw) (ops : List (Op String V)) :
    let R := item ⟨fun _ => none, proc, proQuestSpecial truthy fin ident zero author⟩ fields ops
    (∀ p ∈ Spec.CommonNames.proQuest, fields.get? p.1 = none → R p.1 = R p.2) ∧
    (fields.get? "id" = none → R "id" = .ok ident) ∧ (fields.get? "beginningPage" = none → R "beginningPage" = .ok zero) ∧
    (fields.get? "authorsFull" = none → R "authorsFull" = .ok author) ∧
    (fields.get? "selfCitation" = none → R "selfCitation" = cite truthy fin R Spec.CommonNames.cited) ∧
    ∀ k, k ∉ "selfCitation" :: "id" :: "beginningPage" :: "authorsFull" :: Spec.CommonNames.proQuest.map Prod.fst → fields.get? k = none →
      R k = .error .keyError := by
  intro R
  have hC := C28_proQuest_class proc truthy fin ident zero author
  have key := fun k h => item_special hC fields (by intro k a h; cases h) ops k h (altField_none fields rfl)
  refine ⟨?_, fun h => (key _ h).trans rfl, fun h => (key _ h).trans rfl, fun h => (key _ h).trans rfl,
    fun h => (key _ h).trans ((eval_cite truthy fin R citeTags []).trans rfl), ?_⟩
  · rintro ⟨k, t⟩ hp hk
    refine (key k hk).trans ?_
    have hne : k ≠ "selfCitation" ∧ k ≠ "id" ∧ k ≠ "beginningPage" ∧ k ≠ "authorsFull" ∧ Dict.get? proQuestReads k = some t := by
      have hall : ∀ p ∈ Spec.CommonNames.proQuest, p.1 ≠ "selfCitation" ∧ p.1 ≠ "id" ∧ p.1 ≠ "beginningPage" ∧ p.1 ≠ "authorsFull" ∧
        Dict.get? proQuestReads p.1 = some p.2 := by decide
      exact hall (k, t) hp
    show evalProg R (proQuestSpecial truthy fin ident zero author k) = R t
    unfold proQuestSpecial
    rw [if_neg hne.1, if_neg hne.2.1, if_neg hne.2.2.1, if_neg hne.2.2.2.1, hne.2.2.2.2]
    exact (eval_read1 R t .ok).trans (through_ok _)
  · intro k hk h
    refine (key k h).trans ?_
    have hk' : k ≠ "selfCitation" ∧ k ≠ "id" ∧ k ≠ "beginningPage" ∧ k ≠ "authorsFull" ∧ k ∉ proQuestReads.map Prod.fst := by
      simp only [proQuestReads, Spec.CommonNames.proQuest, List.map_cons, List.map_nil, List.mem_cons, List.not_mem_nil, or_false, not_or] at hk ⊢
      tauto
    show evalProg R (proQuestSpecial truthy fin ident zero author k) = _
    unfold proQuestSpecial
    rw [if_neg hk'.1, if_neg hk'.2.1, if_neg hk'.2.2.1, if_neg hk'.2.2.2.1, (Dict.get?_eq_none_iff _ _).2 hk'.2.2.2.2]
    rfl

/-- **C86** for WOS records: besides the fields, under both of their names, there are only the id, the citation and the grants, of which there are none. -/
theorem C86_wos (alt : String → Option String) (halt : ∀ k a, alt k = some a → alt a = some k)
    (hspecial : ∀ k ∈ ["selfCitation", "id", "grants"], alt k = none)
    (proc : String → Raw → Except AErr V) (truthy : V → Bool) (fin : List (Option V) → Except AErr V) (ident noGrants : V)
    (fields : Dict String Raw) (hf : NoClash ⟨alt, proc, wosSpecial truthy fin ident noGrants⟩ fields) (ops : List (Op String V)) :
    let R := item ⟨alt, proc, wosSpecial truthy fin ident noGrants⟩ fields ops
    (fields.get? "id" = none → R "id" = .ok ident) ∧ (fields.get? "grants" = none → R "grants" = .ok noGrants) ∧
    (fields.get? "selfCitation" = none → R "selfCitation" = cite truthy fin R Spec.CommonNames.cited) ∧
    ∀ k, k ∉ ["selfCitation", "id", "grants"] → fields.get? k = none → (∀ a, alt k = some a → fields.get? a = none) → R k = .error .keyError := by
  intro R
  have hC := C28_wos_class alt halt hspecial proc truthy fin ident noGrants
  have key := fun k h ha => item_special hC fields hf ops k h ha
  refine ⟨fun h => (key _ h (altField_none fields (hspecial _ (by simp)))).trans rfl, fun h => (key _ h (altField_none fields (hspecial _ (by simp)))).trans rfl,
    fun h => (key _ h (altField_none fields (hspecial _ (by simp)))).trans ((eval_cite truthy fin R citeTags []).trans rfl), ?_⟩
  intro k hk h ha
  refine (key k h ?_).trans ?_
  · unfold altField
    dsimp only
    cases hal : alt k with
    | none => rfl
    | some a => dsimp only; rw [ha a hal]
  · simp only [List.mem_cons, List.not_mem_nil, or_false, not_or] at hk
    show evalProg R (wosSpecial truthy fin ident noGrants k) = _
    unfold wosSpecial
    rw [if_neg hk.1, if_neg hk.2.1, if_neg hk.2.2]
    rfl

/-! ## The hypotheses can be met -/

/-- A Scopus record whose year is read twice, by its two names, with a citation in between. -/
example : item ⟨fun _ => none, fun _ (v : Nat) => .ok v, scopusSpecial (fun v => v != 0) (fun l => .ok (l.map (fun o => o.getD 0)).sum)⟩
    [("Year", 2000), ("Title", 7), ("Volume", 0)] [.item "selfCitation", .mem "year"] "year" = .ok 2000 := by rfl

example : item ⟨fun _ => none, fun _ (v : Nat) => .ok v, scopusSpecial (fun v => v != 0) (fun l => .ok (l.map (fun o => o.getD 0)).sum)⟩
    [("Year", 2000), ("Title", 7), ("Volume", 0)] [] "selfCitation" = .ok 2007 := by rfl

/-- A Medline record whose names have long forms. -/
example : let alt : String → Option String := fun k => if k = "TI" then some "Title" else if k = "Title" then some "TI" else none
    (∀ k a, alt k = some a → alt a = some k) ∧ (∀ k, k ∈ "selfCitation" :: "address" :: "id" :: Spec.CommonNames.medline.map Prod.fst → alt k = none) ∧
    NoClash (Raw := Nat) (V := Nat) ⟨alt, fun _ v => .ok v, medlineSpecial (fun _ => true) (fun _ => .ok 0) 1 (fun _ => .ok) (fun a _ => .ok a)⟩
      [("TI", 5), ("AD", 3), ("AU", 4)] ∧
    item ⟨alt, fun _ v => .ok v, medlineSpecial (fun _ => true) (fun _ => .ok 0) 1 (fun _ => .ok) (fun a _ => .ok a)⟩
      [("TI", 5), ("AD", 3), ("AU", 4)] [.item "title"] "address" = .ok 3 := by
  refine ⟨?_, by decide, ?_, by rfl⟩
  · intro k a
    dsimp only
    split
    · rintro ⟨⟩; subst_vars; decide
    · split
      · rintro ⟨⟩; subst_vars; decide
      · rintro ⟨⟩
  · intro k a h hne
    have h' : (if k = "TI" then some "Title" else if k = "Title" then some "TI" else none) = some a := h
    split at h'
    · cases h'; subst_vars; decide
    · split at h'
      · cases h'; subst_vars; decide
      · cases h'

end Verif.Props.CommonNames
