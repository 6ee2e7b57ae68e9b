import Verif.Spec.CollectionHeap

/-! # C62: collections share nothing -/
set_option autoImplicit false
set_option linter.unusedSectionVars false
set_option linter.unusedSimpArgs false
namespace Verif.Props.CollHeap
open Verif.Py Verif.Spec Verif.Model Verif.Model.CollHeap

variable {α κ ε : Type} [DecidableEq α] [DecidableEq κ]

/-- No two collections have an address in common, and all addresses have been given out. -/
structure Sep (h : Heap α κ ε) : Prop where
  bound : ∀ o ∈ h.objs, o.items < h.next ∧ o.types < h.next ∧ o.errors < h.next
  apart : ∀ (i j : Nat) (a b : Obj), i ≠ j → h.objs[i]? = some a → h.objs[j]? = some b → a.items ≠ b.items ∧ a.types ≠ b.types ∧ a.errors ≠ b.errors

theorem views_get (h : Heap α κ ε) (i : Nat) : (views h)[i]? = h.objs[i]?.map (view h) := by simp [views]

/-- A change of one collection. -/
theorem views_set (h h' : Heap α κ ε) (i : Nat) (o' : Obj) (hobjs : h'.objs = h.objs.set i o')
    (hother : ∀ (j : Nat) (b : Obj), j ≠ i → h.objs[j]? = some b → view h' b = view h b) (c : Coll α κ ε)
    (hi : view h' o' = c) : views h' = (views h).set i c := by
  apply List.ext_getElem?
  intro j
  rw [views_get, hobjs, List.getElem?_set, List.getElem?_set, views_get]
  by_cases hij : i = j
  · subst hij
    simp only [if_true]
    by_cases hlt : i < h.objs.length
    · have : i < (views h).length := by simpa [views] using hlt
      simp [hlt, this, hi]
    · have : ¬ i < (views h).length := by simpa [views] using hlt
      simp [hlt, this]
  · simp only [hij, if_false]
    cases hb : h.objs[j]? with
    | none => rfl
    | some b => simp [hother j b (fun e => hij e.symm) hb]

/-- A new collection. -/
theorem views_append (h h' : Heap α κ ε) (objs : List Obj) (o' : Obj) (hobjs : h'.objs = objs ++ [o'])
    (hlen : objs.length = h.objs.length)
    (hother : ∀ (j : Nat) (b b' : Obj), h.objs[j]? = some b → objs[j]? = some b' → view h' b' = view h b) (c : Coll α κ ε)
    (hi : view h' o' = c) : views h' = views h ++ [c] := by
  have h1 : views h' = objs.map (view h') ++ [c] := by unfold views; rw [hobjs]; simp [hi]
  rw [h1]
  congr 1
  apply List.ext_getElem?
  intro j
  rw [views_get, List.getElem?_map]
  by_cases hj : j < h.objs.length
  · have hj' : j < objs.length := by omega
    rw [List.getElem?_eq_getElem hj, List.getElem?_eq_getElem hj']
    simp only [Option.map_some, Option.some.injEq]
    exact hother j _ _ (List.getElem?_eq_getElem hj) (List.getElem?_eq_getElem hj')
  · rw [List.getElem?_eq_none (by omega), List.getElem?_eq_none (by omega)]; rfl

theorem view_mem_lt (h : Heap α κ ε) (hs : Sep h) (i : Nat) (o : Obj) (ho : h.objs[i]? = some o) :
    o.items < h.next ∧ o.types < h.next ∧ o.errors < h.next := hs.bound o (List.mem_of_getElem? ho)

/-- A new object. -/
theorem alloc_ok (h : Heap α κ ε) (hs : Sep h) (cls name : String) (bad : Bool) (items : List α) (types : List String) (errors : Dict κ ε) :
    Sep (alloc h cls name bad items types errors) ∧
    views (alloc h cls name bad items types errors) = views h ++ [⟨cls, items, types, name, bad, errors⟩] := by
  refine ⟨⟨?_, ?_⟩, ?_⟩
  · intro o ho
    simp only [alloc, List.mem_append, List.mem_singleton] at ho ⊢
    rcases ho with ho | rfl
    · have := hs.bound o ho; omega
    · simp
  · intro i j a b hij ha hb
    simp only [alloc] at ha hb
    rw [List.getElem?_append] at ha hb
    by_cases h1 : i < h.objs.length <;> by_cases h2 : j < h.objs.length <;> simp only [h1, h2, if_true, if_false] at ha hb
    · exact hs.apart i j a b hij ha hb
    · have hba := view_mem_lt h hs i a ha
      have : j - h.objs.length = 0 := by
        by_contra hc; rw [List.getElem?_eq_none (by simp; omega)] at hb; simp at hb
      rw [this] at hb; simp at hb; subst hb
      simp; omega
    · have hbb := view_mem_lt h hs j b hb
      have : i - h.objs.length = 0 := by
        by_contra hc; rw [List.getElem?_eq_none (by simp; omega)] at ha; simp at ha
      rw [this] at ha; simp at ha; subst ha
      simp; omega
    · have e1 : i - h.objs.length = 0 := by
        by_contra hc; rw [List.getElem?_eq_none (by simp; omega)] at ha; simp at ha
      have e2 : j - h.objs.length = 0 := by
        by_contra hc; rw [List.getElem?_eq_none (by simp; omega)] at hb; simp at hb
      omega
  · apply views_append h _ h.objs _ rfl rfl
    · intro j b b' hb hb'
      rw [hb] at hb'; simp only [Option.some.injEq] at hb'; subst hb'
      have := view_mem_lt h hs j b hb
      simp [view, alloc, Function.update_of_ne (show b.items ≠ h.next by omega), Function.update_of_ne (show b.types ≠ h.next by omega),
        Function.update_of_ne (show b.errors ≠ h.next by omega)]
    · simp [view, alloc]

/-- `Sep` after a change of one collection that keeps its addresses or takes new ones. -/
theorem sep_set (h h' : Heap α κ ε) (hs : Sep h) (i : Nat) (a o' : Obj) (ha : h.objs[i]? = some a) (hobjs : h'.objs = h.objs.set i o')
    (hnext : h.next ≤ h'.next)
    (h1 : o'.items = a.items ∨ (h.next ≤ o'.items ∧ o'.items < h'.next))
    (h2 : o'.types = a.types ∨ (h.next ≤ o'.types ∧ o'.types < h'.next))
    (h3 : o'.errors = a.errors ∨ (h.next ≤ o'.errors ∧ o'.errors < h'.next)) : Sep h' := by
  have hba := view_mem_lt h hs i a ha
  have hil : i < h.objs.length := by
    by_contra hc; rw [List.getElem?_eq_none (by omega)] at ha; simp at ha
  have key : ∀ (j : Nat) (b : Obj), j ≠ i → h.objs[j]? = some b → o'.items ≠ b.items ∧ o'.types ≠ b.types ∧ o'.errors ≠ b.errors := by
    intro j b hj hb
    have := view_mem_lt h hs j b hb
    have := hs.apart i j a b (fun e => hj e.symm) ha hb
    omega
  refine ⟨?_, ?_⟩
  · intro o ho
    rw [hobjs] at ho
    rcases List.mem_or_eq_of_mem_set ho with ho | rfl
    · have := hs.bound o ho; omega
    · omega
  · intro x y p q hxy hp hq
    rw [hobjs, List.getElem?_set] at hp hq
    by_cases e1 : i = x
    · subst e1
      simp only [if_true, hil] at hp
      simp only [Option.some.injEq] at hp; subst hp
      simp only [hxy, if_false] at hq
      exact key y q (fun e => hxy e.symm) hq
    · simp only [e1, if_false] at hp
      by_cases e2 : i = y
      · subst e2
        simp only [if_true, hil, Option.some.injEq] at hq; subst hq
        have := key x p (fun e => e1 e.symm) hp
        exact ⟨this.1.symm, this.2.1.symm, this.2.2.symm⟩
      · simp only [e2, if_false] at hq
        exact hs.apart x y p q hxy hp hq

theorem copy_ok (h : Heap α κ ε) (hs : Sep h) (i : Nat) (o : Obj) (ho : h.objs[i]? = some o) :
    Sep (copy h i o) ∧ views (copy h i o) = views h ++ [view h o] := by
  have hbo := view_mem_lt h hs i o ho
  have hil : i < h.objs.length := by
    by_contra hc; rw [List.getElem?_eq_none (by omega)] at ho; simp at ho
  -- the objects that were there
  have hget : ∀ (j : Nat) (b : Obj), (h.objs.set i { o with types := h.next })[j]? = some b →
      (j = i ∧ b = { o with types := h.next }) ∨ (j ≠ i ∧ h.objs[j]? = some b) := by
    intro j b hb
    rw [List.getElem?_set] at hb
    by_cases e : i = j
    · subst e; simp only [if_true, hil, Option.some.injEq] at hb; exact Or.inl ⟨rfl, hb.symm⟩
    · simp only [e, if_false] at hb; exact Or.inr ⟨fun e' => e e'.symm, hb⟩
  refine ⟨⟨?_, ?_⟩, ?_⟩
  · intro p hp
    simp only [copy, List.mem_append, List.mem_singleton] at hp ⊢
    rcases hp with hp | rfl
    · rcases List.mem_or_eq_of_mem_set hp with hp | rfl
      · have := hs.bound p hp; omega
      · dsimp only; omega
    · dsimp only; omega
  · -- new object against an old one
    have hnew : ∀ (j : Nat) (b : Obj), (h.objs.set i { o with types := h.next })[j]? = some b →
        h.next ≠ b.items ∧ o.types ≠ b.types ∧ h.next ≠ b.errors := by
      intro j b hb
      rcases hget j b hb with ⟨_, rfl⟩ | ⟨hj, hb⟩
      · dsimp only; omega
      · have := view_mem_lt h hs j b hb
        have := hs.apart i j o b (fun e => hj e.symm) ho hb
        omega
    intro x y p q hxy hp hq
    simp only [copy] at hp hq
    rw [List.getElem?_append] at hp hq
    have hlast : ∀ (z : Nat) (r : Obj), ¬ z < (h.objs.set i { o with types := h.next }).length →
        [{ o with items := h.next, errors := h.next }][z - (h.objs.set i { o with types := h.next }).length]? = some r →
        z = (h.objs.set i { o with types := h.next }).length ∧ r = { o with items := h.next, errors := h.next } := by
      intro z r hz hr
      have : z - (h.objs.set i { o with types := h.next }).length = 0 := by
        by_contra hc; rw [List.getElem?_eq_none (by simp only [List.length_singleton]; omega)] at hr; simp at hr
      rw [this] at hr
      simp only [List.getElem?_cons_zero, Option.some.injEq] at hr
      exact ⟨by omega, hr.symm⟩
    by_cases h1 : x < (h.objs.set i { o with types := h.next }).length <;>
      by_cases h2 : y < (h.objs.set i { o with types := h.next }).length <;> simp only [h1, h2, if_true, if_false] at hp hq
    · rcases hget x p hp with ⟨hx, rfl⟩ | ⟨hx, hp⟩ <;> rcases hget y q hq with ⟨hy, rfl⟩ | ⟨hy, hq⟩
      · exact absurd (hx.trans hy.symm) hxy
      · have := view_mem_lt h hs y q hq
        have := hs.apart i y o q (fun e => hy e.symm) ho hq
        dsimp only; omega
      · have := view_mem_lt h hs x p hp
        have := hs.apart x i p o hx hp ho
        dsimp only; omega
      · exact hs.apart x y p q hxy hp hq
    · obtain ⟨_, rfl⟩ := hlast y q h2 hq
      have := hnew x p hp
      dsimp only; omega
    · obtain ⟨_, rfl⟩ := hlast x p h1 hp
      exact hnew y q hq
    · exact absurd ((hlast x p h1 hp).1.trans (hlast y q h2 hq).1.symm) hxy
  · apply views_append h _ (h.objs.set i { o with types := h.next }) _ rfl (by simp)
    · intro j b b' hb hb'
      have hb1 := view_mem_lt h hs j b hb
      rcases hget j b' hb' with ⟨rfl, rfl⟩ | ⟨hj, hb'⟩
      · rw [ho] at hb; simp only [Option.some.injEq] at hb; subst hb
        simp [view, copy, Function.update_of_ne (show o.items ≠ h.next by omega), Function.update_of_ne (show o.errors ≠ h.next by omega)]
      · rw [hb] at hb'; simp only [Option.some.injEq] at hb'; subst hb'
        simp [view, copy, Function.update_of_ne (show b.items ≠ h.next by omega), Function.update_of_ne (show b.types ≠ h.next by omega),
          Function.update_of_ne (show b.errors ≠ h.next by omega)]
    · simp [view, copy, Function.update_of_ne (show o.types ≠ h.next by omega)]

/-- A method that changes what is stored for one collection. -/
theorem change_ok (h h' : Heap α κ ε) (hs : Sep h) (i : Nat) (a o' : Obj) (ha : h.objs[i]? = some a) (hobjs : h'.objs = h.objs.set i o')
    (hnext : h.next ≤ h'.next) (hi1 : o'.items = a.items) (hi2 : o'.types = a.types)
    (hi3 : o'.errors = a.errors ∨ (h.next ≤ o'.errors ∧ o'.errors < h'.next))
    (hsets : ∀ n, n ≠ a.items → h'.sets n = h.sets n) (htys : ∀ n, n ≠ a.types → h'.tys n = h.tys n)
    (herrs : ∀ n, n < h.next → n ≠ a.errors → h'.errs n = h.errs n) (c : Coll α κ ε) (hc : view h' o' = c) :
    Sep h' ∧ views h' = (views h).set i c := by
  refine ⟨sep_set h h' hs i a o' ha hobjs hnext (Or.inl hi1) (Or.inl hi2) hi3, views_set h h' i o' hobjs ?_ c hc⟩
  intro j b hj hb
  have h1 := view_mem_lt h hs j b hb
  have h2 := hs.apart i j a b (fun e => hj e.symm) ha hb
  unfold view
  rw [hsets _ (fun e => h2.1 e.symm), htys _ (fun e => h2.2.1 e.symm), herrs _ (by omega) (fun e => h2.2.2 e.symm)]

theorem same_objs (h : Heap α κ ε) (i : Nat) (a : Obj) (ha : h.objs[i]? = some a) : h.objs = h.objs.set i a := by
  apply List.ext_getElem?
  intro j
  rw [List.getElem?_set]
  by_cases e : i = j
  · subst e
    have : i < h.objs.length := by
      by_contra hc; rw [List.getElem?_eq_none (by omega)] at ha; simp at ha
    simp only [if_true, this, ha]
  · simp [e]

/-- The in-place operators as one function on values. -/
def inplaceVal (s : Sym) (a b : Coll α κ ε) : Option (Coll α κ ε) :=
  match s with
  | .or => a.ior b
  | .and => a.iand b
  | .sub => a.isub b
  | .xor => a.ixor b

theorem inplace_ok (h : Heap α κ ε) (hs : Sep h) (s : Sym) (i : Nat) (a b : Obj) (ha : h.objs[i]? = some a) :
    Sep (inplace h s i a b).1 ∧
    (views (inplace h s i a b).1, (inplace h s i a b).2) =
      ((views h).set i (Coll.step.inplace (view h a) (inplaceVal s (view h a) (view h b))).1,
       (Coll.step.inplace (view h a) (inplaceVal s (view h a) (view h b))).2) := by
  by_cases hc : a.cls = b.cls
  · have hv : inplaceVal s (view h a) (view h b) = some (Coll.inplaceWith (" " ++ s.txt ++ "= ")
        (s.app (h.sets a.items) (h.sets b.items)) (view h a) (view h b)) := by
      cases s <;> simp only [inplaceVal, Coll.ior, Coll.iand, Coll.isub, Coll.ixor, view, hc, ne_eq, not_true, if_false] <;> rfl
    rw [hv]
    unfold inplace
    rw [if_neg (not_not.2 hc)]
    simp only [Coll.step.inplace]
    have := change_ok h { h with
       sets := Function.update h.sets a.items (s.app (h.sets a.items) (h.sets b.items))
       tys := Function.update h.tys a.types (PSet.union (h.tys a.types) (h.tys b.types))
       errs := if (b.bad || a.bad) = true then Function.update h.errs a.errors ((h.errs a.errors).update (h.errs b.errors)) else h.errs
       objs := h.objs.set i { a with name := a.name ++ (" " ++ s.txt ++ "= ") ++ b.name, bad := if (b.bad || a.bad) = true then true else a.bad } }
      hs i a _ ha rfl (le_refl _) rfl rfl (Or.inl rfl) (fun n hn => Function.update_of_ne hn _ _) (fun n hn => Function.update_of_ne hn _ _)
      (fun n _ hn => by dsimp only; split; exact Function.update_of_ne hn _ _; rfl)
      (Coll.inplaceWith (" " ++ s.txt ++ "= ") (s.app (h.sets a.items) (h.sets b.items)) (view h a) (view h b))
      (by
        simp only [view, Coll.inplaceWith, Function.update_self]
        by_cases e : (b.bad || a.bad) = true
        · simp [e]
        · simp [e])
    exact ⟨this.1, by rw [this.2]⟩
  · have hv : inplaceVal s (view h a) (view h b) = none := by
      cases s <;> simp [inplaceVal, Coll.ior, Coll.iand, Coll.isub, Coll.ixor, view, hc]
    rw [hv]
    simp only [inplace, hc, ne_eq, not_false_eq_true, if_true, Coll.step.inplace]
    refine ⟨hs, ?_⟩
    have := views_set h h i a (same_objs h i a ha) (fun _ _ _ _ => rfl) (view h a) rfl
    rw [← this]

theorem mutate_ok (isInst : α → Bool) (tyName : α → String) (choice : Nat) (h : Heap α κ ε) (hs : Sep h) (i : Nat) (a : Obj)
    (ha : h.objs[i]? = some a) (op : SetOp α Nat) :
    Sep (mutate isInst tyName choice h i a op).1 ∧
    (views (mutate isInst tyName choice h i a op).1, (mutate isInst tyName choice h i a op).2) =
      Spec.CollHeap.step isInst tyName choice (views h) (.mutate i op) := by
  have hsame : views h = (views h).set i (view h a) := views_set h h i a (same_objs h i a ha) (fun _ _ _ _ => rfl) (view h a) rfl
  have hva : (views h)[i]? = some (view h a) := by rw [views_get, ha]; rfl
  have hop : ∀ (j : Nat), (views h)[j]? = h.objs[j]?.map (view h) := views_get h
  simp only [Spec.CollHeap.step, hva]
  cases op with
  | add x =>
    simp only [mutate, Spec.CollHeap.operand, Coll.step, Coll.add]
    by_cases hx : isInst x = true
    · simp only [hx, if_true]
      have := change_ok h { h with sets := Function.update h.sets a.items (PSet.add (h.sets a.items) x)
                                   tys := Function.update h.tys a.types (PSet.add (h.tys a.types) (tyName x)) }
        hs i a a ha (same_objs h i a ha) (le_refl _) rfl rfl (Or.inl rfl) (fun n hn => Function.update_of_ne hn _ _)
        (fun n hn => Function.update_of_ne hn _ _) (fun _ _ _ => rfl)
        { view h a with items := PSet.add (h.sets a.items) x, types := PSet.add (h.tys a.types) (tyName x) } (by simp [view])
      exact ⟨this.1, by rw [this.2]; rfl⟩
    · simp only [hx, Bool.false_eq_true, if_false]
      exact ⟨hs, by rw [← hsame]⟩
  | discard x =>
    simp only [mutate, Spec.CollHeap.operand, Coll.step, Coll.discard]
    have := change_ok h { h with sets := Function.update h.sets a.items (PSet.discard (h.sets a.items) x) }
      hs i a a ha (same_objs h i a ha) (le_refl _) rfl rfl (Or.inl rfl) (fun n hn => Function.update_of_ne hn _ _)
      (fun _ _ => rfl) (fun _ _ _ => rfl) { view h a with items := PSet.discard (h.sets a.items) x } (by simp [view])
    exact ⟨this.1, by rw [this.2]; rfl⟩
  | remove x =>
    simp only [mutate, Spec.CollHeap.operand, Coll.step, Coll.remove]
    by_cases hx : x ∈ h.sets a.items
    · have hx' : x ∈ (view h a).items := hx
      simp only [hx, hx', if_true]
      have := change_ok h { h with sets := Function.update h.sets a.items (PSet.discard (h.sets a.items) x) }
        hs i a a ha (same_objs h i a ha) (le_refl _) rfl rfl (Or.inl rfl) (fun n hn => Function.update_of_ne hn _ _)
        (fun _ _ => rfl) (fun _ _ _ => rfl) { view h a with items := PSet.discard (h.sets a.items) x } (by simp [view])
      exact ⟨this.1, by rw [this.2]; rfl⟩
    · have hx' : x ∉ (view h a).items := hx
      simp only [hx, hx', if_false]
      exact ⟨hs, by rw [← hsame]⟩
  | clear =>
    simp only [mutate, Spec.CollHeap.operand, Coll.step, Coll.clear]
    have := change_ok h { h with sets := Function.update h.sets a.items []
                                 errs := Function.update h.errs h.next []
                                 next := h.next + 1
                                 objs := h.objs.set i { a with bad := false, errors := h.next } }
      hs i a { a with bad := false, errors := h.next } ha rfl (by simp) rfl rfl (Or.inr (by simp)) (fun n hn => Function.update_of_ne hn _ _)
      (fun _ _ => rfl) (fun n hn _ => Function.update_of_ne (by omega) _ _) { view h a with bad := false, errors := [], items := [] } (by simp [view])
    exact ⟨this.1, by rw [this.2]⟩
  | pop =>
    simp only [mutate, Spec.CollHeap.operand, Coll.step, Coll.pop]
    have hvi : (view h a).items = h.sets a.items := rfl
    rw [hvi]
    cases hx : (h.sets a.items)[choice % (h.sets a.items).length]? with
    | none => exact ⟨hs, by dsimp only; rw [← hsame]⟩
    | some x =>
      have := change_ok h { h with sets := Function.update h.sets a.items (PSet.discard (h.sets a.items) x) }
        hs i a a ha (same_objs h i a ha) (le_refl _) rfl rfl (Or.inl rfl) (fun n hn => Function.update_of_ne hn _ _)
        (fun _ _ => rfl) (fun _ _ _ => rfl) { view h a with items := PSet.discard (h.sets a.items) x } (by simp [view])
      exact ⟨this.1, by dsimp only; rw [this.2]⟩
  | ior j =>
    simp only [mutate, Spec.CollHeap.operand, hop]
    cases hj : h.objs[j]? with
    | none => exact ⟨hs, rfl⟩
    | some b => exact inplace_ok h hs .or i a b ha
  | iand j =>
    simp only [mutate, Spec.CollHeap.operand, hop]
    cases hj : h.objs[j]? with
    | none => exact ⟨hs, rfl⟩
    | some b => exact inplace_ok h hs .and i a b ha
  | isub j =>
    simp only [mutate, Spec.CollHeap.operand, hop]
    cases hj : h.objs[j]? with
    | none => exact ⟨hs, rfl⟩
    | some b => exact inplace_ok h hs .sub i a b ha
  | ixor j =>
    simp only [mutate, Spec.CollHeap.operand, hop]
    cases hj : h.objs[j]? with
    | none => exact ⟨hs, rfl⟩
    | some b => exact inplace_ok h hs .xor i a b ha

theorem binary_ok (h : Heap α κ ε) (hs : Sep h) (s : Sym) (a b : Obj) :
    Sep (binary h s a b).1 ∧
    ((binary h s a b).2 = true → ∃ r, Spec.CollHeap.result s (view h a) (view h b) = some r ∧ views (binary h s a b).1 = views h ++ [r]) ∧
    ((binary h s a b).2 = false → Spec.CollHeap.result s (view h a) (view h b) = none ∧ (binary h s a b).1 = h) := by
  by_cases hc : a.cls = b.cls
  · simp only [binary, hc, ne_eq, not_true, if_false]
    obtain ⟨h1, h2⟩ := alloc_ok h hs b.cls (a.name ++ (" " ++ s.txt ++ " ") ++ b.name) (b.bad || a.bad)
      (PSet.ofList (s.app (h.sets a.items) (h.sets b.items))) [] (if (b.bad || a.bad) = true then Dict.update [] (h.errs b.errors) else [])
    refine ⟨h1, fun _ => ⟨_, ?_, h2⟩, fun hf => by simp at hf⟩
    have hv : Spec.CollHeap.result s (view h a) (view h b) = some (Coll.binaryWith (" " ++ s.txt ++ " ")
        (s.app (h.sets a.items) (h.sets b.items)) (view h a) (view h b)) := by
      cases s <;> simp only [Spec.CollHeap.result, Coll.or, Coll.and, Coll.sub, Coll.xor, view, hc, ne_eq, not_true, if_false] <;> rfl
    rw [hv]
    simp only [Coll.binaryWith, Coll.fresh, view, hc]
    by_cases e : (b.bad || a.bad) = true
    · simp [e]
    · simp [e]
  · have hv : Spec.CollHeap.result s (view h a) (view h b) = none := by
      cases s <;> simp [Spec.CollHeap.result, Coll.or, Coll.and, Coll.sub, Coll.xor, view, hc]
    simp only [binary, hc, ne_eq, not_false_eq_true, if_true]
    exact ⟨hs, fun hf => by simp at hf, fun _ => ⟨hv, trivial⟩⟩

theorem step_ok (isInst : α → Bool) (tyName : α → String) (choice : Nat) (h : Heap α κ ε) (hs : Sep h) (op : HOp α) :
    Sep (step isInst tyName choice h op).1 ∧
    (views (step isInst tyName choice h op).1, (step isInst tyName choice h op).2) =
      Spec.CollHeap.step isInst tyName choice (views h) op := by
  cases op with
  | make cls items name =>
    obtain ⟨h1, h2⟩ := alloc_ok h hs cls name false (PSet.ofList items) [] []
    exact ⟨h1, by simp only [step, Spec.CollHeap.step]; rw [h2]; rfl⟩
  | copy i =>
    simp only [step, Spec.CollHeap.step, views_get]
    cases ho : h.objs[i]? with
    | none => exact ⟨hs, rfl⟩
    | some o =>
      obtain ⟨h1, h2⟩ := copy_ok h hs i o ho
      exact ⟨h1, by simp only [Option.map_some]; rw [h2]⟩
  | binary s i j =>
    simp only [step, Spec.CollHeap.step, views_get]
    cases ha : h.objs[i]? with
    | none => exact ⟨hs, rfl⟩
    | some a =>
      cases hb : h.objs[j]? with
      | none => exact ⟨hs, rfl⟩
      | some b =>
        obtain ⟨h1, h2, h3⟩ := binary_ok h hs s a b
        refine ⟨h1, ?_⟩
        simp only [Option.map_some]
        cases hf : (binary h s a b).2 with
        | true =>
          obtain ⟨r, e1, e2⟩ := h2 hf
          rw [e1, e2]; rfl
        | false =>
          obtain ⟨e1, e2⟩ := h3 hf
          rw [e1, e2]; rfl
  | mutate i op =>
    simp only [step]
    cases ha : h.objs[i]? with
    | none =>
      refine ⟨hs, ?_⟩
      simp only [Spec.CollHeap.step, views_get, ha]; rfl
    | some a => exact mutate_ok isInst tyName choice h hs i a ha op

theorem run_ok (isInst : α → Bool) (tyName : α → String) (sched : Nat → Nat) (ops : List (HOp α)) (n : Nat) (h : Heap α κ ε) (hs : Sep h) :
    Sep (run isInst tyName sched n h ops).1 ∧
    (views (run isInst tyName sched n h ops).1, (run isInst tyName sched n h ops).2) =
      Spec.CollHeap.run isInst tyName sched n (views h) ops := by
  induction ops generalizing n h with
  | nil => exact ⟨hs, rfl⟩
  | cons op ops ih =>
    obtain ⟨h1, h2⟩ := step_ok isInst tyName (sched n) h hs op
    obtain ⟨h3, h4⟩ := ih (n + 1) _ h1
    refine ⟨h3, ?_⟩
    simp only [run, Spec.CollHeap.run]
    rw [← h2]
    dsimp only
    rw [← h4]

theorem sep_empty : Sep (empty : Heap α κ ε) := ⟨fun o ho => by simp [empty] at ho, fun i j a b _ ha => by simp [empty] at ha⟩

/-- C62: any history of making, copying, combining and changing collections, starting from none, shows at every point the contents and the
outcomes it has when every collection is a value of its own. -/
theorem C62_share_nothing (isInst : α → Bool) (tyName : α → String) (sched : Nat → Nat) (ops : List (HOp α)) :
    (views (run isInst tyName sched 0 (empty : Heap α κ ε) ops).1, (run isInst tyName sched 0 (empty : Heap α κ ε) ops).2) =
      Spec.CollHeap.run isInst tyName sched 0 [] ops :=
  (run_ok isInst tyName sched ops 0 empty sep_empty).2

/-- The calls that change the collection at position `i`. -/
def Changes (i : Nat) : HOp α → Prop
  | .mutate j _ => j = i
  | _ => False

theorem spec_step_other (isInst : α → Bool) (tyName : α → String) (choice : Nat) (l : List (Coll α κ ε)) (i : Nat) (c : Coll α κ ε)
    (hc : l[i]? = some c) (op : HOp α) (hop : ¬ Changes i op) : (Spec.CollHeap.step isInst tyName choice l op).1[i]? = some c := by
  have hil : i < l.length := by
    by_contra hn; rw [List.getElem?_eq_none (by omega)] at hc; simp at hc
  have happ : ∀ x : Coll α κ ε, (l ++ [x])[i]? = some c := by
    intro x; rw [List.getElem?_append_left hil, hc]
  cases op with
  | make cls items name => exact happ _
  | copy j =>
    simp only [Spec.CollHeap.step]
    cases l[j]? with
    | none => exact hc
    | some x => exact happ x
  | binary s j k =>
    simp only [Spec.CollHeap.step]
    cases l[j]? with
    | none => exact hc
    | some a =>
      cases l[k]? with
      | none => exact hc
      | some b =>
        simp only
        cases Spec.CollHeap.result s a b with
        | none => exact hc
        | some r => exact happ r
  | mutate j op =>
    have hj : j ≠ i := hop
    simp only [Spec.CollHeap.step]
    cases l[j]? with
    | none => exact hc
    | some a =>
      cases Spec.CollHeap.operand l op with
      | none => exact hc
      | some op' => simp only; rw [List.getElem?_set_ne hj, hc]

/-- C62, in particular: whatever has been done before, later calls that change other collections, copy this one or take it as an operand
leave its members, recorded types, name, mark and errors as they were. -/
theorem C62_others_untouched (isInst : α → Bool) (tyName : α → String) (sched sched' : Nat → Nat) (before later : List (HOp α)) (i : Nat)
    (c : Coll α κ ε) (hc : (views (run isInst tyName sched 0 (empty : Heap α κ ε) before).1)[i]? = some c)
    (hl : ∀ op ∈ later, ¬ Changes i op) (n : Nat) :
    (views (run isInst tyName sched' n (run isInst tyName sched 0 (empty : Heap α κ ε) before).1 later).1)[i]? = some c := by
  have hs := (run_ok isInst tyName sched before 0 (empty : Heap α κ ε) sep_empty).1
  have h2 := (run_ok isInst tyName sched' later n _ hs).2
  have h3 : views (run isInst tyName sched' n (run isInst tyName sched 0 (empty : Heap α κ ε) before).1 later).1 =
      (Spec.CollHeap.run isInst tyName sched' n (views (run isInst tyName sched 0 (empty : Heap α κ ε) before).1) later).1 := by rw [← h2]
  rw [h3]
  clear h2 h3
  generalize views (run isInst tyName sched 0 (empty : Heap α κ ε) before).1 = l at hc
  induction later generalizing l n with
  | nil => exact hc
  | cons op ops ih =>
    exact ih (fun op hop => hl op (by simp [hop])) _ _ (spec_step_other isInst tyName _ l i c hc op (hl op (by simp)))

/-- C62, copies: a copy shows what the original shows at that moment. -/
theorem C62_copy_equal (isInst : α → Bool) (tyName : α → String) (sched : Nat → Nat) (before : List (HOp α)) (i : Nat) (c : Coll α κ ε)
    (hc : (views (run isInst tyName sched 0 (empty : Heap α κ ε) before).1)[i]? = some c) (choice : Nat) :
    views (step isInst tyName choice (run isInst tyName sched 0 (empty : Heap α κ ε) before).1 (.copy i)).1 =
      views (run isInst tyName sched 0 (empty : Heap α κ ε) before).1 ++ [c] := by
  have hs := (run_ok isInst tyName sched before 0 (empty : Heap α κ ε) sep_empty).1
  have h2 := (step_ok isInst tyName choice _ hs (.copy i)).2
  rw [show views (step isInst tyName choice (run isInst tyName sched 0 (empty : Heap α κ ε) before).1 (.copy i)).1 =
    (Spec.CollHeap.step isInst tyName choice (views (run isInst tyName sched 0 (empty : Heap α κ ε) before).1) (.copy i)).1 by rw [← h2]]
  simp only [Spec.CollHeap.step, hc]

private def hist : List (HOp Nat) :=
  [.make "RC" [1, 2] "a", .copy 0, .mutate 1 (.add 3), .mutate 0 (.discard 1), .binary .or 0 1, .mutate 2 .clear, .mutate 0 (.ixor 0),
   .make "GC" [9] "g", .mutate 1 (.ior 3)]

example : ((views (run (fun _ => true) (fun _ => "T") (fun _ => 0) 0 (empty : Heap Nat Nat Nat) hist).1).map Coll.items,
    (run (fun _ => true) (fun _ => "T") (fun _ => 0) 0 (empty : Heap Nat Nat Nat) hist).2) =
    ([[], [1, 2, 3], [], [9]], [.done, .done, .done, .done, .done, .done, .done, .done, .notImplemented]) := by decide +kernel

example : ∀ op ∈ [HOp.mutate 0 (.add 4), .copy 1, .mutate 2 (.ior 1)], ¬ Changes (α := Nat) 1 op := by
  simp [Changes]

end Verif.Props.CollHeap
