import Verif.Model.CollectionMixed
import Verif.Props.Collection

/-! # C91: collections made from iterables, and operators on collections and ordinary sets -/
set_option autoImplicit false
set_option linter.unusedSectionVars false
set_option linter.unusedSimpArgs false

namespace Verif.Props.CollectionMixed
open Verif.Py Verif.Model Verif.Model.CollectionMixed

variable {α κ ε : Type} [DecidableEq α] [DecidableEq κ]

/-- A collection as the classes keep it: of its class, without repetitions, and holding only what the class allows. -/
structure Proper (isInst : Kind → α → Bool) (k : Kind) (c : Coll α κ ε) : Prop where
  cls : c.cls = k.cls
  nodup : c.items.Nodup
  inst : ∀ x ∈ c.items, isInst k x = true

/-- The exception a class raises for an element that is not allowed. -/
def rejects : Kind → Err
  | .records => .rcTypeError
  | .grants => .grantCollectionException

/-- The name of a collection that the operators of sets make. -/
def madeName : Kind → String
  | .records => ""
  | .grants => "Grants-from-a-generator"

/-- The operator returned a collection of the class without elements, and with the name of one made from a generator. -/
def GivesEmpty (k : Kind) (r : Except Err (Val α κ ε)) : Prop := ∃ c, r = .ok (.coll k c) ∧ c.cls = k.cls ∧ c.items = [] ∧ c.name = madeName k

/-- The operator returned a collection of the class with exactly these elements. -/
def Gives (k : Kind) (r : Except Err (Val α κ ε)) (P : α → Prop) : Prop :=
  ∃ c, r = .ok (.coll k c) ∧ c.cls = k.cls ∧ c.items.Nodup ∧ ∀ x, x ∈ c.items ↔ P x

private theorem ofList_nil : PSet.ofList ([] : List α) = [] := rfl

private theorem make_records (isInst : Kind → α → Bool) (name typeName : String) (cached : Bool) (l : List α) :
    make (κ := κ) (ε := ε) isInst .records name typeName cached (.stored l) = (if l.all (isInst .records) = true then .ok (Coll.fresh "RecordCollection" l name) else .error .rcTypeError) ∧
    make (κ := κ) (ε := ε) isInst .records name typeName cached (.once l) = (if l.all (isInst .records) = true then .ok (Coll.fresh "RecordCollection" [] name) else .error .rcTypeError) :=
  ⟨rfl, rfl⟩

private theorem make_grants (isInst : Kind → α → Bool) (name typeName : String) (cached : Bool) (l : List α) :
    make (κ := κ) (ε := ε) isInst .grants name typeName cached (.stored l) = (if l.all (isInst .grants) = true then
      if cached = true then .error .unboundLocalError else .ok (Coll.fresh "GrantCollection" l (if name = "" then "Grants-from-a-" ++ typeName else name)) else .error .grantCollectionException) ∧
    make (κ := κ) (ε := ε) isInst .grants name typeName cached (.once l) = (if l.all (isInst .grants) = true then
      if cached = true then .error .unboundLocalError else .ok (Coll.fresh "GrantCollection" [] (if name = "" then "Grants-from-a-" ++ typeName else name)) else .error .grantCollectionException) :=
  ⟨rfl, rfl⟩

/-! ## The constructors -/

/-- C91, constructors, part: made from something that stores its elements, such as a list, a set or another collection, a collection holds exactly these elements,
has no errors, and the name given (grants: or, when none is given, one that tells the type of the argument); an element that is not allowed
raises the exception of the class. Missing: iterators (`C91_iterator_empty`), and grants with `cached` (`C91_cached`). -/
theorem C91_stored_partial (isInst : Kind → α → Bool) (k : Kind) (name typeName : String) (cached : Bool) (l : List α) :
    (∀ c : Coll α κ ε, make isInst k name typeName cached (.stored l) = .ok c →
      (∀ x, x ∈ c.items ↔ x ∈ l) ∧ c.items.Nodup ∧ c.cls = k.cls ∧ c.bad = false ∧ c.errors = [] ∧ c.types = [] ∧
      (name ≠ "" ∨ k = .records → c.name = name) ∧ (name = "" → k = .grants → c.name = "Grants-from-a-" ++ typeName)) ∧
    ((∃ c : Coll α κ ε, make isInst k name typeName cached (.stored l) = .ok c) ↔ (∀ x ∈ l, isInst k x = true) ∧ (k = .records ∨ cached = false)) ∧
    ((∃ x ∈ l, isInst k x = false) → make (κ := κ) (ε := ε) isInst k name typeName cached (.stored l) = .error (rejects k)) := by
  have hall : ∀ k, l.all (isInst k) = true ↔ ∀ x ∈ l, isInst k x = true := fun k => by simp
  refine ⟨?_, ?_, ?_⟩
  · intro c hc
    cases k <;> simp only [make_records, make_grants] at hc
    · by_cases h : l.all (isInst .records) = true
      · rw [if_pos h] at hc
        cases hc
        simp [Coll.fresh, PSet.mem_ofList, PSet.nodup_ofList, Kind.cls]
      · rw [if_neg h] at hc; cases hc
    · by_cases h : l.all (isInst .grants) = true
      · rw [if_pos h] at hc
        by_cases h2 : cached = true
        · rw [if_pos h2] at hc; cases hc
        · rw [if_neg h2] at hc
          cases hc
          simp [Coll.fresh, PSet.mem_ofList, PSet.nodup_ofList, Kind.cls]
          exact ⟨fun h h' => absurd h' h, fun h h' => absurd h h'⟩
      · rw [if_neg h] at hc; cases hc
  · cases k <;> simp only [make_records, make_grants]
    · by_cases h : l.all (isInst .records) = true
      · rw [if_pos h]; simpa using (hall _).1 h
      · rw [if_neg h]; simpa using fun h' => h ((hall _).2 h')
    · by_cases h : l.all (isInst .grants) = true
      · rw [if_pos h]; cases cached <;> simpa using (hall _).1 h
      · rw [if_neg h]
        constructor
        · rintro ⟨c, hc⟩; cases hc
        · rintro ⟨h', _⟩; exact absurd ((hall _).2 h') h
  · rintro ⟨x, hx, hf⟩
    have h : ¬ l.all (isInst k) = true := fun h => by rw [(hall _).1 h x hx] at hf; cases hf
    cases k <;> simp only [make_records, make_grants] <;> rw [if_neg h] <;> rfl

example : (make (κ := Nat) (ε := Nat) (fun _ n => decide (n < 10)) .records "r" "list" true (.stored [3, 4, 3])).toOption.map (·.items) = some [3, 4] ∧
    (make (κ := Nat) (ε := Nat) (fun _ n => decide (n < 10)) .grants "" "list" false (.stored [3, 4, 3])).toOption.map (·.name) = some "Grants-from-a-list" ∧
    (make (κ := Nat) (ε := Nat) (fun _ n => decide (n < 10)) .grants "" "list" false (.stored [3, 40])).toOption.isNone := by decide

/-- C91, the constructors lose what iterators give: made from a generator or another iterator a collection is empty, however many records or grants it gives. -/
theorem C91_iterator_empty (isInst : Kind → α → Bool) (k : Kind) (name typeName : String) (l : List α) (h : ∀ x ∈ l, isInst k x = true) :
    ∃ c : Coll α κ ε, make isInst k name typeName false (.once l) = .ok c ∧ c.items = [] ∧ c.bad = false ∧ c.errors = [] := by
  have hall : l.all (isInst k) = true := by simpa using h
  cases k <;> simp only [make, Iter.pass, hall, if_true] <;> simp [Coll.fresh, ofList_nil]

example : ∃ c : Coll Nat Nat Nat, make (fun _ n => decide (n < 10)) .records "" "generator" false (.once [3, 4]) = .ok c ∧ c.items = [] ∧ c.bad = false ∧ c.errors = [] :=
  C91_iterator_empty _ .records "" "generator" [3, 4] (by decide)

/-- C91, `cached` without a directory: collections of records are made as without it, collections of grants raise. -/
theorem C91_cached (isInst : Kind → α → Bool) (name typeName : String) (it : Iter α) :
    make (κ := κ) (ε := ε) isInst .records name typeName true it = make isInst .records name typeName false it ∧
    makeEmpty (α := α) (κ := κ) (ε := ε) .records name true = makeEmpty .records name false ∧
    makeEmpty (α := α) (κ := κ) (ε := ε) .grants name true = .error .unboundLocalError ∧
    ((∀ x ∈ it.pass.1, isInst .grants x = true) → make (κ := κ) (ε := ε) isInst .grants name typeName true it = .error .unboundLocalError) := by
  refine ⟨rfl, rfl, rfl, fun h => ?_⟩
  have hall : it.pass.1.all (isInst .grants) = true := by simpa using h
  simp only [make, hall, if_true]

/-- C91: a collection made of nothing is empty and named "Empty" unless a name is given. -/
theorem C91_nothing (k : Kind) (name : String) : ∃ c : Coll α κ ε, makeEmpty k name false = .ok c ∧ c.items = [] ∧ c.cls = k.cls ∧ c.bad = false ∧
    (name = "" → c.name = "Empty") ∧ (name ≠ "" → c.name = name) := by
  refine ⟨_, if_neg (by simp), rfl, rfl, rfl, ?_, ?_⟩
  · intro h; exact if_pos h
  · intro h; exact if_neg h

/-! ## Operators -/

private theorem fromGenerator_ok (isInst : Kind → α → Bool) (k : Kind) (l : List α) (h : ∀ x ∈ l, isInst k x = true) :
    GivesEmpty k (fromGenerator (κ := κ) (ε := ε) isInst k l) := by
  have hall : l.all (isInst k) = true := by simpa using h
  unfold fromGenerator GivesEmpty
  cases k <;> simp only [make, Iter.pass, hall, if_true] <;> exact ⟨_, rfl, rfl, rfl, by simp [Coll.fresh, madeName]⟩

private theorem fromGenerator_err (isInst : Kind → α → Bool) (k : Kind) (l : List α) (h : ∃ x ∈ l, isInst k x = false) :
    fromGenerator (κ := κ) (ε := ε) isInst k l = .error (rejects k) := by
  have hall : ¬ l.all (isInst k) = true := by
    intro h'
    obtain ⟨x, hx, hf⟩ := h
    rw [List.all_eq_true] at h'
    rw [h' x hx] at hf; cases hf
  unfold fromGenerator
  cases k <;> simp only [make_records, make_grants, if_neg hall] <;> rfl

private theorem empty_not (k : Kind) (c : Coll α κ ε) (h : c.items = []) (x : α) : x ∉ c.items := by simp [h]

/-- C91, an ordinary set on the left: with `|`, `&`, `-` and `|=` the result is an empty collection of the class on the right, whatever the two hold, as long as no object that
the class rejects gets into it; `^` raises `TypeError`. -/
theorem C91_left_set (isInst : Kind → α → Bool) (k : Kind) (s : List α) (c : Coll α κ ε) (hc : Proper isInst k c) :
    ((∀ x ∈ s, isInst k x = true) → GivesEmpty k (opOr isInst (.set s) (.coll k c)) ∧ GivesEmpty k (assignOr isInst s (.coll k c)) ∧
      GivesEmpty k (opSub isInst (.set s) (.coll k c))) ∧
    ((∃ x ∈ s, isInst k x = false) → opOr isInst (.set s) (.coll k c) = .error (rejects k) ∧ assignOr isInst s (.coll k c) = .error (rejects k) ∧
      opSub isInst (.set s) (.coll k c) = .error (rejects k)) ∧
    GivesEmpty k (opAnd isInst (.set s) (.coll k c)) ∧
    opXor isInst (.set s) (.coll k c) = .error .typeError := by
  refine ⟨fun h => ?_, fun h => ?_, ?_, rfl⟩
  · have h1 : GivesEmpty k (opOr isInst (.set s) (.coll k c)) := by
      refine fromGenerator_ok isInst k _ (fun x hx => ?_)
      rcases List.mem_append.1 hx with h' | h'
      · exact hc.inst x h'
      · exact h x h'
    exact ⟨h1, h1, fromGenerator_ok isInst k _ (fun x hx => h x (List.mem_filter.1 hx).1)⟩
  · obtain ⟨x, hx, hf⟩ := h
    have h1 : opOr isInst (.set s) (.coll k c) = .error (rejects k) := fromGenerator_err isInst k _ ⟨x, List.mem_append.2 (Or.inr hx), hf⟩
    refine ⟨h1, h1, fromGenerator_err isInst k _ ⟨x, List.mem_filter.2 ⟨hx, ?_⟩, hf⟩⟩
    have : x ∉ c.items := fun hm => by rw [hc.inst x hm] at hf; cases hf
    simp [this]
  · refine fromGenerator_ok isInst k _ (fun x hx => ?_)
    have := (List.mem_filter.1 hx).2
    exact hc.inst x (by simpa using this)

/-- C91, an ordinary set on the right: all four operators raise `TypeError`. -/
theorem C91_right_set (isInst : Kind → α → Bool) (k : Kind) (s : List α) (c : Coll α κ ε) :
    opOr isInst (.coll k c) (.set s) = .error .typeError ∧ opAnd isInst (.coll k c) (.set s) = .error .typeError ∧
    opSub isInst (.coll k c) (.set s) = .error .typeError ∧ opXor isInst (.coll k c) (.set s) = .error .typeError := ⟨rfl, rfl, rfl, rfl⟩

/-- C91, operators, part: with two collections of one class the operators give the collections of that class with the members of the union, intersection, difference
and symmetric difference. Missing: ordinary sets and collections of the other class (`C91_left_set`, `C91_right_set`, `C91_other_class`). -/
theorem C91_same_class_partial (isInst : Kind → α → Bool) (k : Kind) (a b : Coll α κ ε) (ha : Proper isInst k a) (hb : Proper isInst k b) :
    Gives k (opOr isInst (.coll k a) (.coll k b)) (fun x => x ∈ a.items ∨ x ∈ b.items) ∧
    Gives k (opAnd isInst (.coll k a) (.coll k b)) (fun x => x ∈ a.items ∧ x ∈ b.items) ∧
    Gives k (opSub isInst (.coll k a) (.coll k b)) (fun x => x ∈ a.items ∧ x ∉ b.items) ∧
    Gives k (opXor isInst (.coll k a) (.coll k b)) (fun x => (x ∈ a.items ∧ x ∉ b.items) ∨ (x ∈ b.items ∧ x ∉ a.items)) := by
  obtain ⟨⟨r1, e1, c1, n1, m1⟩, ⟨r2, e2, c2, n2, m2⟩, ⟨r3, e3, c3, n3, m3⟩, ⟨r4, e4, c4, n4, m4⟩⟩ :=
    C01_binary_members a b (ha.cls.trans hb.cls.symm) ha.nodup hb.nodup
  simp only [Coll.contains, decide_eq_true_eq] at m1 m2 m3 m4
  refine ⟨⟨r1, ?_, c1.trans ha.cls, n1, m1⟩, ⟨r2, ?_, c2.trans ha.cls, n2, m2⟩, ⟨r3, ?_, c3.trans ha.cls, n3, m3⟩, ⟨r4, ?_, c4.trans ha.cls, n4, m4⟩⟩
  · simp only [opOr, e1, given]
  · simp only [opAnd, e2, given]
  · simp only [opSub, e3, given]
  · simp only [opXor, e4, given]

private theorem cls_ne {k k' : Kind} (h : k ≠ k') : k.cls ≠ k'.cls := by
  cases k <;> cases k' <;> first | exact absurd rfl h | decide

/-- C91, collections of different classes: `&` gives the empty collection of the class on the right. `|` and `-` raise the exception of the class on the right if there is anything in the
collection on the left, and otherwise give an empty collection, so `|` loses the members of the right one. `^` raises unless both are empty. -/
theorem C91_other_class (isInst : Kind → α → Bool) (hex : ∀ k k' x, isInst k x = true → isInst k' x = true → k = k')
    (k k' : Kind) (hk : k ≠ k') (a b : Coll α κ ε) (ha : Proper isInst k a) (hb : Proper isInst k' b) :
    GivesEmpty k' (opAnd isInst (.coll k a) (.coll k' b)) ∧
    (a.items = [] → GivesEmpty k' (opOr isInst (.coll k a) (.coll k' b)) ∧ GivesEmpty k' (opSub isInst (.coll k a) (.coll k' b))) ∧
    (a.items ≠ [] → opOr isInst (.coll k a) (.coll k' b) = .error (rejects k') ∧ opSub isInst (.coll k a) (.coll k' b) = .error (rejects k')) ∧
    (a.items = [] → b.items = [] → GivesEmpty k' (opXor isInst (.coll k a) (.coll k' b))) ∧
    (b.items ≠ [] → opXor isInst (.coll k a) (.coll k' b) = .error (rejects k)) ∧
    (a.items ≠ [] → b.items = [] → opXor isInst (.coll k a) (.coll k' b) = .error (rejects k')) := by
  have hcls : a.cls ≠ b.cls := by rw [ha.cls, hb.cls]; exact cls_ne hk
  have hnot : ∀ (p q : Kind) (c d : Coll α κ ε), p ≠ q → Proper isInst p c → Proper isInst q d → ∀ x ∈ c.items, isInst q x = false ∧ x ∉ d.items := by
    intro p q c d hpq hc hd x hx
    have h1 : isInst q x = false := by
      cases hq : isInst q x with
      | false => rfl
      | true => exact absurd (hex p q x (hc.inst x hx) hq) hpq
    exact ⟨h1, fun hm => by rw [hd.inst x hm] at h1; cases h1⟩
  have sub_gen : ∀ (p q : Kind) (c d : Coll α κ ε), p ≠ q → Proper isInst p c → Proper isInst q d →
      (c.items = [] → GivesEmpty q (opSub isInst (.coll p c) (.coll q d))) ∧ (c.items ≠ [] → opSub isInst (.coll p c) (.coll q d) = .error (rejects q)) := by
    intro p q c d hpq hc hd
    have hcd : c.cls ≠ d.cls := by rw [hc.cls, hd.cls]; exact cls_ne hpq
    have e : opSub isInst (.coll p c) (.coll q d) = rsub isInst q d c.items := by simp only [opSub, Coll.sub, if_pos hcd, given]
    rw [e]
    refine ⟨fun h => ?_, fun h => ?_⟩
    · rw [h]; exact fromGenerator_ok isInst q _ (by simp)
    · obtain ⟨x, hx⟩ := List.exists_mem_of_ne_nil _ h
      have := hnot p q c d hpq hc hd x hx
      exact fromGenerator_err isInst q _ ⟨x, List.mem_filter.2 ⟨hx, by simp [this.2]⟩, this.1⟩
  have or_gen : ∀ (p q : Kind) (c d : Coll α κ ε), c.cls ≠ d.cls → opOr isInst (.coll p c) (.coll q d) = ror isInst q d c.items := by
    intro p q c d hcd
    simp only [opOr, Coll.or, if_pos hcd, given]
  have exor : opXor isInst (.coll k a) (.coll k' b) = rxor isInst (.coll k' b) (.coll k a) := by
    simp only [opXor, Coll.xor, if_pos hcls, given]
  refine ⟨?_, fun h => ⟨?_, (sub_gen k k' a b hk ha hb).1 h⟩, fun h => ⟨?_, (sub_gen k k' a b hk ha hb).2 h⟩, fun h h' => ?_, fun h => ?_, fun h h' => ?_⟩
  · have e : opAnd isInst (.coll k a) (.coll k' b) = rand isInst k' b a.items := by simp only [opAnd, Coll.and, if_pos hcls, given]
    rw [e]
    refine fromGenerator_ok isInst k' _ (fun x hx => ?_)
    have := List.mem_filter.1 hx
    exact hb.inst x (by simpa using this.2)
  · rw [or_gen _ _ _ _ hcls, h]
    exact fromGenerator_ok isInst k' _ (by simpa using hb.inst)
  · rw [or_gen _ _ _ _ hcls]
    obtain ⟨x, hx⟩ := List.exists_mem_of_ne_nil _ h
    exact fromGenerator_err isInst k' _ ⟨x, List.mem_append.2 (Or.inr hx), (hnot k k' a b hk ha hb x hx).1⟩
  · rw [exor]
    obtain ⟨c1, e1, d1, i1⟩ := (sub_gen k' k b a hk.symm hb ha).1 h'
    obtain ⟨c2, e2, d2, i2⟩ := (sub_gen k k' a b hk ha hb).1 h
    simp only [rxor, e1, e2]
    rw [or_gen _ _ _ _ (by rw [d1, d2]; exact cls_ne hk)]
    refine fromGenerator_ok isInst k' _ ?_
    simp [i1, i2]
  · rw [exor]
    simp only [rxor, (sub_gen k' k b a hk.symm hb ha).2 h]
  · rw [exor]
    obtain ⟨c1, e1, d1, i1⟩ := (sub_gen k' k b a hk.symm hb ha).1 h'
    simp only [rxor, e1, (sub_gen k k' a b hk ha hb).2 h]

/-! ## Comparisons -/

/-- C91, comparisons: `<` and `<=` of two collections of one class compare their sizes, not what they hold. With an ordinary set or a collection of the other class `<=` raises, `<` raises if
the left operand has fewer elements and is false otherwise, and `==` is false. `==` of two collections of one class says whether they have the same members. -/
theorem C91_compare (isInst : Kind → α → Bool) (k k' : Kind) (hk : k ≠ k') (a b c : Coll α κ ε) (s : List α)
    (ha : Proper isInst k a) (hb : Proper isInst k b) (hc : Proper isInst k' c) :
    opLt (.coll k a) (.coll k b) = .ok (decide (a.items.length < b.items.length)) ∧
    opLe (.coll k a) (.coll k b) = .ok (decide (a.items.length ≤ b.items.length)) ∧
    (opEq (.coll k a) (.coll k b) = true ↔ ∀ x, x ∈ a.items ↔ x ∈ b.items) ∧
    (∀ y : Val α κ ε, y = .coll k' c ∨ y = .set s →
      opLe (.coll k a) y = .error .typeError ∧ opLe y (.coll k a) = .error .typeError ∧
      opEq (.coll k a) y = false ∧ opEq y (.coll k a) = false ∧
      opLt (.coll k a) y = (if a.items.length < y.items.length then .error .typeError else .ok false) ∧
      opLt y (.coll k a) = (if y.items.length < a.items.length then .error .typeError else .ok false)) := by
  have hab : a.cls = b.cls := ha.cls.trans hb.cls.symm
  have hac : a.cls ≠ c.cls := by rw [ha.cls, hc.cls]; exact cls_ne hk
  refine ⟨?_, ?_, ?_, ?_⟩
  · by_cases h : a.items.length < b.items.length
    · have h' := Nat.le_of_lt h
      simp [opLt, strict, Coll.le, Coll.len, hab, h, h']
    · simp [opLt, strict, Coll.le, Coll.len, hab, h]
  · simp only [opLe, Coll.le, if_neg (not_not.2 hab)]; rfl
  · simp only [opEq, Coll.eq, if_neg (not_not.2 hab), Option.getD_some, Bool.and_eq_true, decide_eq_true_eq, List.all_eq_true]
    constructor
    · rintro ⟨hl, hs⟩ x
      refine ⟨hs x, fun hx => ?_⟩
      have hsp : a.items.Subperm b.items := List.subperm_of_subset ha.nodup hs
      exact (hsp.perm_of_length_le (Nat.le_of_eq hl.symm)).mem_iff.2 hx
    · intro h
      exact ⟨((List.perm_ext_iff_of_nodup ha.nodup hb.nodup).2 h).length_eq, fun x hx => (h x).1 hx⟩
  · rintro y (rfl | rfl)
    · refine ⟨?_, ?_, ?_, ?_, ?_, ?_⟩
      · simp [opLe, Coll.le, Coll.ge, hac, hac.symm]
      · simp [opLe, Coll.le, Coll.ge, hac, hac.symm]
      · simp [opEq, Coll.eq, hac]
      · simp [opEq, Coll.eq, hac.symm]
      · by_cases h : a.items.length < c.items.length
        · simp [opLt, strict, Coll.le, Coll.ge, Coll.len, Val.items, hac, hac.symm, h]
        · simp [opLt, strict, Coll.le, Coll.ge, Coll.len, Val.items, hac, hac.symm, h]
      · by_cases h : c.items.length < a.items.length
        · simp [opLt, strict, Coll.le, Coll.ge, Coll.len, Val.items, hac, hac.symm, h]
        · simp [opLt, strict, Coll.le, Coll.ge, Coll.len, Val.items, hac, hac.symm, h]
    · refine ⟨rfl, rfl, rfl, rfl, ?_, ?_⟩
      · by_cases h : a.items.length < s.length
        · simp [opLt, strict, Coll.len, Val.items, h]
        · simp [opLt, strict, Coll.len, Val.items, h]
      · by_cases h : s.length < a.items.length
        · simp [opLt, strict, Coll.len, Val.items, h]
        · simp [opLt, strict, Coll.len, Val.items, h]

/-- C91: what the operators give for a collection and a set is an ordinary set, and with ordinary sets on both sides they are those of Python: the strict
comparison holds for proper subsets, and two sets are equal when they have the same members. -/
theorem C91_plain_sets (isInst : Kind → α → Bool) (s t : List α) (hs : s.Nodup) :
    (∃ b, opLt (.set s : Val α κ ε) (.set t) = .ok b ∧ (b = true ↔ (∀ x ∈ s, x ∈ t) ∧ s.length < t.length)) ∧
    (∃ b, opLe (.set s : Val α κ ε) (.set t) = .ok b ∧ (b = true ↔ ∀ x ∈ s, x ∈ t)) ∧
    (t.Nodup → (opLt (.set s : Val α κ ε) (.set t) = .ok true ↔ (∀ x ∈ s, x ∈ t) ∧ ∃ x ∈ t, x ∉ s)) ∧
    (opEq (.set s : Val α κ ε) (.set t) = true ↔ ∀ x, x ∈ s ↔ x ∈ t) ∧
    (∃ u, opOr isInst (.set s : Val α κ ε) (.set t) = .ok (.set u) ∧ ∀ x, x ∈ u ↔ x ∈ s ∨ x ∈ t) ∧
    (∃ u, opAnd isInst (.set s : Val α κ ε) (.set t) = .ok (.set u) ∧ ∀ x, x ∈ u ↔ x ∈ s ∧ x ∈ t) ∧
    (∃ u, opSub isInst (.set s : Val α κ ε) (.set t) = .ok (.set u) ∧ ∀ x, x ∈ u ↔ x ∈ s ∧ x ∉ t) ∧
    (∃ u, opXor isInst (.set s : Val α κ ε) (.set t) = .ok (.set u) ∧ ∀ x, x ∈ u ↔ (x ∈ s ∧ x ∉ t) ∨ (x ∈ t ∧ x ∉ s)) := by
  refine ⟨⟨_, rfl, by simp⟩, ⟨_, rfl, by simp⟩, fun ht => ?_, ?_, ⟨_, rfl, fun x => ?_⟩, ⟨_, rfl, fun x => ?_⟩, ⟨_, rfl, fun x => ?_⟩, ⟨_, rfl, fun x => ?_⟩⟩
  · simp only [opLt, Except.ok.injEq, Bool.and_eq_true, List.all_eq_true, decide_eq_true_eq]
    refine and_congr_right fun hsub => ⟨fun hlt => ?_, fun ⟨x, hx, hn⟩ => ?_⟩
    · by_contra hcon
      push Not at hcon
      have := (List.subperm_of_subset ht (fun x hx => hcon x hx)).length_le
      omega
    · have := (List.subperm_of_subset (List.nodup_cons.2 ⟨hn, hs⟩) (fun y hy => by
        rcases List.mem_cons.1 hy with rfl | hy
        · exact hx
        · exact hsub y hy) : (x :: s).Subperm t).length_le
      rw [List.length_cons] at this
      omega
  · simp only [opEq, Bool.and_eq_true, List.all_eq_true, decide_eq_true_eq]
    exact ⟨fun h x => ⟨h.1 x, h.2 x⟩, fun h => ⟨fun x => (h x).1, fun x => (h x).2⟩⟩
  · simp [PSet.mem_union]
  · simp [PSet.mem_inter]
  · simp [PSet.mem_diff]
  · simp [PSet.mem_symm]

/-- C91: `isdisjoint` says whether the collection and what is given, whichever iterable it is, have no element in common. -/
theorem C91_isdisjoint (c : Coll α κ ε) (l : List α) : isdisjoint c l = true ↔ ∀ x, x ∈ c.items → x ∉ l := by
  induction l with
  | nil => simp [isdisjoint]
  | cons x xs ih =>
    unfold isdisjoint
    split
    · rename_i h
      constructor
      · intro h'; cases h'
      · intro h'; exact absurd (List.mem_cons_self) (h' x h)
    · rename_i h
      rw [ih]
      constructor
      · intro h' y hy hm
        rcases List.mem_cons.1 hm with rfl | hm
        · exact h hy
        · exact h' y hy hm
      · intro h' y hy hm
        exact h' y hy (List.mem_cons_of_mem _ hm)

/-! ## A case: even numbers are records, odd ones grants -/

/-- Which numbers are records, which grants. -/
def exInst : Kind → Nat → Bool
  | .records, n => n % 2 == 0
  | .grants, n => n % 2 == 1

/-- A collection of the records 2 and 4, and one of the grant 3. -/
def exR : Coll Nat Nat Nat := Coll.fresh "RecordCollection" [2, 4] "r"
def exG : Coll Nat Nat Nat := Coll.fresh "GrantCollection" [3] "g"

theorem exR_proper : Proper exInst .records exR := ⟨rfl, by decide, by decide⟩
theorem exG_proper : Proper exInst .grants exG := ⟨rfl, by decide, by decide⟩
theorem exInst_excl : ∀ k k' x, exInst k x = true → exInst k' x = true → k = k' := by
  intro k k' x h h'
  cases k <;> cases k' <;> simp only [exInst, beq_iff_eq] at h h' <;> first | rfl | omega

example : GivesEmpty .records (opOr exInst (.set [2, 6]) (.coll .records exR)) := ((C91_left_set exInst .records [2, 6] exR exR_proper).1 (by decide)).1
example : opOr exInst (.set [2, 7]) (.coll .records exR) = .error .rcTypeError := ((C91_left_set exInst .records [2, 7] exR exR_proper).2.1 ⟨7, by decide, by decide⟩).1
example : opOr exInst (.coll .records exR) (.coll .grants exG) = .error .grantCollectionException :=
  ((C91_other_class exInst exInst_excl .records .grants (by decide) exR exG exR_proper exG_proper).2.2.1 (by decide)).1
example : GivesEmpty .records (opOr exInst (.coll .grants (Coll.fresh "GrantCollection" [] "")) (.coll .records exR)) :=
  ((C91_other_class exInst exInst_excl .grants .records (by decide) (Coll.fresh "GrantCollection" [] "") exR ⟨rfl, by decide, by decide⟩ exR_proper).2.1 rfl).1
example : Gives .records (opXor exInst (.coll .records exR) (.coll .records (Coll.fresh "RecordCollection" [4, 6] "t"))) (fun x => (x ∈ [2, 4] ∧ x ∉ [4, 6]) ∨ (x ∈ [4, 6] ∧ x ∉ [2, 4])) :=
  (C91_same_class_partial exInst .records exR (Coll.fresh "RecordCollection" [4, 6] "t") exR_proper ⟨rfl, by decide, by decide⟩).2.2.2
example : opLt (.set [1, 2] : Val Nat Nat Nat) (.set [2, 3, 1]) = .ok true ∧ opEq (.set [1, 2] : Val Nat Nat Nat) (.set [2, 1]) = true ∧ [1, 2].Nodup :=
  ⟨rfl, rfl, by decide⟩

example : opLt (.coll .records exR) (.set [1, 2, 3] : Val Nat Nat Nat) = .error .typeError :=
  ((C91_compare exInst .records .grants (by decide) exR exR exG [1, 2, 3] exR_proper exR_proper exG_proper).2.2.2 (.set [1, 2, 3]) (Or.inr rfl)).2.2.2.2.1
example : isdisjoint exR [1, 3] = true ∧ isdisjoint exR [1, 4] = false := by decide

end Verif.Props.CollectionMixed
