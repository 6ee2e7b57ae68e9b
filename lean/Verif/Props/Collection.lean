import Verif.Model.CollectionRun
import Verif.Lemmas.Collection
import Mathlib.Data.Finset.Card

/-! # C01–C05: collections as sets -/
set_option autoImplicit false
set_option linter.unusedSectionVars false
set_option linter.unusedSimpArgs false

namespace Verif.Props
open Verif.Py Verif.Spec Verif.Model

variable {α κ ε : Type} [DecidableEq α] [DecidableEq κ]

/-! ## C01 -/

/-- C01, binary operators: for two collections of the same class each operator returns a collection of that class
without repeated elements whose members are the union, intersection, difference and symmetric difference. -/
theorem C01_binary_members (a b : Coll α κ ε) (hcls : a.cls = b.cls) (ha : a.items.Nodup) (hb : b.items.Nodup) :
    (∃ r, a.or b = some r ∧ r.cls = a.cls ∧ r.items.Nodup ∧ ∀ x, r.contains x = true ↔ (x ∈ a.items ∨ x ∈ b.items)) ∧
    (∃ r, a.and b = some r ∧ r.cls = a.cls ∧ r.items.Nodup ∧ ∀ x, r.contains x = true ↔ (x ∈ a.items ∧ x ∈ b.items)) ∧
    (∃ r, a.sub b = some r ∧ r.cls = a.cls ∧ r.items.Nodup ∧ ∀ x, r.contains x = true ↔ (x ∈ a.items ∧ x ∉ b.items)) ∧
    (∃ r, a.xor b = some r ∧ r.cls = a.cls ∧ r.items.Nodup ∧
      ∀ x, r.contains x = true ↔ ((x ∈ a.items ∧ x ∉ b.items) ∨ (x ∈ b.items ∧ x ∉ a.items))) := by
  have key : ∀ sym items, (Coll.binaryWith sym items a b).cls = a.cls ∧ (Coll.binaryWith sym items a b).items.Nodup ∧
      ∀ x, (Coll.binaryWith sym items a b).contains x = true ↔ x ∈ items := by
    intro sym items
    unfold Coll.binaryWith Coll.contains
    split <;> simp [Coll.fresh, PSet.nodup_ofList, PSet.mem_ofList]
  refine ⟨?_, ?_, ?_, ?_⟩
  · exact ⟨_, if_neg (not_not.2 hcls), (key _ _).1, (key _ _).2.1, fun x => by rw [(key _ _).2.2, PSet.mem_union]⟩
  · exact ⟨_, if_neg (not_not.2 hcls), (key _ _).1, (key _ _).2.1, fun x => by rw [(key _ _).2.2, PSet.mem_inter]⟩
  · exact ⟨_, if_neg (not_not.2 hcls), (key _ _).1, (key _ _).2.1, fun x => by rw [(key _ _).2.2, PSet.mem_diff]⟩
  · exact ⟨_, if_neg (not_not.2 hcls), (key _ _).1, (key _ _).2.1, fun x => by rw [(key _ _).2.2, PSet.mem_symm]⟩

/-- C01, in-place operators: they leave in the left collection, without repetition, exactly the members of the set
operation, and those the binary operator returns. -/
theorem C01_inplace_members (a b : Coll α κ ε) (hcls : a.cls = b.cls) (ha : a.items.Nodup) (hb : b.items.Nodup) :
    (∃ r s, a.ior b = some r ∧ a.or b = some s ∧ r.cls = a.cls ∧ r.items.Nodup ∧
      (∀ x, r.contains x = true ↔ (x ∈ a.items ∨ x ∈ b.items)) ∧ ∀ x, r.contains x = s.contains x) ∧
    (∃ r s, a.iand b = some r ∧ a.and b = some s ∧ r.cls = a.cls ∧ r.items.Nodup ∧
      (∀ x, r.contains x = true ↔ (x ∈ a.items ∧ x ∈ b.items)) ∧ ∀ x, r.contains x = s.contains x) ∧
    (∃ r s, a.isub b = some r ∧ a.sub b = some s ∧ r.cls = a.cls ∧ r.items.Nodup ∧
      (∀ x, r.contains x = true ↔ (x ∈ a.items ∧ x ∉ b.items)) ∧ ∀ x, r.contains x = s.contains x) ∧
    (∃ r s, a.ixor b = some r ∧ a.xor b = some s ∧ r.cls = a.cls ∧ r.items.Nodup ∧
      (∀ x, r.contains x = true ↔ ((x ∈ a.items ∧ x ∉ b.items) ∨ (x ∈ b.items ∧ x ∉ a.items))) ∧
      ∀ x, r.contains x = s.contains x) := by
  obtain ⟨⟨r1, e1, _, _, m1⟩, ⟨r2, e2, _, _, m2⟩, ⟨r3, e3, _, _, m3⟩, ⟨r4, e4, _, _, m4⟩⟩ :=
    C01_binary_members a b hcls ha hb
  refine ⟨?_, ?_, ?_, ?_⟩
  · refine ⟨_, r1, if_neg (not_not.2 hcls), e1, rfl, PSet.nodup_union ha hb, ?_, ?_⟩
    · intro x; simp [Coll.contains, Coll.inplaceWith, PSet.mem_union]
    · intro x; rw [Bool.eq_iff_iff, m1]; simp [Coll.contains, Coll.inplaceWith, PSet.mem_union]
  · refine ⟨_, r2, if_neg (not_not.2 hcls), e2, rfl, PSet.nodup_inter ha _, ?_, ?_⟩
    · intro x; simp [Coll.contains, Coll.inplaceWith, PSet.mem_inter]
    · intro x; rw [Bool.eq_iff_iff, m2]; simp [Coll.contains, Coll.inplaceWith, PSet.mem_inter]
  · refine ⟨_, r3, if_neg (not_not.2 hcls), e3, rfl, PSet.nodup_diff ha _, ?_, ?_⟩
    · intro x; simp [Coll.contains, Coll.inplaceWith, PSet.mem_diff]
    · intro x; rw [Bool.eq_iff_iff, m3]; simp [Coll.contains, Coll.inplaceWith, PSet.mem_diff]
  · refine ⟨_, r4, if_neg (not_not.2 hcls), e4, rfl, PSet.nodup_symm ha hb, ?_, ?_⟩
    · intro x; simp [Coll.contains, Coll.inplaceWith, PSet.mem_symm]
    · intro x; rw [Bool.eq_iff_iff, m4]; simp [Coll.contains, Coll.inplaceWith, PSet.mem_symm]

/-- C01, other classes: all eight operators and the comparisons decline exactly when the classes differ. -/
theorem C01_declines_iff (a b : Coll α κ ε) :
    (a.or b = none ↔ a.cls ≠ b.cls) ∧ (a.and b = none ↔ a.cls ≠ b.cls) ∧ (a.sub b = none ↔ a.cls ≠ b.cls) ∧
    (a.xor b = none ↔ a.cls ≠ b.cls) ∧ (a.ior b = none ↔ a.cls ≠ b.cls) ∧ (a.iand b = none ↔ a.cls ≠ b.cls) ∧
    (a.isub b = none ↔ a.cls ≠ b.cls) ∧ (a.ixor b = none ↔ a.cls ≠ b.cls) ∧ (a.eq b = none ↔ a.cls ≠ b.cls) ∧
    (a.le b = none ↔ a.cls ≠ b.cls) ∧ (a.ge b = none ↔ a.cls ≠ b.cls) := by
  by_cases h : a.cls = b.cls <;>
    simp [Coll.or, Coll.and, Coll.sub, Coll.xor, Coll.ior, Coll.iand, Coll.isub, Coll.ixor, Coll.eq, Coll.le, Coll.ge, h]

/-- C01, equality: two collections of one class are equal exactly when they have the same members. -/
theorem C01_eq_iff (a b : Coll α κ ε) (hcls : a.cls = b.cls) (ha : a.items.Nodup) (hb : b.items.Nodup) :
    a.eq b = some true ↔ ∀ x, x ∈ a.items ↔ x ∈ b.items := by
  simp only [Coll.eq, hcls, ne_eq, not_true, if_false, Option.some.injEq, Bool.and_eq_true, decide_eq_true_eq,
    List.all_eq_true]
  constructor
  · rintro ⟨hlen, hsub⟩ x
    have hsp : a.items.Subperm b.items := List.subperm_of_subset ha hsub
    exact (hsp.perm_of_length_le (by omega)).mem_iff
  · intro h
    have := (List.perm_ext_iff_of_nodup ha hb).2 h
    exact ⟨this.length_eq, fun x hx => (h x).1 hx⟩

/-- C01, hash: equal collections hash equally, for every element hash and iteration order. -/
theorem C01_hash_of_eq (a b : Coll α κ ε) (ha : a.items.Nodup) (hb : b.items.Nodup) (h : α → Int) (hi : Int → Int)
    (he : a.eq b = some true) : a.hash h hi = b.hash h hi := by
  have hcls : a.cls = b.cls := by
    by_contra hne; rw [((C01_declines_iff a b).2.2.2.2.2.2.2.2.1).2 hne] at he; simp at he
  have hp : a.items.Perm b.items := (List.perm_ext_iff_of_nodup ha hb).2 ((C01_eq_iff a b hcls ha hb).1 he)
  unfold Coll.hash
  congr 1
  have : (a.items.map h).Perm (b.items.map h) := hp.map h
  exact this.foldl_eq' (fun x _ y _ z => by omega) 0

/-- C01, names: the result says which operation was made on what. -/
theorem C01_names (a b : Coll α κ ε) (hcls : a.cls = b.cls) :
    (a.or b).map Coll.name = some (a.name ++ " | " ++ b.name) ∧ (a.and b).map Coll.name = some (a.name ++ " & " ++ b.name) ∧
    (a.sub b).map Coll.name = some (a.name ++ " - " ++ b.name) ∧ (a.xor b).map Coll.name = some (a.name ++ " ^ " ++ b.name) ∧
    (a.ior b).map Coll.name = some (a.name ++ " |= " ++ b.name) ∧ (a.iand b).map Coll.name = some (a.name ++ " &= " ++ b.name) ∧
    (a.isub b).map Coll.name = some (a.name ++ " -= " ++ b.name) ∧ (a.ixor b).map Coll.name = some (a.name ++ " ^= " ++ b.name) := by
  simp only [Coll.or, Coll.and, Coll.sub, Coll.xor, Coll.ior, Coll.iand, Coll.isub, Coll.ixor, hcls, ne_eq, not_true,
    if_false, Option.map_some, Coll.binaryWith, Coll.fresh, Coll.inplaceWith]
  cases a.bad <;> cases b.bad <;> simp

/-- C01, ordering: `<=` and `>=` compare sizes (that is what the code does; `a <= b` is *not* the subset relation). -/
theorem C01_le_ge (a b : Coll α κ ε) (hcls : a.cls = b.cls) :
    (a.le b = some true ↔ a.items.length ≤ b.items.length) ∧ (a.ge b = some true ↔ b.items.length ≤ a.items.length) := by
  unfold Coll.le Coll.ge
  rw [if_neg (not_not.2 hcls), if_neg (not_not.2 hcls), Option.some.injEq, Option.some.injEq, decide_eq_true_iff,
    decide_eq_true_iff]
  exact ⟨Iff.rfl, Iff.rfl⟩

private def cA : Coll Nat Nat Nat := ⟨"RecordCollection", [1, 2, 3], ["WOSRecord"], "a", true, [(7, 70)]⟩
private def cB : Coll Nat Nat Nat := ⟨"RecordCollection", [3, 4], [], "b", true, [(8, 80)]⟩

example : cA.cls = cB.cls ∧ cA.items.Nodup ∧ cB.items.Nodup ∧ (cA.xor cB).map Coll.items = some [1, 2, 4] := by decide
example : cA.eq { cA with items := [3, 1, 2] } = some true := by decide

/-! ## C02 -/

/-- A right operand read as a set: `none` if it is of another class. -/
def operandOf (cls : String) (o : Coll α κ ε) : Option (Finset α) :=
  if o.cls = cls then some o.items.toFinset else none

/-- C02: every history of mutating calls from any collection of duplicate-free allowed elements, under every choice made
by `pop`, behaves as the same history on a mathematical finite set, with the same observations; afterwards there is
still no repeated element, `len` is the cardinality, membership is membership, and every member is of an allowed type.
Right operands are required to hold allowed elements only, as they are collections of the same class. -/
theorem C02_refines_set (isInst : α → Bool) (tyName : α → String) (sched : Nat → Nat)
    (ops : List (SetOp α (Coll α κ ε))) (n : Nat) (c : Coll α κ ε) (hc : c.items.Nodup)
    (hall : ∀ x ∈ c.items, isInst x = true)
    (hops : ∀ op ∈ ops, ∀ o : Coll α κ ε, op ∈ [.ior o, .iand o, .isub o, .ixor o] →
      o.items.Nodup ∧ ∀ x ∈ o.items, isInst x = true) :
    let r := Coll.run isInst tyName sched n c ops
    SetRun (fun x => isInst x = true) (operandOf c.cls) c.items.toFinset r.2 r.1.items.toFinset ∧
    r.1.items.Nodup ∧ r.1.len = r.1.items.toFinset.card ∧ (∀ x, r.1.contains x = true ↔ x ∈ r.1.items.toFinset) ∧
    (∀ x ∈ r.1.items, isInst x = true) ∧ r.1.cls = c.cls := by
  induction ops generalizing n c with
  | nil =>
    refine ⟨.nil _, hc, (List.toFinset_card_of_nodup hc).symm, ?_, hall, rfl⟩
    intro x; rw [List.mem_toFinset]; exact decide_eq_true_iff
  | cons op ops ih =>
    -- one step
    have hstep : SetStep (fun x => isInst x = true) (operandOf c.cls) c.items.toFinset op
          (Coll.step isInst tyName (sched n) c op).2 (Coll.step isInst tyName (sched n) c op).1.items.toFinset ∧
        (Coll.step isInst tyName (sched n) c op).1.items.Nodup ∧
        (∀ x ∈ (Coll.step isInst tyName (sched n) c op).1.items, isInst x = true) ∧
        (Coll.step isInst tyName (sched n) c op).1.cls = c.cls := by
      have hop := hops op (by simp)
      cases op with
      | add x =>
        by_cases hx : isInst x = true
        · simp only [Coll.step, Coll.add, hx, if_true]
          refine ⟨Or.inl ⟨hx, rfl, ?_⟩, PSet.nodup_add hc x, ?_, by first | rfl | trivial⟩
          · ext y; simp [PSet.mem_add]
          · intro y hy; rw [PSet.mem_add] at hy
            rcases hy with rfl | hy
            · exact hx
            · exact hall y hy
        · simp only [Coll.step, Coll.add, hx]
          exact ⟨Or.inr ⟨hx, rfl, by first | rfl | trivial⟩, hc, hall, by first | rfl | trivial⟩
      | discard x =>
        refine ⟨⟨rfl, ?_⟩, PSet.nodup_discard hc x, ?_, by first | rfl | trivial⟩
        · ext y; simp [Coll.step, Coll.discard, PSet.mem_discard, and_comm]
        · intro y hy; exact hall y ((PSet.mem_discard _ _ _).1 hy).1
      | remove x =>
        by_cases hx : x ∈ c.items
        · simp only [Coll.step, Coll.remove, hx, if_true]
          refine ⟨Or.inl ⟨by simpa using hx, rfl, ?_⟩, PSet.nodup_discard hc x, ?_, by first | rfl | trivial⟩
          · ext y; simp [PSet.mem_discard, and_comm]
          · intro y hy; exact hall y ((PSet.mem_discard _ _ _).1 hy).1
        · simp only [Coll.step, Coll.remove, hx, if_false]
          exact ⟨Or.inr ⟨by simpa using hx, rfl, by first | rfl | trivial⟩, hc, hall, by first | rfl | trivial⟩
      | clear => exact ⟨⟨rfl, by simp [Coll.step, Coll.clear]⟩, by simp [Coll.step, Coll.clear],
          by simp [Coll.step, Coll.clear], by first | rfl | trivial⟩
      | pop =>
        cases hp : c.pop (sched n) with
        | error e =>
          obtain ⟨h0, rfl⟩ := Coll.pop_error hp
          simp only [Coll.step, hp]
          exact ⟨Or.inr ⟨by simp [h0], rfl, by first | rfl | trivial⟩, hc, hall, by first | rfl | trivial⟩
        | ok p =>
          obtain ⟨x, c'⟩ := p
          obtain ⟨hx, rfl⟩ := Coll.pop_ok hp
          simp only [Coll.step, hp]
          refine ⟨Or.inl ⟨x, by simpa using hx, rfl, ?_⟩, PSet.nodup_discard hc x, ?_, by first | rfl | trivial⟩
          · ext y; simp [PSet.mem_discard, and_comm]
          · intro y hy; exact hall y ((PSet.mem_discard _ _ _).1 hy).1
      | ior o =>
        obtain ⟨hon, hoall⟩ := hop o (by simp)
        by_cases hcl : c.cls = o.cls
        · simp only [Coll.step, Coll.ior, Coll.step.inplace, hcl, ne_eq, not_true, if_false]
          refine ⟨?_, PSet.nodup_union hc hon, ?_, by simp [Coll.inplaceWith, hcl]⟩
          · simp only [SetStep, operandOf, if_true, SetStep.OperandStep, true_and]
            ext y; simp [Coll.inplaceWith, PSet.mem_union]
          · intro y hy
            rcases (PSet.mem_union _ _ _).1 hy with h | h
            · exact hall y h
            · exact hoall y h
        · simp only [Coll.step, Coll.ior, Coll.step.inplace, hcl, ne_eq, not_false_eq_true, if_true]
          refine ⟨?_, hc, hall, by first | rfl | trivial⟩
          simp [SetStep, operandOf, Ne.symm hcl, SetStep.OperandStep]
      | iand o =>
        by_cases hcl : c.cls = o.cls
        · simp only [Coll.step, Coll.iand, Coll.step.inplace, hcl, ne_eq, not_true, if_false]
          refine ⟨?_, PSet.nodup_inter hc _, ?_, by simp [Coll.inplaceWith, hcl]⟩
          · simp only [SetStep, operandOf, if_true, SetStep.OperandStep, true_and]
            ext y; simp [Coll.inplaceWith, PSet.mem_inter]
          · intro y hy
            exact hall y ((PSet.mem_inter _ _ _).1 hy).1
        · simp only [Coll.step, Coll.iand, Coll.step.inplace, hcl, ne_eq, not_false_eq_true, if_true]
          refine ⟨?_, hc, hall, by first | rfl | trivial⟩
          simp [SetStep, operandOf, Ne.symm hcl, SetStep.OperandStep]
      | isub o =>
        by_cases hcl : c.cls = o.cls
        · simp only [Coll.step, Coll.isub, Coll.step.inplace, hcl, ne_eq, not_true, if_false]
          refine ⟨?_, PSet.nodup_diff hc _, ?_, by simp [Coll.inplaceWith, hcl]⟩
          · simp only [SetStep, operandOf, if_true, SetStep.OperandStep, true_and]
            ext y; simp [Coll.inplaceWith, PSet.mem_diff]
          · intro y hy
            exact hall y ((PSet.mem_diff _ _ _).1 hy).1
        · simp only [Coll.step, Coll.isub, Coll.step.inplace, hcl, ne_eq, not_false_eq_true, if_true]
          refine ⟨?_, hc, hall, by first | rfl | trivial⟩
          simp [SetStep, operandOf, Ne.symm hcl, SetStep.OperandStep]
      | ixor o =>
        obtain ⟨hon, hoall⟩ := hop o (by simp)
        by_cases hcl : c.cls = o.cls
        · simp only [Coll.step, Coll.ixor, Coll.step.inplace, hcl, ne_eq, not_true, if_false]
          refine ⟨?_, PSet.nodup_symm hc hon, ?_, by simp [Coll.inplaceWith, hcl]⟩
          · simp only [SetStep, operandOf, if_true, SetStep.OperandStep, true_and]
            ext y; simp [Coll.inplaceWith, PSet.mem_symm]
          · intro y hy
            rcases (PSet.mem_symm _ _ _).1 hy with h | h
            · exact hall y h.1
            · exact hoall y h.1
        · simp only [Coll.step, Coll.ixor, Coll.step.inplace, hcl, ne_eq, not_false_eq_true, if_true]
          refine ⟨?_, hc, hall, by first | rfl | trivial⟩
          simp [SetStep, operandOf, Ne.symm hcl, SetStep.OperandStep]
    obtain ⟨h1, h2, h3, h4⟩ := hstep
    have := ih (n + 1) (Coll.step isInst tyName (sched n) c op).1 h2 h3
      (fun o ho => hops o (List.mem_cons_of_mem _ ho))
    rw [h4] at this
    obtain ⟨g1, g2, g3, g4, g5, g6⟩ := this
    exact ⟨.cons h1 g1, g2, g3, g4, g5, g6⟩

/-- C02, collected types: each successful `add` records the class of its element and loses no other. -/
theorem C02_collected_types (isInst : α → Bool) (tyName : α → String) (c c' : Coll α κ ε) (x : α)
    (h : c.add isInst tyName x = .ok c') : tyName x ∈ c'.types ∧ ∀ t ∈ c.types, t ∈ c'.types := by
  unfold Coll.add at h
  split at h
  · simp only [Except.ok.injEq] at h; subst h
    refine ⟨(PSet.mem_add _ _ _).2 (Or.inl rfl), fun t ht => (PSet.mem_add _ _ _).2 (Or.inr ht)⟩
  · simp at h

/-- C02, collected types: along every history no recorded class name is lost, and if the class of every member is recorded at the start, and in
every right operand, it is recorded at the end. -/
theorem C02_types_cover (isInst : α → Bool) (tyName : α → String) (sched : Nat → Nat)
    (ops : List (SetOp α (Coll α κ ε))) (n : Nat) (c : Coll α κ ε) :
    (∀ t ∈ c.types, t ∈ (Coll.run isInst tyName sched n c ops).1.types) ∧
    ((∀ x ∈ c.items, tyName x ∈ c.types) →
      (∀ op ∈ ops, ∀ o : Coll α κ ε, op ∈ [.ior o, .iand o, .isub o, .ixor o] → ∀ x ∈ o.items, tyName x ∈ o.types) →
      ∀ x ∈ (Coll.run isInst tyName sched n c ops).1.items, tyName x ∈ (Coll.run isInst tyName sched n c ops).1.types) := by
  induction ops generalizing n c with
  | nil => exact ⟨fun t ht => ht, fun h _ => h⟩
  | cons op ops ih =>
    have hstep : (∀ t ∈ c.types, t ∈ (Coll.step isInst tyName (sched n) c op).1.types) ∧
        ((∀ x ∈ c.items, tyName x ∈ c.types) →
          (∀ o : Coll α κ ε, op ∈ [.ior o, .iand o, .isub o, .ixor o] → ∀ x ∈ o.items, tyName x ∈ o.types) →
          ∀ x ∈ (Coll.step isInst tyName (sched n) c op).1.items, tyName x ∈ (Coll.step isInst tyName (sched n) c op).1.types) := by
      cases op with
      | add y =>
        by_cases hy : isInst y = true
        · simp only [Coll.step, Coll.add, hy, if_true]
          refine ⟨fun t ht => (PSet.mem_add _ _ _).2 (Or.inr ht), fun h _ x hx => ?_⟩
          rcases (PSet.mem_add _ _ _).1 hx with rfl | hx
          · exact (PSet.mem_add _ _ _).2 (Or.inl rfl)
          · exact (PSet.mem_add _ _ _).2 (Or.inr (h x hx))
        · simp only [Coll.step, Coll.add, hy, if_false]
          exact ⟨fun t ht => ht, fun h _ => h⟩
      | discard y =>
        refine ⟨fun t ht => ht, fun h _ x hx => h x ?_⟩
        exact ((PSet.mem_discard _ _ _).1 hx).1
      | remove y =>
        by_cases hy : y ∈ c.items
        · simp only [Coll.step, Coll.remove, hy, if_true]
          exact ⟨fun t ht => ht, fun h _ x hx => h x ((PSet.mem_discard _ _ _).1 hx).1⟩
        · simp only [Coll.step, Coll.remove, hy, if_false]
          exact ⟨fun t ht => ht, fun h _ => h⟩
      | clear => exact ⟨fun t ht => ht, fun _ _ x hx => absurd hx (by simp [Coll.step, Coll.clear])⟩
      | pop =>
        simp only [Coll.step, Coll.pop]
        cases c.items[sched n % c.items.length]? with
        | none => exact ⟨fun t ht => ht, fun h _ => h⟩
        | some y => exact ⟨fun t ht => ht, fun h _ x hx => h x ((PSet.mem_discard _ _ _).1 hx).1⟩
      | ior o =>
        by_cases hcl : c.cls = o.cls
        · simp only [Coll.step, Coll.ior, hcl, ne_eq, not_true, if_false, Coll.inplaceWith]
          refine ⟨fun t ht => (PSet.mem_union _ _ _).2 (Or.inl ht), fun h ho x hx => (PSet.mem_union _ _ _).2 ?_⟩
          rcases (PSet.mem_union _ _ _).1 hx with hx | hx
          · exact Or.inl (h x hx)
          · exact Or.inr (ho o (by simp) x hx)
        · simp only [Coll.step, Coll.ior, hcl, ne_eq, not_false_eq_true, if_true]
          exact ⟨fun t ht => ht, fun h _ => h⟩
      | iand o =>
        by_cases hcl : c.cls = o.cls
        · simp only [Coll.step, Coll.iand, hcl, ne_eq, not_true, if_false, Coll.inplaceWith]
          refine ⟨fun t ht => (PSet.mem_union _ _ _).2 (Or.inl ht), fun h ho x hx => (PSet.mem_union _ _ _).2 ?_⟩
          exact Or.inl (h x ((PSet.mem_inter _ _ _).1 hx).1)
        · simp only [Coll.step, Coll.iand, hcl, ne_eq, not_false_eq_true, if_true]
          exact ⟨fun t ht => ht, fun h _ => h⟩
      | isub o =>
        by_cases hcl : c.cls = o.cls
        · simp only [Coll.step, Coll.isub, hcl, ne_eq, not_true, if_false, Coll.inplaceWith]
          refine ⟨fun t ht => (PSet.mem_union _ _ _).2 (Or.inl ht), fun h ho x hx => (PSet.mem_union _ _ _).2 ?_⟩
          exact Or.inl (h x ((PSet.mem_diff _ _ _).1 hx).1)
        · simp only [Coll.step, Coll.isub, hcl, ne_eq, not_false_eq_true, if_true]
          exact ⟨fun t ht => ht, fun h _ => h⟩
      | ixor o =>
        by_cases hcl : c.cls = o.cls
        · simp only [Coll.step, Coll.ixor, hcl, ne_eq, not_true, if_false, Coll.inplaceWith]
          refine ⟨fun t ht => (PSet.mem_union _ _ _).2 (Or.inl ht), fun h ho x hx => (PSet.mem_union _ _ _).2 ?_⟩
          rcases (PSet.mem_symm _ _ _).1 hx with hx | hx
          · exact Or.inl (h x hx.1)
          · exact Or.inr (ho o (by simp) x hx.1)
        · simp only [Coll.step, Coll.ixor, hcl, ne_eq, not_false_eq_true, if_true]
          exact ⟨fun t ht => ht, fun h _ => h⟩
    obtain ⟨i1, i2⟩ := ih (n + 1) (Coll.step isInst tyName (sched n) c op).1
    refine ⟨fun t ht => i1 t (hstep.1 t ht), fun hc hops => i2 ?_ ?_⟩
    · exact hstep.2 hc (hops op (by simp))
    · exact fun op' hop' => hops op' (by simp [hop'])

example : (∀ x ∈ cA.items, (fun _ : Nat => "WOSRecord") x ∈ cA.types) ∧
    (Coll.run (fun x : Nat => decide (x < 100)) (fun _ => "WOSRecord") (fun n => n) 0 { cA with items := [], types := [] }
      [.add 5, .ior cA, .pop]).1.types = ["WOSRecord"] := by decide

/-- C02, `peek`: it returns a member, or `None` exactly when the collection is empty. -/
theorem C02_peek (c : Coll α κ ε) :
    (∀ x, c.peek = some x → x ∈ c.items) ∧ (c.peek = none ↔ ∀ x, c.contains x = false) := by
  unfold Coll.peek Coll.contains
  cases h : c.items with
  | nil => simp
  | cons y l => simp; exact ⟨y, fun hy => absurd rfl hy⟩

example :
    let ops : List (SetOp Nat (Coll Nat Nat Nat)) := [.add 5, .pop, .ior cB, .remove 9, .ixor cA, .clear, .pop, .add 500]
    (∀ op ∈ ops, ∀ o : Coll Nat Nat Nat, op ∈ [.ior o, .iand o, .isub o, .ixor o] →
      o.items.Nodup ∧ ∀ x ∈ o.items, decide (x < 100) = true) ∧
    (Coll.run (fun x => decide (x < 100)) (fun _ => "T") (fun n => n) 0 cA ops).2.map Prod.snd =
      [.done, .popped 2, .done, .keyError, .done, .done, .keyError, .typeError] := by
  refine ⟨?_, by decide⟩
  intro op hop o ho
  simp at hop ho
  rcases hop with rfl | rfl | rfl | rfl | rfl | rfl | rfl | rfl <;> simp at ho <;> subst ho <;> decide

/-! ## C03 -/

/-- C03, `clear`: it leaves no member, no error and no mark; the class, the name and the recorded class names stay. -/
theorem C03_clear (c : Coll α κ ε) :
    c.clear.bad = false ∧ (∀ k, c.clear.errors.get? k = none) ∧ (∀ x, c.clear.contains x = false) ∧ c.clear.len = 0 ∧
    c.clear.cls = c.cls ∧ c.clear.name = c.name ∧ c.clear.types = c.types := by
  refine ⟨rfl, fun k => rfl, fun x => by simp [Coll.clear, Coll.contains], rfl, rfl, rfl, rfl⟩

example : cA.bad = true ∧ cA.clear.bad = false ∧ cA.errors.get? 7 = some 70 ∧ cA.clear.errors.get? 7 = none := by decide

/-- C03, the flag: the result of any of the eight set operators is bad exactly when an operand is. -/
theorem C03_bad_iff (a b : Coll α κ ε) (r : Coll α κ ε)
    (h : a.or b = some r ∨ a.and b = some r ∨ a.sub b = some r ∨ a.xor b = some r ∨
      a.ior b = some r ∨ a.iand b = some r ∨ a.isub b = some r ∨ a.ixor b = some r) :
    r.bad = true ↔ (a.bad = true ∨ b.bad = true) := by
  have hb : ∀ sym items, (Coll.binaryWith sym items a b).bad = true ↔ (a.bad = true ∨ b.bad = true) := by
    intro sym items; unfold Coll.binaryWith Coll.fresh
    cases a.bad <;> cases b.bad <;> simp
  have hi : ∀ sym items, (Coll.inplaceWith sym items a b).bad = true ↔ (a.bad = true ∨ b.bad = true) := by
    intro sym items; unfold Coll.inplaceWith
    cases a.bad <;> cases b.bad <;> simp
  by_cases hc : a.cls = b.cls
  · simp only [Coll.or, Coll.and, Coll.sub, Coll.xor, Coll.ior, Coll.iand, Coll.isub, Coll.ixor, hc, ne_eq, not_true,
      if_false, Option.some.injEq] at h
    rcases h with rfl | rfl | rfl | rfl | rfl | rfl | rfl | rfl <;> first | exact hb _ _ | exact hi _ _
  · simp [Coll.or, Coll.and, Coll.sub, Coll.xor, Coll.ior, Coll.iand, Coll.isub, Coll.ixor, hc] at h

/-- C03 for the in-place operators: if an operand is bad, the errors afterwards are those of both operands, the right
one winning on a common key; otherwise the left errors are unchanged. -/
theorem C03_inplace_errors (a b : Coll α κ ε) (hb : Dict.WF b.errors) (r : Coll α κ ε)
    (h : a.ior b = some r ∨ a.iand b = some r ∨ a.isub b = some r ∨ a.ixor b = some r) (k : κ) :
    r.errors.get? k =
      if a.bad || b.bad then (match b.errors.get? k with | some e => some e | none => a.errors.get? k)
      else a.errors.get? k := by
  have hi : ∀ sym items, (Coll.inplaceWith sym items a b).errors.get? k =
      if a.bad || b.bad then (match b.errors.get? k with | some e => some e | none => a.errors.get? k)
      else a.errors.get? k := by
    intro sym items; unfold Coll.inplaceWith
    cases a.bad <;> cases b.bad <;> simp [Dict.get?_update _ _ hb] <;> cases b.errors.get? k <;> simp
  by_cases hc : a.cls = b.cls
  · simp only [Coll.ior, Coll.iand, Coll.isub, Coll.ixor, hc, ne_eq, not_true, if_false, Option.some.injEq] at h
    rcases h with rfl | rfl | rfl | rfl <;> exact hi _ _
  · simp [Coll.ior, Coll.iand, Coll.isub, Coll.ixor, hc] at h

/-- C03 is false of the binary operators: the error recorded by the left operand is lost. -/
theorem C03_binary_loses_left_errors :
    ∃ (a b r : Coll Nat Nat Nat) (k : Nat), a.cls = b.cls ∧ a.bad = true ∧ (a.errors.get? k).isSome ∧
      a.or b = some r ∧ r.bad = true ∧ r.errors.get? k = none :=
  ⟨cA, cB, _, 7, rfl, rfl, rfl, rfl, rfl, rfl⟩

/-- C03 for the binary operators, what does hold (`_partial`: the errors of the left operand are missing, see
`C03_binary_loses_left_errors`): the errors of the result are those of the right operand when an operand is bad, and none
otherwise. -/
theorem C03_binary_errors_partial (a b : Coll α κ ε) (hb : Dict.WF b.errors) (r : Coll α κ ε)
    (h : a.or b = some r ∨ a.and b = some r ∨ a.sub b = some r ∨ a.xor b = some r) (k : κ) :
    r.errors.get? k = if a.bad || b.bad then b.errors.get? k else none := by
  have hbn : ∀ sym items, (Coll.binaryWith sym items a b).errors.get? k =
      if a.bad || b.bad then b.errors.get? k else none := by
    intro sym items; unfold Coll.binaryWith Coll.fresh
    cases a.bad <;> cases b.bad <;> simp [Dict.get?_update _ _ hb]
  by_cases hc : a.cls = b.cls
  · simp only [Coll.or, Coll.and, Coll.sub, Coll.xor, hc, ne_eq, not_true, if_false, Option.some.injEq] at h
    rcases h with rfl | rfl | rfl | rfl <;> exact hbn _ _
  · simp [Coll.or, Coll.and, Coll.sub, Coll.xor, hc] at h

example : Dict.WF cB.errors ∧ (∃ r, cA.ior cB = some r ∧ r.errors = [(7, 70), (8, 80)]) ∧
    (∃ r, cA.sub cB = some r ∧ r.errors = [(8, 80)]) := by
  refine ⟨by decide, ⟨_, rfl, by decide⟩, ⟨_, rfl, by decide⟩⟩

/-! ## C04, C05 -/

/-- C04: for every iteration order and every `maxSize`, `chunk` succeeds and cuts the collection into blocks of
`max maxSize 1` elements; chunk number `i` is called `Chunk-i-of-<name>`, is of the same class, and carries no error. -/
theorem C04_chunk_partition (tyName : α → String) (c : Coll α κ ε) (hc : c.items.Nodup) (maxSize : Int) :
    ∃ chunks, c.chunk tyName maxSize = some chunks ∧
      IsBlockPartition (max maxSize 1).toNat (chunks.map Coll.items) c.items ∧
      ∀ (i : Nat) (d : Coll α κ ε), chunks[i]? = some d →
        d.name = "Chunk-" ++ toString i ++ "-of-" ++ c.name ∧ d.cls = c.cls ∧ d.bad = false ∧ d.errors = [] := by
  obtain ⟨st, h1, h2⟩ := Coll.chunk_fold (tyName := tyName) c.items [] _
    (Coll.chunkInv_init (κ := κ) (ε := ε) c.cls c.name maxSize) (by simpa using hc)
  refine ⟨st.1, by simp [Coll.chunk, h1], by simpa using h2.partition, h2.meta_⟩

/-- C04, number of chunks: for `maxSize ≥ 1` there are `⌈n / maxSize⌉` chunks. -/
theorem C04_chunk_number (tyName : α → String) (c : Coll α κ ε) (hc : c.items.Nodup) (m : Nat) (hm : 1 ≤ m) :
    ∃ chunks, c.chunk tyName (m : Int) = some chunks ∧ chunks.length = (c.len + m - 1) / m := by
  obtain ⟨chunks, h1, h2, _⟩ := C04_chunk_partition tyName c hc m
  refine ⟨chunks, h1, ?_⟩
  have hmax : (max (m : Int) 1).toNat = m := by omega
  rw [hmax] at h2
  generalize hp : chunks.map Coll.items = parts at h2
  have hlen : chunks.length = parts.length := by rw [← hp]; simp
  rw [hlen]
  have hcl : c.len = parts.flatten.length := h2.cover.length_eq.symm
  rw [hcl]
  rcases List.eq_nil_or_concat parts with rfl | ⟨init, last, rfl⟩
  · simp only [List.flatten_nil, List.length_nil]; exact (Nat.div_eq_of_lt (by omega)).symm
  · have hfull : ∀ p ∈ init, p.length = m := by
      intro p hp; exact h2.full p (by simpa using hp)
    have hinit : init.flatten.length = init.length * m := by
      clear h2 hp hcl hlen
      induction init with
      | nil => simp
      | cons p l ih =>
        simp only [List.flatten_cons, List.length_append, List.length_cons]
        rw [ih (fun q hq => hfull q (List.mem_cons_of_mem _ hq)), hfull p (by simp), Nat.succ_mul]; omega
    have h1 : 1 ≤ last.length := by
      have := h2.nonempty last (by simp)
      exact List.length_pos_iff.2 this
    have h3 : last.length ≤ m := h2.bounded last (by simp)
    simp only [List.concat_eq_append, List.flatten_append, List.length_append, hinit, List.flatten_cons,
      List.flatten_nil, List.append_nil, List.length_cons, List.length_nil]
    symm
    apply Nat.div_eq_of_lt_le
    · rw [Nat.add_mul]; omega
    · rw [Nat.add_mul, Nat.add_mul]; omega

/-- C05: whatever elements `pop` takes, `split` ends, cuts the former contents into the same kind of blocks, and leaves
the source empty, not bad and without errors. -/
theorem C05_split_partition (tyName : α → String) (sched : Nat → Nat) (c : Coll α κ ε) (hc : c.items.Nodup)
    (maxSize : Int) :
    ∃ chunks c', c.split tyName sched maxSize = some (chunks, c') ∧
      IsBlockPartition (max maxSize 1).toNat (chunks.map Coll.items) c.items ∧
      (∀ (i : Nat) (d : Coll α κ ε), chunks[i]? = some d →
        d.name = "Chunk-" ++ toString i ++ "-of-" ++ c.name ∧ d.cls = c.cls ∧ d.bad = false ∧ d.errors = []) ∧
      c'.items = [] ∧ c'.bad = false ∧ c'.errors = [] ∧ c'.name = "Emptied-" ++ c.name ∧ c'.cls = c.cls := by
  obtain ⟨l, chunks, n, hl, hinv, hres⟩ := Coll.splitLoop_spec (tyName := tyName) (maxSize := maxSize) (sched := sched)
    c.items.length 0 c rfl rfl [] _ (Coll.chunkInv_init c.cls c.name maxSize) (by simpa using hc) (Nat.le_refl _)
  have hp := hinv.partition
  simp only [List.nil_append] at hp
  exact ⟨chunks, _, hres, ⟨hp.cover.trans hl, hp.nonempty, hp.bounded, hp.full⟩, hinv.meta_, rfl, rfl, rfl, rfl, rfl⟩

example : (cA.chunk (fun _ => "T") 2).map (List.map Coll.items) = some [[1, 2], [3]] ∧
    (cA.chunk (fun _ => "T") 0).map (List.map Coll.items) = some [[1], [2], [3]] ∧
    (cA.split (fun _ => "T") (fun n => n + 1) 2).map (fun r => r.1.map Coll.items) = some [[2, 1], [3]] := by decide

end Verif.Props
