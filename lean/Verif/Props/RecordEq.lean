import Verif.Model.RecordEq
import Mathlib.Data.List.Nodup

/-! # C64: which records are the same -/
set_option autoImplicit false
set_option linter.unusedSimpArgs false
namespace Verif.Props.RecordEq
open Verif.Py Verif.Model.RecordEq

variable {C I : Type} [DecidableEq C]

/-- The subclass relation is one: every class is a subclass of itself. -/
def Reflexive (w : World C I) : Prop := ∀ c, w.sub c c = true

/-- The same object has one state. -/
def OneState (a b : Rec C I) : Prop := a.obj = b.obj → a = b

theorem pyEq_iff (w : World C I) (hr : Reflexive w) (a b : Rec C I) (h1 : OneState a b) :
    pyEq w a b = true ↔ (w.sub a.cls b.cls = true ∨ w.sub b.cls a.cls = true) ∧ recHash w a = recHash w b := by
  have hid : w.sub b.cls a.cls = false → w.sub a.cls b.cls = false → a.obj ≠ b.obj := by
    intro h _ ho
    have := h1 ho; subst this
    rw [hr] at h; simp at h
  unfold pyEq
  by_cases hc : a.cls ≠ b.cls ∧ w.sub b.cls a.cls
  · simp only [if_pos hc, eqMethod]
    cases hab : w.sub a.cls b.cls <;> simp [hc.2, eq_comm (a := recHash w b)]
  · simp only [if_neg hc, eqMethod]
    cases hba : w.sub b.cls a.cls
    · cases hab : w.sub a.cls b.cls
      · simpa [hab, hba] using hid hba hab
      · simp [eq_comm (a := recHash w b)]
    · simp

/-- C64, laws: equality of records is reflexive and symmetric, and equal records have equal hashes, whatever their classes. -/
theorem C64_laws (w : World C I) (hr : Reflexive w) (a b : Rec C I) (h1 : OneState a b) :
    pyEq w a a = true ∧ (pyEq w a b = true ↔ pyEq w b a = true) ∧ (pyEq w a b = true → recHash w a = recHash w b) := by
  refine ⟨(pyEq_iff w hr a a (fun _ => rfl)).2 ⟨Or.inl (hr _), rfl⟩, ?_, fun h => ((pyEq_iff w hr a b h1).1 h).2⟩
  rw [pyEq_iff w hr a b h1, pyEq_iff w hr b a (fun h => (h1 h.symm).symm), or_comm, eq_comm (a := recHash w a)]

/-- C64, good records of one class are equal exactly when they have the same ID, unless Python's hash gives the two IDs the same number. -/
theorem C64_good_iff (w : World C I) (hr : Reflexive w) (a b : Rec C I) (h1 : OneState a b) (hc : a.cls = b.cls) (ha : a.bad = false)
    (hb : b.bad = false) (hh : w.hashId a.id = w.hashId b.id → a.id = b.id) : pyEq w a b = true ↔ a.id = b.id := by
  rw [pyEq_iff w hr a b h1]
  simp only [recHash, ha, hb, Bool.false_eq_true, if_false]
  constructor
  · exact fun h => hh h.2
  · intro h; exact ⟨Or.inl (hc ▸ hr _), by rw [h]⟩

/-- C64, bad records of one class are equal exactly when their fields and their error, written one after the other, are the same text, unless
the hashes collide. -/
theorem C64_bad_iff (w : World C I) (hr : Reflexive w) (a b : Rec C I) (h1 : OneState a b) (hc : a.cls = b.cls) (ha : a.bad = true)
    (hb : b.bad = true) (hh : w.hashStr (a.values ++ a.error) = w.hashStr (b.values ++ b.error) → a.values ++ a.error = b.values ++ b.error) :
    pyEq w a b = true ↔ a.values ++ a.error = b.values ++ b.error := by
  rw [pyEq_iff w hr a b h1]
  simp only [recHash, ha, hb, if_true]
  constructor
  · exact fun h => hh h.2
  · intro h; exact ⟨Or.inl (hc ▸ hr _), by rw [h]⟩

/-- The classes that the file readers make records and grants of. -/
def sourceClasses : List Cls :=
  [.wos, .medline, .scopus, .proQuest, .fallbackGrant, .scopusGrant, .nsercGrant, .nsfGrant, .medlineGrant, .cihrGrant]

/-- C64, records of classes that are unrelated are different, whatever their IDs: the readers make records of classes no two of which are
related, so records of different sources never stand for each other. -/
theorem C64_sources (w : World Cls I) (hw : w.sub = Cls.sub) (a b : Rec Cls I) (h1 : OneState a b) (ha : a.cls ∈ sourceClasses) (hb : b.cls ∈ sourceClasses)
    (hne : a.cls ≠ b.cls) : pyEq w a b = false := by
  have hr : Reflexive w := by intro c; rw [hw]; cases c <;> decide
  rw [Bool.eq_false_iff, Ne, pyEq_iff w hr a b h1]
  rintro ⟨h, _⟩
  rw [hw] at h
  revert h ha hb hne
  generalize a.cls = c; generalize b.cls = d
  cases c <;> cases d <;> decide

/-- C64, equality of the records that the readers make is transitive, so it is an equivalence. -/
theorem C64_transitive (w : World Cls I) (hw : w.sub = Cls.sub) (a b c : Rec Cls I) (hab : OneState a b) (hbc : OneState b c) (hac : OneState a c)
    (ha : a.cls ∈ sourceClasses) (hb : b.cls ∈ sourceClasses) (hc : c.cls ∈ sourceClasses) (h1 : pyEq w a b = true) (h2 : pyEq w b c = true) :
    pyEq w a c = true := by
  have hr : Reflexive w := by intro c; rw [hw]; cases c <;> decide
  by_cases e1 : a.cls = b.cls
  · by_cases e2 : b.cls = c.cls
    · rw [pyEq_iff w hr _ _ hac]
      refine ⟨Or.inl (by rw [e1, e2]; exact hr _), ?_⟩
      rw [((pyEq_iff w hr _ _ hab).1 h1).2, ((pyEq_iff w hr _ _ hbc).1 h2).2]
    · rw [C64_sources w hw b c hbc hb hc e2] at h2; simp at h2
  · rw [C64_sources w hw a b hab ha hb e1] at h1; simp at h1

/-- C64 fails for base classes: a plain `Record` equals a record of each source with its ID, and these two differ from each other. -/
theorem C64_not_transitive_with_base :
    ∃ (w : World Cls Nat) (a b c : Rec Cls Nat), w.sub = Cls.sub ∧ pyEq w a b = true ∧ pyEq w b c = true ∧ pyEq w a c = false :=
  ⟨⟨fun s => s.length, fun n => n, Cls.sub⟩, ⟨0, .wos, false, 7, [], []⟩, ⟨1, .record, false, 7, [], []⟩, ⟨2, .medline, false, 7, [], []⟩,
    rfl, by decide, by decide, by decide⟩

/-- C64 fails for colliding hashes: two good records of one class with different IDs whose hashes are the same number are equal. -/
theorem C64_collision (w : World C I) (hr : Reflexive w) (a b : Rec C I) (h1 : OneState a b) (hc : a.cls = b.cls) (ha : a.bad = false)
    (hb : b.bad = false) (hh : w.hashId a.id = w.hashId b.id) : pyEq w a b = true := by
  rw [pyEq_iff w hr a b h1]
  exact ⟨Or.inl (hc ▸ hr _), by simp [recHash, ha, hb, hh]⟩

/-! ## Sets of records -/

theorem inSet_iff (w : World Cls I) (hw : w.sub = Cls.sub) (s : List (Rec Cls I)) (r : Rec Cls I) (h1 : ∀ x ∈ s, OneState x r)
    (hs : ∀ x ∈ s, x.cls ∈ sourceClasses ∧ x.bad = false) (hr' : r.cls ∈ sourceClasses ∧ r.bad = false)
    (hh : ∀ x ∈ s, w.hashId x.id = w.hashId r.id → x.id = r.id) :
    inSet w s r = true ↔ ∃ x ∈ s, x.cls = r.cls ∧ x.id = r.id := by
  have hr : Reflexive w := by intro c; rw [hw]; cases c <;> decide
  unfold inSet
  rw [List.any_eq_true]
  constructor
  · rintro ⟨x, hx, h⟩
    simp only [Bool.and_eq_true, Bool.or_eq_true, beq_iff_eq] at h
    rcases h.2 with ho | he
    · have := h1 x hx ho; subst this; exact ⟨x, hx, rfl, rfl⟩
    · by_cases e : x.cls = r.cls
      · exact ⟨x, hx, e, (C64_good_iff w hr x r (h1 x hx) e (hs x hx).2 hr'.2 (hh x hx)).1 he⟩
      · rw [C64_sources w hw x r (h1 x hx) (hs x hx).1 hr'.1 e] at he; simp at he
  · rintro ⟨x, hx, e, hi⟩
    refine ⟨x, hx, ?_⟩
    simp only [Bool.and_eq_true, Bool.or_eq_true, beq_iff_eq]
    refine ⟨by simp [recHash, (hs x hx).2, hr'.2, hi], Or.inr ((C64_good_iff w hr x r (h1 x hx) e (hs x hx).2 hr'.2 (hh x hx)).2 hi)⟩

/-- C64, sets: of good records from the readers, a set keeps exactly one for each class and ID, the first one. -/
theorem C64_set (w : World Cls I) (hw : w.sub = Cls.sub) (rs : List (Rec Cls I)) (h1 : ∀ a ∈ rs, ∀ b ∈ rs, OneState a b)
    (hs : ∀ x ∈ rs, x.cls ∈ sourceClasses ∧ x.bad = false) (hh : ∀ a ∈ rs, ∀ b ∈ rs, w.hashId a.id = w.hashId b.id → a.id = b.id) :
    (toSet w rs).Sublist rs ∧ ((toSet w rs).map (fun r => (r.cls, r.id))).Nodup ∧
    (∀ r ∈ rs, ∃ x ∈ toSet w rs, x.cls = r.cls ∧ x.id = r.id) ∧
    (∀ p r q, rs = p ++ r :: q → (∀ x ∈ p, ¬ (x.cls = r.cls ∧ x.id = r.id)) → r ∈ toSet w rs) := by
  induction rs using List.reverseRecOn with
  | nil => simp [toSet]
  | append_singleton rs r ih =>
    obtain ⟨i1, i2, i3, i4⟩ := ih (fun a ha b hb => h1 a (by simp [ha]) b (by simp [hb])) (fun x hx => hs x (by simp [hx]))
      (fun a ha b hb => hh a (by simp [ha]) b (by simp [hb]))
    have hmem : ∀ x ∈ toSet w rs, x ∈ rs := fun x hx => i1.subset hx
    have hiff := inSet_iff w hw (toSet w rs) r (fun x hx => h1 x (by simp [hmem x hx]) r (by simp)) (fun x hx => hs x (by simp [hmem x hx]))
      (hs r (by simp)) (fun x hx => hh x (by simp [hmem x hx]) r (by simp))
    have hstep : toSet w (rs ++ [r]) = setAdd w (toSet w rs) r := by simp [toSet]
    rw [hstep]
    unfold setAdd
    by_cases hin : inSet w (toSet w rs) r = true
    · rw [if_pos hin]
      refine ⟨i1.trans (List.sublist_append_left _ _), i2, ?_, ?_⟩
      · intro x hx
        rcases List.mem_append.1 hx with hx | hx
        · exact i3 x hx
        · simp only [List.mem_singleton] at hx; subst hx; exact hiff.1 hin
      · intro p y q heq hp
        rcases List.eq_nil_or_concat q with rfl | ⟨q', z, rfl⟩
        · have := List.append_inj' heq rfl
          obtain ⟨rfl, hy⟩ := this
          simp only [List.cons.injEq, and_true] at hy; subst hy
          obtain ⟨x, hx, hxr⟩ := hiff.1 hin
          exact absurd hxr (hp x (hmem x hx))
        · rw [show p ++ y :: (q'.concat z) = (p ++ y :: q') ++ [z] by simp] at heq
          obtain ⟨h, _⟩ := List.append_inj' heq rfl
          exact i4 p y q' h hp
    · rw [if_neg hin]
      refine ⟨i1.append (List.Sublist.refl _), ?_, ?_, ?_⟩
      · rw [List.map_append, List.nodup_append]
        refine ⟨i2, by simp, ?_⟩
        intro a ha b hb
        simp only [List.map_cons, List.map_nil, List.mem_singleton] at hb
        subst hb
        rintro rfl
        obtain ⟨x, hx, hxr⟩ := List.mem_map.1 ha
        simp only [Prod.mk.injEq] at hxr
        exact hin (hiff.2 ⟨x, hx, hxr⟩)
      · intro x hx
        rcases List.mem_append.1 hx with hx | hx
        · obtain ⟨y, hy, h⟩ := i3 x hx; exact ⟨y, by simp [hy], h⟩
        · exact ⟨x, by simp at hx; simp [hx], rfl, rfl⟩
      · intro p y q heq hp
        rcases List.eq_nil_or_concat q with rfl | ⟨q', z, rfl⟩
        · obtain ⟨rfl, hy⟩ := List.append_inj' heq rfl
          simp only [List.cons.injEq, and_true] at hy; subst hy; simp
        · rw [show p ++ y :: (q'.concat z) = (p ++ y :: q') ++ [z] by simp] at heq
          obtain ⟨h, _⟩ := List.append_inj' heq rfl
          simp [i4 p y q' h hp]

/-! ## Example -/

private def w0 : World Cls Nat := ⟨fun s => s.length, fun n => n, Cls.sub⟩
private def r0 (o : Nat) (c : Cls) (i : Nat) : Rec Cls Nat := ⟨o, c, false, i, [], []⟩

example : (toSet w0 [r0 0 .wos 1, r0 1 .medline 1, r0 2 .wos 1, r0 3 .wos 2]).map Rec.obj = [0, 1, 3] := by decide
example : Reflexive w0 := by intro c; cases c <;> decide
example : ∀ a ∈ [r0 0 .wos 1, r0 1 .medline 1, r0 2 .wos 1], a.cls ∈ sourceClasses ∧ a.bad = false := by decide
example : pyEq w0 (r0 0 .wos 1) (r0 1 .wos 1) = true ∧ pyEq w0 (r0 0 .wos 1) (r0 1 .wos 2) = false ∧
    pyEq w0 ⟨0, .wos, true, 1, "ab".toList, "c".toList⟩ ⟨1, .wos, true, 2, "a".toList, "bc".toList⟩ = true := by decide

end Verif.Props.RecordEq
