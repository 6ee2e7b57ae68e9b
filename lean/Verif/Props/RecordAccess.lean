import Verif.Model.RecordAccess

/-! # C28: field access does not depend on earlier reads -/
set_option autoImplicit false
set_option linter.unusedSectionVars false
set_option linter.unusedSimpArgs false
namespace Verif.Props
open Verif.Py Verif.Model.RecordAccess

variable {κ Raw V : Type} [DecidableEq κ]

/-- All tags a special function may read have a rank below `b`. -/
def Below (rank : κ → Nat) (b : Nat) : Prog κ V → Prop
  | .done _ => True
  | .read k c => rank k < b ∧ ∀ r, Below rank b (c r)

/-- What the classes provide: alternative names go both ways, a tag with an alternative name has no special function, and special functions
read only tags of smaller rank, `n` being above all ranks (the recursion limit is not reached). -/
structure GoodCls (C : Cls κ Raw V) (rank : κ → Nat) (n : Nat) : Prop where
  invol : ∀ k a, C.alt k = some a → C.alt a = some k
  special : ∀ k a, C.alt k = some a → C.special k = .done (.error .keyError)
  below : ∀ k, Below rank (rank k) (C.special k)
  bound : ∀ k, rank k < n

/-- No two fields of the record are names of each other. -/
def NoClash (C : Cls κ Raw V) (fields : Dict κ Raw) : Prop :=
  ∀ k a, C.alt k = some a → a ≠ k → ¬ ((fields.get? k).isSome ∧ (fields.get? a).isSome)

/-- A record nothing has been read from. -/
def fresh (fields : Dict κ Raw) : Rec κ Raw V := ⟨fields, []⟩

/-! ## Proof: a pure evaluator -/

/-- Running a special function without a memo. -/
def evalProg (g : κ → Except AErr V) : Prog κ V → Except AErr V
  | .done r => r
  | .read k c => evalProg g (c (g k))

/-- Access without a memo. -/
def eval (C : Cls κ Raw V) (fields : Dict κ Raw) : Nat → κ → Except AErr V
  | n, key =>
    match fields.get? key with
    | some raw => C.proc key raw
    | none =>
      match altField C (⟨fields, []⟩ : Rec κ Raw V) key with
      | some p => C.proc p.1 p.2
      | none =>
        match n with
        | 0 => .error .recursion
        | n + 1 => evalProg (eval C fields n) (C.special key)

theorem evalProg_congr (g h : κ → Except AErr V) (rank : κ → Nat) (b : Nat) (hgh : ∀ k, rank k < b → g k = h k) (p : Prog κ V)
    (hp : Below rank b p) : evalProg g p = evalProg h p := by
  induction p with
  | done r => rfl
  | read k c ih =>
    unfold evalProg
    rw [hgh k hp.1]
    exact ih _ (hp.2 _)

theorem eval_level {C : Cls κ Raw V} {rank : κ → Nat} {N : Nat} (hC : GoodCls C rank N) (fields : Dict κ Raw) (n m : Nat) (k : κ)
    (hn : rank k < n) (hm : rank k < m) : eval C fields n k = eval C fields m k := by
  induction n generalizing m k with
  | zero => omega
  | succ n ih =>
    cases m with
    | zero => omega
    | succ m =>
      unfold eval
      cases fields.get? k with
      | some raw => rfl
      | none =>
        simp only []
        cases altField C (⟨fields, []⟩ : Rec κ Raw V) k with
        | some p => rfl
        | none =>
          exact evalProg_congr _ _ rank (rank k) (fun j hj => ih m j (by omega) (by omega)) _ (hC.below k)

/-- Everything in the memo is what a fresh access gives. -/
def Sound (C : Cls κ Raw V) (n : Nat) (R : Rec κ Raw V) : Prop := ∀ k v, R.memo.get? k = some v → eval C R.fields n k = .ok v

theorem altField_fields (C : Cls κ Raw V) (R : Rec κ Raw V) (k : κ) : altField C R k = altField C (⟨R.fields, []⟩ : Rec κ Raw V) k := rfl

theorem altField_some {C : Cls κ Raw V} {R : Rec κ Raw V} {k : κ} {p : κ × Raw} (h : altField C R k = some p) :
    C.alt k = some p.1 ∧ R.fields.get? p.1 = some p.2 := by
  unfold altField at h
  cases ha : C.alt k with
  | none => rw [ha] at h; simp at h
  | some a =>
    rw [ha] at h
    simp only [] at h
    cases hf : R.fields.get? a with
    | none => rw [hf] at h; simp at h
    | some raw => rw [hf] at h; simp only [Option.some.injEq] at h; subst h; exact ⟨rfl, hf⟩

theorem eval_field (C : Cls κ Raw V) (fields : Dict κ Raw) (n : Nat) (k : κ) (raw : Raw) (h : fields.get? k = some raw) :
    eval C fields n k = C.proc k raw := by
  unfold eval; rw [h]

theorem eval_alt (C : Cls κ Raw V) (fields : Dict κ Raw) (n : Nat) (k : κ) (p : κ × Raw) (h : fields.get? k = none)
    (ha : altField C (⟨fields, []⟩ : Rec κ Raw V) k = some p) : eval C fields n k = C.proc p.1 p.2 := by
  unfold eval; rw [h]; simp only [ha]

theorem eval_special (C : Cls κ Raw V) (fields : Dict κ Raw) (n : Nat) (k : κ) (h : fields.get? k = none)
    (ha : altField C (⟨fields, []⟩ : Rec κ Raw V) k = none) : eval C fields (n + 1) k = evalProg (eval C fields n) (C.special k) := by
  rw [eval]; rw [h]; simp only [ha]

/-- The alternative name of a field gives the same. -/
theorem eval_altName {C : Cls κ Raw V} {rank : κ → Nat} {N : Nat} (hC : GoodCls C rank N) {fields : Dict κ Raw} (hf : NoClash C fields)
    (n : Nat) (k a : κ) (raw : Raw) (hk : fields.get? k = some raw) (ha : C.alt k = some a) : eval C fields n a = C.proc k raw := by
  by_cases hak : a = k
  · subst hak; exact eval_field C fields n a raw hk
  · have hn : fields.get? a = none := by
      cases h : fields.get? a with
      | none => rfl
      | some r => exact absurd ⟨by rw [hk]; rfl, by rw [h]; rfl⟩ (hf k a ha hak)
    have : altField C (⟨fields, []⟩ : Rec κ Raw V) a = some (k, raw) := by
      unfold altField; rw [hC.invol k a ha]; simp [hk]
    exact eval_alt C fields n a (k, raw) hn this

theorem store_sound {C : Cls κ Raw V} {n : Nat} {R : Rec κ Raw V} (hs : Sound C n R) (k : κ) (r : Except AErr V)
    (h1 : eval C R.fields n k = r) (h2 : ∀ v, r = .ok v → ∀ a, C.alt k = some a → eval C R.fields n a = r) :
    (store C R k r).1 = r ∧ Sound C n (store C R k r).2 ∧ (store C R k r).2.fields = R.fields := by
  unfold store
  cases r with
  | error e => exact ⟨rfl, hs, rfl⟩
  | ok v =>
    simp only []
    cases ha : C.alt k with
    | none =>
      refine ⟨rfl, ?_, rfl⟩
      intro j w hj
      simp only [Dict.get?_set] at hj
      split at hj
      · rename_i h; subst h; simp only [Option.some.injEq] at hj; subst hj; exact h1
      · exact hs j w hj
    | some a =>
      refine ⟨rfl, ?_, rfl⟩
      intro j w hj
      simp only [Dict.get?_set] at hj
      split at hj
      · rename_i h; subst h; simp only [Option.some.injEq] at hj; subst hj; exact h2 v rfl _ ha
      · split at hj
        · rename_i h; subst h; simp only [Option.some.injEq] at hj; subst hj; exact h1
        · exact hs j w hj

theorem runProg_sound {C : Cls κ Raw V} {rank : κ → Nat} (N n b : Nat) (p : Prog κ V) (hp : Below rank b p) (fields : Dict κ Raw)
    (hg : ∀ R : Rec κ Raw V, R.fields = fields → Sound C N R → ∀ k, rank k < b →
      (getitem C n R k).1 = eval C fields N k ∧ Sound C N (getitem C n R k).2 ∧ (getitem C n R k).2.fields = fields)
    (R : Rec κ Raw V) (hR : R.fields = fields) (hs : Sound C N R) :
    (runProg (getitem C n) p R).1 = evalProg (eval C fields N) p ∧ Sound C N (runProg (getitem C n) p R).2 ∧
      (runProg (getitem C n) p R).2.fields = fields := by
  induction p generalizing R with
  | done r => exact ⟨rfl, hs, hR⟩
  | read k c ih =>
    unfold runProg evalProg
    obtain ⟨h1, h2, h3⟩ := hg R hR hs k hp.1
    rw [← h1]
    exact ih _ (hp.2 _) _ h3 h2

/-- The special branch of an access, or of a membership test. -/
theorem special_sound {C : Cls κ Raw V} {rank : κ → Nat} {N : Nat} (hC : GoodCls C rank N)
    (n : Nat) (R : Rec κ Raw V) (hs : Sound C N R) (k : κ)
    (hg : ∀ R' : Rec κ Raw V, R'.fields = R.fields → Sound C N R' → ∀ j, rank j < rank k →
      (getitem C n R' j).1 = eval C R.fields N j ∧ Sound C N (getitem C n R' j).2 ∧ (getitem C n R' j).2.fields = R.fields)
    (h1 : R.fields.get? k = none) (h2 : altField C R k = none) :
    (runProg (getitem C n) (C.special k) R).1 = eval C R.fields N k ∧ Sound C N (runProg (getitem C n) (C.special k) R).2 ∧
      (runProg (getitem C n) (C.special k) R).2.fields = R.fields := by
  have hr := runProg_sound N n (rank k) (C.special k) (hC.below k) R.fields hg R rfl hs
  refine ⟨?_, hr.2⟩
  rw [hr.1]
  have hN := hC.bound k
  cases N with
  | zero => omega
  | succ N =>
    rw [eval_special C R.fields N k h1 h2]
    refine evalProg_congr _ _ rank (rank k) (fun j hj => ?_) _ (hC.below k)
    exact eval_level hC R.fields _ _ j (by omega) (by omega)

theorem getitem_sound {C : Cls κ Raw V} {rank : κ → Nat} {N : Nat} (hC : GoodCls C rank N) (n : Nat) (k : κ) (hn : rank k < n)
    (R : Rec κ Raw V) (hf : NoClash C R.fields) (hs : Sound C N R) :
    (getitem C n R k).1 = eval C R.fields N k ∧ Sound C N (getitem C n R k).2 ∧ (getitem C n R k).2.fields = R.fields := by
  induction n generalizing k R with
  | zero => omega
  | succ n ih =>
    unfold getitem
    cases hm : R.memo.get? k with
    | some v => exact ⟨(hs k v hm).symm, hs, rfl⟩
    | none =>
      simp only []
      cases hk : R.fields.get? k with
      | some raw =>
        have he := eval_field C R.fields N k raw hk
        rw [he]
        exact store_sound hs k _ he (fun v hv a ha => eval_altName hC hf N k a raw hk ha)
      | none =>
        simp only []
        cases ha : altField C R k with
        | some p =>
          obtain ⟨h1, h2⟩ := altField_some ha
          have he := eval_alt C R.fields N k p hk ha
          have hp := eval_field C R.fields N p.1 p.2 h2
          rw [he]
          exact store_sound hs p.1 _ hp (fun v hv a hpa => eval_altName hC hf N p.1 a p.2 h2 hpa)
        | none =>
          simp only []
          have hr := special_sound hC n R hs k (fun R' hR' hs' j hj => by
            have := ih j (by omega) R' (by rw [hR']; exact hf) hs'
            rw [hR'] at this; exact this) hk ha
          obtain ⟨r1, r2, r3⟩ := hr
          rw [r1]
          have hst := store_sound r2 k (eval C R.fields N k) (by rw [r3]) (fun v hv a hka => by
            rw [← r1] at hv
            rw [hC.special k a hka] at hv
            simp [runProg] at hv)
          rw [r3] at hst
          exact hst

theorem contains_sound {C : Cls κ Raw V} {rank : κ → Nat} {N : Nat} (hC : GoodCls C rank N)
    (R : Rec κ Raw V) (hf : NoClash C R.fields) (hs : Sound C N R) (k : κ) :
    (contains C N R k).1 = (if (R.fields.get? k).isSome || (altField C R k).isSome then .ok true
      else match eval C R.fields N k with | .ok _ => .ok true | .error .keyError => .ok false | .error e => .error e) ∧
    Sound C N (contains C N R k).2 ∧ (contains C N R k).2.fields = R.fields := by
  unfold contains
  by_cases h1 : ((R.fields.get? k).isSome || (altField C R k).isSome) = true
  · rw [if_pos (by rw [h1]; rfl), if_pos h1]; exact ⟨rfl, hs, rfl⟩
  · rw [if_neg h1]
    simp only [Bool.or_eq_true, not_or, Option.isSome_iff_ne_none, ne_eq, Decidable.not_not] at h1
    obtain ⟨h1, h2⟩ := h1
    have hr := special_sound hC N R hs k (fun R' hR' hs' j hj => by
      have := getitem_sound hC N j (hC.bound j) R' (by rw [hR']; exact hf) hs'
      rw [hR'] at this; exact this) h1 h2
    cases hm : R.memo.get? k with
    | some v =>
      rw [hs k v hm]
      simp [h1, h2]
      exact hs
    | none =>
      simp only [h1, h2, Option.isSome_none, Bool.or_self, Bool.false_eq_true, if_false]
      obtain ⟨r1, r2, r3⟩ := hr
      rw [r1]
      cases he : eval C R.fields N k with
      | error e => cases e <;> exact ⟨rfl, r2, r3⟩
      | ok v =>
        have hst := store_sound r2 k (.ok v) (by rw [r3]; exact he) (fun w hw a hka => by
          rw [he] at r1
          rw [hC.special k a hka] at r1
          simp [runProg] at r1)
        rw [r3] at hst
        exact ⟨rfl, hst.2.1, hst.2.2⟩

theorem get_eq (C : Cls κ Raw V) (n : Nat) (R : Rec κ Raw V) (k : κ) (d : V) :
    get C n R k d = ((match (getitem C n R k).1 with | .ok v => .ok v | .error .keyError => .ok d | .error e => .error e),
      (getitem C n R k).2) := by
  unfold Model.RecordAccess.get
  rcases getitem C n R k with ⟨r, R'⟩
  rcases r with e | v
  · cases e <;> rfl
  · rfl

theorem after_sound {C : Cls κ Raw V} {rank : κ → Nat} {N : Nat} (hC : GoodCls C rank N) (fields : Dict κ Raw) (hf : NoClash C fields)
    (ops : List (Op κ V)) (R : Rec κ Raw V) (hR : R.fields = fields) (hs : Sound C N R) :
    (ops.foldl (after C N) R).fields = fields ∧ Sound C N (ops.foldl (after C N) R) := by
  induction ops generalizing R with
  | nil => exact ⟨hR, hs⟩
  | cons o ops ih =>
    rw [List.foldl_cons]
    have hf' : NoClash C R.fields := by rw [hR]; exact hf
    have : (after C N R o).fields = fields ∧ Sound C N (after C N R o) := by
      cases o with
      | item k => have := getitem_sound hC N k (hC.bound k) R hf' hs; exact ⟨by rw [← hR]; exact this.2.2, this.2.1⟩
      | get k d =>
        simp only [after]; rw [get_eq]
        have := getitem_sound hC N k (hC.bound k) R hf' hs; exact ⟨by rw [← hR]; exact this.2.2, this.2.1⟩
      | mem k => have := contains_sound hC R hf' hs k; exact ⟨by rw [← hR]; exact this.2.2, this.2.1⟩
    exact ih _ this.1 this.2

theorem sound_fresh (C : Cls κ Raw V) (n : Nat) (fields : Dict κ Raw) : Sound C n (fresh fields) := by
  intro k v h; simp [fresh] at h

/-! ## The property -/

/-- **C28.** After any sequence of accesses, `get`s and membership tests the fields are what they were, and an access, a `get`, a membership
test or a raw access gives what it gives on a record nothing was read from. -/
theorem C28_history_independent {C : Cls κ Raw V} {rank : κ → Nat} {N : Nat} (hC : GoodCls C rank N) (fields : Dict κ Raw)
    (hf : NoClash C fields) (ops : List (Op κ V)) (k : κ) :
    let R := ops.foldl (after C N) (fresh fields)
    R.fields = fields ∧ (getitem C N R k).1 = (getitem C N (fresh fields) k).1 ∧
      (∀ d, (get C N R k d).1 = (get C N (fresh fields) k d).1) ∧
      (contains C N R k).1 = (contains C N (fresh fields) k).1 ∧ ∀ d, getRaw C R k d = getRaw C (fresh fields) k d := by
  obtain ⟨h1, h2⟩ := after_sound hC fields hf ops (fresh fields) rfl (sound_fresh C N fields)
  generalize ops.foldl (after C N) (fresh fields) = R at h1 h2
  have hf' : NoClash C R.fields := by rw [h1]; exact hf
  have hg := getitem_sound hC N k (hC.bound k) R hf' h2
  have hg0 := getitem_sound hC N k (hC.bound k) (fresh fields) hf (sound_fresh C N fields)
  have hc := contains_sound hC R hf' h2 k
  have hc0 := contains_sound hC (fresh fields) hf (sound_fresh C N fields) k
  have e0 : (getitem C N R k).1 = (getitem C N (fresh fields) k).1 := by rw [hg.1, hg0.1, h1]; rfl
  refine ⟨h1, e0, ?_, ?_, ?_⟩
  · intro d; rw [get_eq, get_eq, e0]
  · rw [hc.1, hc0.1, altField_fields C R, h1]; rfl
  · intro d; unfold getRaw; rw [altField_fields C R, h1]; rfl

/-- **C28.** The long and the short name of a tag give the same, after any history. -/
theorem C28_either_name {C : Cls κ Raw V} {rank : κ → Nat} {N : Nat} (hC : GoodCls C rank N) (fields : Dict κ Raw)
    (hf : NoClash C fields) (ops : List (Op κ V)) (k a : κ) (ha : C.alt k = some a) :
    let R := ops.foldl (after C N) (fresh fields)
    (getitem C N R k).1 = (getitem C N R a).1 ∧ (∀ d, (get C N R k d).1 = (get C N R a d).1) ∧
      (contains C N R k).1 = (contains C N R a).1 ∧ ∀ d, getRaw C R k d = getRaw C R a d := by
  obtain ⟨h1, h2⟩ := after_sound hC fields hf ops (fresh fields) rfl (sound_fresh C N fields)
  generalize ops.foldl (after C N) (fresh fields) = R at h1 h2
  simp only []
  have hf' : NoClash C R.fields := by rw [h1]; exact hf
  have haa := hC.invol k a ha
  have hev : eval C R.fields N k = eval C R.fields N a := by
    by_cases hak : a = k
    · rw [hak]
    · cases hk : R.fields.get? k with
      | some raw => rw [eval_field C R.fields N k raw hk, eval_altName hC hf' N k a raw hk ha]
      | none =>
        cases h : R.fields.get? a with
        | some raw => rw [eval_field C R.fields N a raw h, eval_altName hC hf' N a k raw h haa]
        | none =>
          have hN := hC.bound k
          cases N with
          | zero => omega
          | succ N =>
            rw [eval_special C R.fields N k hk (by simp [altField, ha, h]), eval_special C R.fields N a h (by simp [altField, haa, hk]),
              hC.special k a ha, hC.special a k haa]
  have e0 : (getitem C N R k).1 = (getitem C N R a).1 := by
    rw [(getitem_sound hC N k (hC.bound k) R hf' h2).1, (getitem_sound hC N a (hC.bound a) R hf' h2).1, hev]
  have hraw : (R.fields.get? k).isSome = false ∨ (R.fields.get? a).isSome = false ∨ a = k := by
    by_cases hak : a = k
    · exact Or.inr (Or.inr hak)
    · have := hf' k a ha hak
      cases h1 : (R.fields.get? k).isSome <;> cases h2 : (R.fields.get? a).isSome <;> simp_all
  refine ⟨e0, ?_, ?_, ?_⟩
  · intro d; rw [get_eq, get_eq, e0]
  · rw [(contains_sound hC R hf' h2 k).1, (contains_sound hC R hf' h2 a).1, hev]
    unfold altField; simp only [ha, haa]
    cases hk : R.fields.get? k <;> cases hka : R.fields.get? a <;> simp
  · intro d
    unfold getRaw altField; simp only [ha, haa]
    rcases hraw with h | h | h
    · have : R.fields.get? k = none := by simpa using h
      cases hka : R.fields.get? a <;> simp [this]
    · have : R.fields.get? a = none := by simpa using h
      cases hka : R.fields.get? k <;> simp [this]
    · subst h; rfl

/-- **C28.** `get` returns the default exactly when access raises `KeyError`, and otherwise does what access does. -/
theorem C28_get (C : Cls κ Raw V) (n : Nat) (R : Rec κ Raw V) (k : κ) (d : V) :
    ((getitem C n R k).1 = .error .keyError → (get C n R k d).1 = .ok d) ∧
    ((getitem C n R k).1 ≠ .error .keyError → (get C n R k d).1 = (getitem C n R k).1) := by
  rw [get_eq]
  cases h : (getitem C n R k).1 with
  | ok v => simp
  | error e => cases e <;> simp

/-- **C28.** After any history `authors` gives the long names, the short ones exactly when the record has no long ones, and `None` when it has neither;
`title` gives the title, and the placeholder exactly when there is none. -/
theorem C28_authors {C : Cls String Raw V} {rank : String → Nat} {N : Nat} (hC : GoodCls C rank N) (fields : Dict String Raw) (hf : NoClash C fields)
    (ops : List (Op String V)) (isNone : V → Bool) (none untitled : V) (hn : isNone none = true) :
    let R := ops.foldl (after C N) (fresh fields)
    let item := fun k => (getitem C N (fresh fields) k).1
    (∀ v, item "authorsFull" = .ok v → isNone v = false → (authors C N R isNone none).1 = .ok v) ∧
    ((item "authorsFull" = .error .keyError ∨ ∃ v, item "authorsFull" = .ok v ∧ isNone v = true) →
      (∀ v, item "authorsShort" = .ok v → (authors C N R isNone none).1 = .ok v) ∧
      (item "authorsShort" = .error .keyError → (authors C N R isNone none).1 = .ok none)) ∧
    (∀ v, item "title" = .ok v → (title C N R untitled).1 = .ok v) ∧
    (item "title" = .error .keyError → (title C N R untitled).1 = .ok untitled) := by
  intro R item
  have hi : ∀ k, (getitem C N R k).1 = item k := fun k => (C28_history_independent hC fields hf ops k).2.1
  have hi2 : ∀ k d, (getitem C N (get C N R "authorsFull" d).2 k).1 = item k := by
    intro k d
    have := (C28_history_independent hC fields hf (ops ++ [Op.get "authorsFull" d]) k).2.1
    rw [List.foldl_append] at this
    exact this
  have hg := C28_get C N R "authorsFull" none
  have hs := C28_get C N (get C N R "authorsFull" none).2 "authorsShort" none
  have ht := C28_get C N R "title" untitled
  rw [hi] at hg ht
  rw [hi2] at hs
  have hau : (authors C N R isNone none).1 = match (get C N R "authorsFull" none).1 with
      | .ok v => if isNone v then (get C N (get C N R "authorsFull" none).2 "authorsShort" none).1 else .ok v
      | .error e => .error e := by
    unfold authors
    rcases get C N R "authorsFull" none with ⟨r, R'⟩
    rcases r with e | v
    · rfl
    · dsimp only; split <;> rfl
  rw [hau]
  refine ⟨?_, ?_, ?_, ?_⟩
  · intro v hv hnv
    rw [hg.2 (by rw [hv]; simp), hv]
    dsimp only
    rw [hnv]
    rfl
  · intro h
    have : ∃ v, (get C N R "authorsFull" none).1 = .ok v ∧ isNone v = true := by
      rcases h with h | ⟨v, h, h'⟩
      · exact ⟨none, hg.1 h, hn⟩
      · exact ⟨v, by rw [hg.2 (by rw [h]; simp), h], h'⟩
    obtain ⟨v, hv, hv'⟩ := this
    rw [hv]
    dsimp only
    rw [hv', if_pos rfl]
    exact ⟨fun w hw => by rw [hs.2 (by rw [hw]; simp), hw], fun hw => hs.1 hw⟩
  · intro v hv
    unfold title
    rw [ht.2 (by rw [hv]; simp), hv]
  · intro h
    exact ht.1 h

/-! ## The classes meet the hypotheses -/

theorem below_read1 (rank : String → Nat) (b : Nat) (k : String) (f : V → Except AErr V) (h : rank k < b) : Below rank b (read1 k f) := by
  refine ⟨h, fun r => ?_⟩
  cases r <;> trivial

theorem below_getOr (rank : String → Nat) (b : Nat) (k : String) (c : Option V → Prog String V) (h : rank k < b) (hc : ∀ o, Below rank b (c o)) :
    Below rank b (getOr k c) := by
  refine ⟨h, fun r => ?_⟩
  rcases r with e | v
  · cases e
    · exact hc none
    · trivial
    · trivial
  · exact hc (some v)

theorem below_cite (rank : String → Nat) (b : Nat) (truthy : V → Bool) (fin : List (Option V) → Except AErr V) (ks : List String)
    (h : ∀ k ∈ ks, rank k < b) (acc : List (Option V)) : Below rank b (citeProg truthy fin ks acc) := by
  induction ks generalizing acc with
  | nil => trivial
  | cons k ks ih =>
    have hk := h k (by simp)
    have ih' := ih (fun j hj => h j (by simp [hj]))
    refine below_getOr rank b k _ hk (fun o => ?_)
    cases o with
    | none => exact ih' _
    | some v =>
      simp only []
      split
      · exact below_getOr rank b k _ hk (fun o' => ih' _)
      · exact ih' _

/-- The rank of a tag: the self citation reads special tags, special tags read fields. -/
def tagRank (special : List String) (k : String) : Nat := if k = "selfCitation" then 2 else if k ∈ special then 1 else 0

theorem tagRank_le (l : List String) (k : String) : tagRank l k ≤ 2 := by
  unfold tagRank; split
  · omega
  · split <;> omega

/-- The special names of Medline records. -/
def medlineNames : List String := "address" :: "id" :: medlineReads.map Prod.fst

theorem C28_medline_class (alt : String → Option String) (halt : ∀ k a, alt k = some a → alt a = some k)
    (hspecial : ∀ k ∈ "selfCitation" :: medlineNames, alt k = none)
    (proc : String → Raw → Except AErr V) (truthy : V → Bool) (fin : List (Option V) → Except AErr V) (ident : V)
    (post : String → V → Except AErr V) (addr : V → V → Except AErr V) :
    GoodCls ⟨alt, proc, medlineSpecial truthy fin ident post addr⟩ (tagRank medlineNames) 3 := by
  refine ⟨halt, ?_, ?_, fun k => Nat.lt_succ_of_le (tagRank_le _ _)⟩
  · intro k a ha
    have hk : k ∉ "selfCitation" :: medlineNames := fun h => by have ha : alt k = some a := ha; rw [hspecial k h] at ha; cases ha
    simp only [medlineNames, List.mem_cons, not_or] at hk
    simp only [medlineSpecial, hk.1, hk.2.1, hk.2.2.1, if_false]
    have : Dict.get? medlineReads k = none := by rw [Dict.get?_eq_none_iff]; exact hk.2.2.2
    rw [this]
  · intro k
    unfold medlineSpecial
    by_cases h1 : k = "selfCitation"
    · subst h1
      exact below_cite _ _ _ _ _ (by decide) _
    · by_cases h2 : k = "id"
      · subst h2; trivial
      · by_cases h3 : k = "address"
        · subst h3
          refine ⟨by decide, fun r => ?_⟩
          cases r with
          | error e => trivial
          | ok v => exact below_read1 _ _ _ _ (by decide)
        · simp only [h1, h2, h3, if_false]
          cases hg : Dict.get? medlineReads k with
          | none => trivial
          | some t =>
            have hm := Dict.mem_of_get? hg
            have : ∀ p ∈ medlineReads, tagRank medlineNames p.2 < tagRank medlineNames p.1 := by decide
            exact below_read1 _ _ _ _ (this (k, t) hm)

/-- Records whose class has no alternative names: Scopus. -/
theorem C28_scopus_class (proc : String → Raw → Except AErr V) (truthy : V → Bool) (fin : List (Option V) → Except AErr V) :
    GoodCls ⟨fun _ => none, proc, scopusSpecial truthy fin⟩ (tagRank (scopusReads.map Prod.fst)) 3 := by
  refine ⟨by simp, by simp, ?_, fun k => Nat.lt_succ_of_le (tagRank_le _ _)⟩
  intro k
  unfold scopusSpecial
  by_cases h1 : k = "selfCitation"
  · subst h1
    exact below_cite _ _ _ _ _ (by decide) _
  · simp only [h1, if_false]
    cases hg : Dict.get? scopusReads k with
    | none => trivial
    | some t =>
      have hm := Dict.mem_of_get? hg
      have : ∀ p ∈ scopusReads, tagRank (scopusReads.map Prod.fst) p.2 < tagRank (scopusReads.map Prod.fst) p.1 := by decide
      exact below_read1 _ _ _ _ (this (k, t) hm)

/-- ProQuest. -/
theorem C28_proQuest_class (proc : String → Raw → Except AErr V) (truthy : V → Bool) (fin : List (Option V) → Except AErr V)
    (ident zero author : V) :
    GoodCls ⟨fun _ => none, proc, proQuestSpecial truthy fin ident zero author⟩ (tagRank (proQuestReads.map Prod.fst)) 3 := by
  refine ⟨by simp, by simp, ?_, fun k => Nat.lt_succ_of_le (tagRank_le _ _)⟩
  intro k
  unfold proQuestSpecial
  by_cases h1 : k = "selfCitation"
  · subst h1
    exact below_cite _ _ _ _ _ (by decide) _
  · simp only [h1, if_false]
    split
    · trivial
    · split
      · trivial
      · split
        · trivial
        · cases hg : Dict.get? proQuestReads k with
          | none => trivial
          | some t =>
            have hm := Dict.mem_of_get? hg
            have : ∀ p ∈ proQuestReads, tagRank (proQuestReads.map Prod.fst) p.2 < tagRank (proQuestReads.map Prod.fst) p.1 := by decide
            exact below_read1 _ _ _ _ (this (k, t) hm)

/-- WOS. -/
theorem C28_wos_class (alt : String → Option String) (halt : ∀ k a, alt k = some a → alt a = some k)
    (hspecial : ∀ k ∈ ["selfCitation", "id", "grants"], alt k = none)
    (proc : String → Raw → Except AErr V) (truthy : V → Bool) (fin : List (Option V) → Except AErr V) (ident noGrants : V) :
    GoodCls ⟨alt, proc, wosSpecial truthy fin ident noGrants⟩ (tagRank []) 3 := by
  refine ⟨halt, ?_, ?_, fun k => Nat.lt_succ_of_le (tagRank_le _ _)⟩
  · intro k a ha
    have hk : k ∉ ["selfCitation", "id", "grants"] := fun h => by have ha : alt k = some a := ha; rw [hspecial k h] at ha; cases ha
    simp only [List.mem_cons, List.not_mem_nil, or_false, not_or] at hk
    simp only [wosSpecial, hk.1, hk.2.1, hk.2.2, if_false]
  · intro k
    unfold wosSpecial
    by_cases h1 : k = "selfCitation"
    · subst h1
      exact below_cite _ _ _ _ _ (by decide) _
    · simp only [h1, if_false]
      split
      · trivial
      · split <;> trivial

/-- **C28, disagreement.** When a record has fields under both names of a tag, what one name gives depends on whether the other was read
before. -/
theorem C28_clash_depends_on_history :
    ∃ (C : Cls String Nat Nat) (rank : String → Nat) (fields : Dict String Nat), GoodCls C rank 3 ∧
      ((getitem C 3 (fresh fields) "j9").1).toOption = some 2 ∧
      ((getitem C 3 (after C 3 (fresh fields) (.item "J9")) "j9").1).toOption = some 1 := by
  refine ⟨⟨fun k => if k = "J9" then some "j9" else if k = "j9" then some "J9" else none, fun _ v => .ok v,
    wosSpecial (fun _ => true) (fun _ => .ok 0) 0 0⟩, tagRank [], [("J9", 1), ("j9", 2)],
    C28_wos_class _ ?_ (by decide) _ _ _ _ _, by decide, by decide⟩
  intro k a ha
  by_cases h1 : k = "J9"
  · subst h1; simp at ha; subst ha; decide
  · by_cases h2 : k = "j9"
    · subst h2; simp at ha; subst ha; decide
    · simp [h1, h2] at ha

/-- The hypotheses hold for a WOS record with a title under its short name, and the history matters to the memo. -/
example : ∃ (C : Cls String Nat Nat) (fields : Dict String Nat), GoodCls C (tagRank []) 3 ∧ NoClash C fields ∧
    ([Op.item "title", Op.mem "selfCitation"].foldl (after C 3) (fresh fields)).memo.keys = ["TI", "title", "selfCitation"] := by
  refine ⟨⟨fun k => if k = "TI" then some "title" else if k = "title" then some "TI" else none, fun _ v => .ok v,
    wosSpecial (fun _ => true) (fun _ => .ok 0) 0 0⟩, [("TI", 1)], C28_wos_class _ ?_ (by decide) _ _ _ _ _, ?_, by decide⟩
  · intro k a ha
    by_cases h1 : k = "TI"
    · subst h1; simp at ha; subst ha; decide
    · by_cases h2 : k = "title"
      · subst h2; simp at ha; subst ha; decide
      · simp [h1, h2] at ha
  · intro k a ha hne h
    by_cases h1 : k = "TI"
    · subst h1; simp at ha; subst ha; exact absurd h (by decide)
    · by_cases h2 : k = "title"
      · subst h2; simp at ha; subst ha; exact absurd h (by decide)
      · simp [h1, h2] at ha

end Verif.Props
