import Verif.Spec.Json

/-! # A text is JSON for at most one value -/
set_option autoImplicit false
set_option linter.unusedSimpArgs false
namespace Verif.Lemmas.Json
open Verif.Py Verif.Spec.Json

def rest (l : List Value) : List Tok := if l = [] then [] else .punct ',' :: items l
def restM (l : List (Str × Value)) : List Tok := if l = [] then [] else .punct ',' :: members l

theorem items_eq (v : Value) (l : List Value) : items (v :: l) = toks v ++ rest l := by
  cases l with
  | nil => simp [items, rest]
  | cons w l => simp [items, rest]

theorem members_eq (m : Str × Value) (l : List (Str × Value)) : members (m :: l) = .str m.1 :: .punct ':' :: (toks m.2 ++ restM l) := by
  cases l with
  | nil => simp [members, restM]
  | cons w l => simp [members, restM]

theorem toks_head (v : Value) : ∃ t r, toks v = t :: r ∧ t ≠ .punct ']' := by
  cases v with
  | null => exact ⟨_, _, by rw [toks], by simp⟩
  | bool b => exact ⟨_, _, by rw [toks], by simp⟩
  | num n => exact ⟨_, _, by rw [toks], by simp⟩
  | str s => exact ⟨_, _, by rw [toks], by simp⟩
  | arr l => exact ⟨_, _, by rw [toks, List.cons_append], by simp⟩
  | obj l => exact ⟨_, _, by rw [toks, List.cons_append], by simp⟩

def Prefix (v : Value) : Prop := ∀ w a b, toks v ++ a = toks w ++ b → v = w ∧ a = b

theorem items_prefix (l : List Value) (h : ∀ v ∈ l, Prefix v) : ∀ l' a b, items l ++ .punct ']' :: a = items l' ++ .punct ']' :: b → l = l' ∧ a = b := by
  induction l with
  | nil =>
    intro l' a b e
    cases l' with
    | nil => simpa [items] using e
    | cons w l' =>
      obtain ⟨t, r, h1, h2⟩ := toks_head w
      rw [items_eq, h1, items] at e
      simp only [List.nil_append, List.cons_append, List.cons.injEq] at e
      exact absurd e.1.symm h2
  | cons v l ih =>
    intro l' a b e
    cases l' with
    | nil =>
      obtain ⟨t, r, h1, h2⟩ := toks_head v
      rw [items_eq, h1, items] at e
      simp only [List.nil_append, List.cons_append, List.cons.injEq] at e
      exact absurd e.1 h2
    | cons w l' =>
      rw [items_eq, items_eq, List.append_assoc, List.append_assoc] at e
      obtain ⟨hvw, f⟩ := h v (by simp) w _ _ e
      clear e
      subst hvw
      have ih := ih (fun x hx => h x (by simp [hx])) l'
      unfold rest at f
      by_cases h1 : l = [] <;> by_cases h2 : l' = []
      · subst h1 h2; simpa using f
      · rw [if_pos h1, if_neg h2] at f; simp at f
      · rw [if_neg h1, if_pos h2] at f; simp at f
      · rw [if_neg h1, if_neg h2] at f
        simp only [List.cons_append, List.cons.injEq, true_and] at f
        obtain ⟨rfl, rfl⟩ := ih _ _ f
        exact ⟨rfl, rfl⟩

theorem members_prefix (l : List (Str × Value)) (h : ∀ m ∈ l, Prefix m.2) :
    ∀ l' a b, members l ++ .punct '}' :: a = members l' ++ .punct '}' :: b → l = l' ∧ a = b := by
  induction l with
  | nil =>
    intro l' a b e
    cases l' with
    | nil => simpa [members] using e
    | cons w l' =>
      rw [members_eq, members] at e
      simp at e
  | cons v l ih =>
    intro l' a b e
    cases l' with
    | nil =>
      rw [members_eq, members] at e
      simp at e
    | cons w l' =>
      rw [members_eq, members_eq] at e
      simp only [List.cons_append, List.append_assoc, List.cons.injEq, Tok.str.injEq, true_and] at e
      obtain ⟨e1, e⟩ := e
      obtain ⟨e2, f⟩ := h v (by simp) w.2 _ _ e
      clear e
      have hvw : v = w := Prod.ext e1 e2
      subst hvw
      have ih := ih (fun x hx => h x (by simp [hx])) l'
      unfold restM at f
      by_cases h1 : l = [] <;> by_cases h2 : l' = []
      · subst h1 h2; simpa using f
      · rw [if_pos h1, if_neg h2] at f; simp at f
      · rw [if_neg h1, if_pos h2] at f; simp at f
      · rw [if_neg h1, if_neg h2] at f
        simp only [List.cons_append, List.cons.injEq, true_and] at f
        obtain ⟨rfl, rfl⟩ := ih _ _ f
        exact ⟨rfl, rfl⟩

theorem items_length (l : List Value) : ∀ v ∈ l, (toks v).length ≤ (items l).length := by
  induction l with
  | nil => simp
  | cons w l ih =>
    intro v hv
    rw [items_eq, List.length_append]
    rcases List.mem_cons.1 hv with rfl | hv
    · omega
    · have := ih v hv
      have : (rest l).length = (items l).length + 1 := by
        unfold rest
        rw [if_neg (by rintro rfl; simp at hv)]
        simp
      omega

theorem members_length (l : List (Str × Value)) : ∀ m ∈ l, (toks m.2).length ≤ (members l).length := by
  induction l with
  | nil => simp
  | cons w l ih =>
    intro v hv
    rw [members_eq, List.length_cons, List.length_cons, List.length_append]
    rcases List.mem_cons.1 hv with rfl | hv
    · omega
    · have := ih v hv
      have : (restM l).length = (members l).length + 1 := by
        unfold restM
        rw [if_neg (by rintro rfl; simp at hv)]
        simp
      omega

theorem showNat_word (n : Nat) (w : Str) (c : Char) (hc : c ∈ w) (hd : isDig c = false) : showNat n ≠ w := by
  intro e
  have := showNat_digits n c (by rw [e]; exact hc)
  rw [hd] at this
  simp at this

theorem toks_prefix (k : Nat) : ∀ v, (toks v).length ≤ k → Prefix v := by
  induction k with
  | zero =>
    intro v hv
    obtain ⟨t, r, h, -⟩ := toks_head v
    rw [h] at hv
    simp at hv
  | succ k ih =>
    intro v hv w a b e
    have n1 : ∀ n, showNat n ≠ "null".toList := fun n => showNat_word n _ 'n' (by decide) (by decide)
    have n2 : ∀ n, showNat n ≠ "true".toList := fun n => showNat_word n _ 't' (by decide) (by decide)
    have n3 : ∀ n, showNat n ≠ "false".toList := fun n => showNat_word n _ 'f' (by decide) (by decide)
    have n4 : ∀ n m, showNat n = showNat m → n = m := fun n m h => by
      have := congrArg readNat h
      rwa [readNat_showNat, readNat_showNat] at this
    cases v with
    | null =>
      cases w with
      | null => simpa [toks] using e
      | bool c => cases c <;> simp [toks] at e
      | num n =>
        simp only [toks, List.singleton_append, List.cons.injEq, Tok.word.injEq] at e
        exact absurd e.1.symm (n1 n)
      | str s => simp [toks] at e
      | arr l => simp [toks] at e
      | obj l => simp [toks] at e
    | bool c =>
      cases w with
      | null => cases c <;> simp [toks] at e
      | bool d => cases c <;> cases d <;> simp [toks] at e <;> simp [e]
      | num n =>
        simp only [toks, List.singleton_append, List.cons.injEq, Tok.word.injEq] at e
        cases c
        · exact absurd e.1.symm (n3 n)
        · exact absurd e.1.symm (n2 n)
      | str s => simp [toks] at e
      | arr l => simp [toks] at e
      | obj l => simp [toks] at e
    | num n =>
      cases w with
      | null =>
        simp only [toks, List.singleton_append, List.cons.injEq, Tok.word.injEq] at e
        exact absurd e.1 (n1 n)
      | bool c =>
        simp only [toks, List.singleton_append, List.cons.injEq, Tok.word.injEq] at e
        cases c
        · exact absurd e.1 (n3 n)
        · exact absurd e.1 (n2 n)
      | num m =>
        simp only [toks, List.singleton_append, List.cons.injEq, Tok.word.injEq] at e
        rw [n4 n m e.1]
        exact ⟨rfl, e.2⟩
      | str s => simp [toks] at e
      | arr l => simp [toks] at e
      | obj l => simp [toks] at e
    | str s =>
      cases w with
      | str t => simp [toks] at e; simp [e]
      | null => simp [toks] at e
      | bool c => simp [toks] at e
      | num m => simp [toks] at e
      | arr l => simp [toks] at e
      | obj l => simp [toks] at e
    | arr l =>
      cases w with
      | arr l' =>
        simp only [toks, List.cons_append, List.append_assoc, List.cons.injEq, true_and, List.nil_append] at e
        have hl : ∀ v ∈ l, Prefix v := by
          intro v hm
          apply ih
          have := items_length l v hm
          simp only [toks, List.length_append, List.length_cons, List.length_nil] at hv
          omega
        obtain ⟨rfl, rfl⟩ := items_prefix l hl _ _ _ e
        exact ⟨rfl, rfl⟩
      | str t => simp [toks] at e
      | null => simp [toks] at e
      | bool c => simp [toks] at e
      | num m => simp [toks] at e
      | obj l => simp [toks] at e
    | obj l =>
      cases w with
      | obj l' =>
        simp only [toks, List.cons_append, List.append_assoc, List.cons.injEq, true_and, List.nil_append] at e
        have hl : ∀ v ∈ l, Prefix v.2 := by
          intro v hm
          apply ih
          have := members_length l v hm
          simp only [toks, List.length_append, List.length_cons, List.length_nil] at hv
          omega
        obtain ⟨rfl, rfl⟩ := members_prefix l hl _ _ _ e
        exact ⟨rfl, rfl⟩
      | str t => simp [toks] at e
      | null => simp [toks] at e
      | bool c => simp [toks] at e
      | num m => simp [toks] at e
      | arr l => simp [toks] at e

/-- A text is JSON for at most one value. -/
theorem unique (text : Str) (v w : Value) (hv : IsJson text v) (hw : IsJson text w) : v = w := by
  unfold IsJson at hv hw
  rw [hv] at hw
  have e : toks v ++ [] = toks w ++ [] := by rw [List.append_nil, List.append_nil]; exact Option.some.inj hw
  exact (toks_prefix _ v (Nat.le_refl _) w [] [] e).1

end Verif.Lemmas.Json
