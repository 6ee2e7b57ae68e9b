import Verif.Py.Str

/-!
# Decimal numbers

`str` of an integer and `int` of a string of ASCII digits. Nothing here models a particular file of /repo.
-/
set_option autoImplicit false
namespace Verif.Py

/-- `[0-9]` -/
def isDig (c : Char) : Bool := '0' ≤ c ∧ c ≤ '9'

/-- The digit for a number below ten. -/
def digitChar (n : Nat) : Char := Char.ofNat (48 + n)

def digitVal (c : Char) : Nat := c.toNat - 48

/-- The decimal digits of a number, with fuel. -/
def showAux : Nat → Nat → Str
  | 0, _ => []
  | f + 1, n => if n < 10 then [digitChar n] else showAux f (n / 10) ++ [digitChar (n % 10)]

/-- `str(n)` -/
def showNat (n : Nat) : Str := showAux (n + 1) n

/-- The number a string of digits stands for. -/
def readNat (s : Str) : Nat := s.foldl (fun a c => 10 * a + digitVal c) 0

/-- `str(i)` -/
def showInt : Int → Str
  | .ofNat n => showNat n
  | .negSucc n => '-' :: showNat (n + 1)

/-- `int(s)` for `-?[0-9]+` -/
def readInt : Str → Int
  | '-' :: s => -(readNat s : Int)
  | s => (readNat s : Int)

theorem digit_table : ∀ n, n < 10 → digitVal (digitChar n) = n ∧ isDig (digitChar n) = true := by decide

theorem showAux_spec (f n : Nat) (h : n < f) : readNat (showAux f n) = n ∧ (∀ c ∈ showAux f n, isDig c = true) ∧ showAux f n ≠ [] := by
  induction f generalizing n with
  | zero => omega
  | succ f ih =>
    rw [showAux]
    split
    · rename_i h10
      have := digit_table n h10
      refine ⟨by simp [readNat, this.1], ?_, by simp⟩
      intro c hc
      simp at hc; subst hc; exact this.2
    · obtain ⟨h1, h2, h3⟩ := ih (n / 10) (by omega)
      have := digit_table (n % 10) (by omega)
      refine ⟨?_, ?_, by simp⟩
      · unfold readNat at h1 ⊢
        rw [List.foldl_append, h1]
        simp only [List.foldl_cons, List.foldl_nil, this.1]
        omega
      · intro c hc
        rcases List.mem_append.1 hc with h | h
        · exact h2 c h
        · simp at h; subst h; exact this.2

theorem readNat_showNat (n : Nat) : readNat (showNat n) = n := (showAux_spec (n + 1) n (by omega)).1
theorem showNat_digits (n : Nat) : ∀ c ∈ showNat n, isDig c = true := (showAux_spec (n + 1) n (by omega)).2.1
theorem showNat_ne_nil (n : Nat) : showNat n ≠ [] := (showAux_spec (n + 1) n (by omega)).2.2

theorem showAux_length (f n k : Nat) (h : n < f) (hk : n < 10 ^ (k + 1)) : (showAux f n).length ≤ k + 1 := by
  induction f generalizing n k with
  | zero => omega
  | succ f ih =>
    rw [showAux]
    split
    · simp
    · cases k with
      | zero => omega
      | succ k =>
        have := ih (n / 10) k (by omega) (by rw [Nat.pow_succ] at hk; omega)
        simp; omega

theorem showNat_length (n : Nat) (h : n < 100000) : (showNat n).length ≤ 5 := showAux_length (n + 1) n 4 (by omega) (by simpa using h)

theorem dash_not_dig : isDig '-' = false := by decide

theorem readInt_digits (s : Str) (h : ∀ c ∈ s, isDig c = true) : readInt s = (readNat s : Int) := by
  unfold readInt
  split
  · rename_i t
    have := h '-' (by simp)
    rw [dash_not_dig] at this; cases this
  · rfl

theorem readInt_showInt (i : Int) : readInt (showInt i) = i := by
  cases i with
  | ofNat n => rw [showInt, readInt_digits _ (showNat_digits n), readNat_showNat]; rfl
  | negSucc n =>
    rw [showInt, readInt, readNat_showNat]; rfl

theorem showInt_injective (i j : Int) (h : showInt i = showInt j) : i = j := by rw [← readInt_showInt i, h, readInt_showInt]

theorem isDig_ne_comma (c : Char) (h : isDig c = true) : c ≠ ',' := by
  rintro rfl; revert h; decide

theorem showInt_no_comma (i : Int) : ',' ∉ showInt i := by
  intro h
  cases i with
  | ofNat n => exact isDig_ne_comma _ (showNat_digits n _ h) rfl
  | negSucc n =>
    rw [showInt] at h
    rcases List.mem_cons.1 h with h | h
    · revert h; decide
    · exact isDig_ne_comma _ (showNat_digits _ _ h) rfl

end Verif.Py
