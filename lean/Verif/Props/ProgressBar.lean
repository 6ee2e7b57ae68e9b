import Verif.Model.ProgressBar
import Mathlib.Tactic.Linarith
import Mathlib.Tactic.NormNum
import Mathlib.Tactic.Positivity
import Mathlib.Algebra.Order.Floor.Ring

/-!
# C54: progress strings fit
-/
set_option autoImplicit false
namespace Verif.Props.ProgressBar
open Verif.Py Verif.Model.ProgressBar

theorem length_sliceTo (s : Str) (i : Int) : ((sliceTo s i).length : Int) = if 0 ≤ i then min i s.length else max 0 (s.length + i) := by
  unfold sliceTo; split <;> simp <;> omega

theorem length_sliceFrom (s : Str) (i : Int) : ((sliceFrom s i).length : Int) = if 0 ≤ i then max 0 (s.length - i) else min (s.length) (-i) := by
  unfold sliceFrom; split <;> simp <;> omega

theorem tdiv2 (x : Int) : ∃ q, Int.tdiv x 2 = q ∧ (0 ≤ x → 2 * q ≤ x ∧ x < 2 * q + 2) ∧ (x < 0 → x ≤ 2 * q ∧ 2 * q - 2 < x) := by
  refine ⟨_, rfl, ?_, ?_⟩
  · intro h
    rw [Int.tdiv_eq_ediv_of_nonneg h]; omega
  · intro h
    obtain ⟨y, rfl⟩ : ∃ y, x = -y := ⟨-x, by omega⟩
    rw [Int.neg_tdiv, Int.tdiv_eq_ediv_of_nonneg (by omega)]; omega

/-- C54: the string has exactly the width asked for whenever there is room for the ellipsis (six characters) or the text fits, and in no
other case. -/
theorem C54_width (s : Str) (n : Int) : ((prepString s n).length : Int) = n ↔ 6 ≤ n ∨ (s.length : Int) < n := by
  unfold prepString
  simp only
  split
  · simp only [ljust, List.length_append, List.length_replicate, List.length_cons, List.length_nil]
    omega
  · have hl : (("...".toList : Str).length : Int) = 3 := rfl
    split
    · obtain ⟨q, hq, q1, q2⟩ := tdiv2 (n - 1 - 6)
      obtain ⟨r, hr, r1, r2⟩ := tdiv2 (-(n - 1))
      rw [hq, hr]
      have h1 := length_sliceTo s q
      have h2 := length_sliceFrom s r
      simp only [List.length_append, List.length_cons, List.length_nil, Int.natCast_add, hl]
      split at h1 <;> split at h2 <;> rw [h1, h2] <;> omega
    · obtain ⟨q, hq, q1, q2⟩ := tdiv2 (n - 1 - 4)
      obtain ⟨r, hr, r1, r2⟩ := tdiv2 (-(n - 1))
      rw [hq, hr]
      have h1 := length_sliceTo s q
      have h2 := length_sliceFrom s r
      simp only [List.length_append, List.length_cons, List.length_nil, Int.natCast_add, hl]
      split at h1 <;> split at h2 <;> rw [h1, h2] <;> omega

/-- C54: what is shown: a text that fits is shown whole, a longer one by its beginning and its end. -/
theorem C54_text (s : Str) (n : Int) (hn : 6 ≤ n) :
    ((s.length : Int) < n → ∃ k, prepString s n = s ++ List.replicate (k + 1) ' ') ∧
    (n ≤ s.length → ∃ a b, prepString s n = a ++ "...".toList ++ b ++ " ".toList ∧ a <+: s ∧ b <:+ s ∧ (b.length : Int) = (n - 1) / 2) := by
  constructor
  · intro h
    refine ⟨(n - 1 - s.length).toNat, ?_⟩
    unfold prepString
    simp only
    rw [if_pos (by omega), ljust, List.append_assoc, List.replicate_succ']
  · intro h
    have hT : ∀ i, sliceTo s i <+: s := by
      intro i; unfold sliceTo; split <;> exact List.take_prefix _ _
    have hF : ∀ i, sliceFrom s i <:+ s := by
      intro i; unfold sliceFrom; split <;> exact List.drop_suffix _ _
    have hb : ((sliceFrom s (Int.tdiv (-(n - 1)) 2)).length : Int) = (n - 1) / 2 := by
      obtain ⟨r, hr, r1, r2⟩ := tdiv2 (-(n - 1))
      rw [hr, length_sliceFrom]
      split <;> omega
    unfold prepString
    simp only
    rw [if_neg (by omega)]
    split
    · exact ⟨_, _, rfl, hT _, hF _, hb⟩
    · exact ⟨_, _, rfl, hT _, hF _, hb⟩

/-- C54: no line is wider than the terminal: in a terminal of at least twenty columns every row has exactly its width, given that the bar is at
most full and that the time and the percentage take the six characters reserved for each. -/
theorem C54_lines (columns : Int) (hc : 20 ≤ columns) (barLength : Nat) (hb : (barLength : Int) ≤ barMax columns) (text time percent : Str)
    (ht : time.length = 6) (hp : percent.length = 6) :
    ((barLine columns barLength percent).length : Int) = columns ∧ ((secondRow columns text time).length : Int) = columns ∧
      ((textLine columns text time percent).length : Int) = columns := by
  have hm : barMax columns = columns - 8 := by unfold barMax; rw [if_neg (by omega)]
  rw [hm] at hb
  refine ⟨?_, ?_, ?_⟩
  · unfold barLine
    rw [hm]
    split <;> simp [hp] <;> omega
  · unfold secondRow
    have := (C54_width text (barMax columns + 8 - 6)).2 (Or.inl (by omega))
    rw [List.length_append, Int.natCast_add, this, ht, hm]
    omega
  · unfold textLine
    have := (C54_width text (barMax columns + 8 - 6 - 6 - 2)).2 (Or.inl (by omega))
    have e1 : ("[".toList : Str).length = 1 := rfl
    have e2 : ("]".toList : Str).length = 1 := rfl
    simp only [List.length_append, Int.natCast_add, this, ht, hp, e1, e2]
    rw [hm]
    omega

/-! ## Time and percentage -/

theorem nearest_bounds (q : Rat) : q - 1 / 2 ≤ nearest q ∧ (nearest q : Rat) ≤ q + 1 / 2 := by
  have h1 := Int.floor_le q
  have h2 := Int.lt_floor_add_one q
  unfold nearest
  split
  · exact ⟨by linarith, by linarith⟩
  · split
    · push_cast; exact ⟨by linarith, by linarith⟩
    · split
      · exact ⟨by linarith, by linarith⟩
      · push_cast; exact ⟨by linarith, by linarith⟩

theorem nearest_nonneg {q : Rat} (h : 0 ≤ q) : 0 ≤ nearest q := by
  have := (nearest_bounds q).1
  by_contra hc
  have h2 : nearest q ≤ -1 := by omega
  have h3 : (nearest q : Rat) ≤ -1 := by exact_mod_cast h2
  linarith

theorem toNat_nearest {q : Rat} (h : 0 ≤ q) : ((nearest q).toNat : Rat) = nearest q := by
  have := nearest_nonneg h
  have e : ((nearest q).toNat : Int) = nearest q := Int.toNat_of_nonneg this
  exact_mod_cast congrArg (Int.cast (R := Rat)) e

theorem showNat_length_le (n k : Nat) (h : n < 10 ^ (k + 1)) : (showNat n).length ≤ k + 1 := showAux_length (n + 1) n k (by omega) h

theorem showNat_length_pos (n : Nat) : 1 ≤ (showNat n).length := List.length_pos_of_ne_nil (showNat_ne_nil n)

theorem showNat_digit (n : Nat) (h : n < 10) : (showNat n).length = 1 := by
  have := showNat_length_le n 0 (by simpa using h)
  have := showNat_length_pos n
  omega

theorem length_rjust (s : Str) (n : Int) (h : (s.length : Int) ≤ n) : ((rjust s n).length : Int) = n := by
  unfold rjust; simp; omega

/-- The test of `prepTime`: it compares with 0.977…·10^(maxLength − 3), and floating point numbers are near enough. -/
def Fair (large : Rat → Int → Bool) : Prop :=
  ∀ (t : Rat) (k : Nat), 3 ≤ k → (large t (k + 3) = true → 97 / 100 * 10 ^ k ≤ t) ∧ (large t (k + 3) = false → t ≤ 98 / 100 * 10 ^ k)

/-- C54: with one decimal: the text is a number of whole units, a point and a digit, and no number with one decimal is nearer. -/
theorem C54_fixed (t : Rat) (ht : 0 ≤ t) :
    ∃ a d : Nat, d < 10 ∧ fixed1 t = showNat a ++ ['.'] ++ showNat d ∧ |(a + d / 10 : Rat) - t| ≤ 1 / 20 := by
  obtain ⟨h1, h2⟩ := nearest_bounds (10 * t)
  have h3 := toNat_nearest (q := 10 * t) (by linarith)
  refine ⟨(nearest (10 * t)).toNat / 10, (nearest (10 * t)).toNat % 10, Nat.mod_lt _ (by omega), rfl, ?_⟩
  generalize (nearest (10 * t)).toNat = n at h3
  have e : (10 * (n / 10 : Nat) + (n % 10 : Nat) : Rat) = n := by exact_mod_cast Nat.div_add_mod n 10
  rw [← h3] at h1 h2
  rw [abs_le]
  constructor <;> linarith

theorem fixed1_length (t : Rat) (ht : 0 ≤ t) (k : Nat) (hk : 1 ≤ k) (h : t ≤ 98 / 100 * 10 ^ k) : (fixed1 t).length ≤ k + 2 := by
  obtain ⟨h1, h2⟩ := nearest_bounds (10 * t)
  have h3 := toNat_nearest (q := 10 * t) (by linarith)
  unfold fixed1
  dsimp only
  generalize (nearest (10 * t)).toNat = n at h3
  have hp : (10 : Rat) ≤ 10 ^ k := by
    obtain ⟨j, rfl⟩ : ∃ j, k = j + 1 := ⟨k - 1, by omega⟩
    have : (1 : Rat) ≤ 10 ^ j := one_le_pow₀ (by norm_num)
    rw [pow_succ]; linarith
  have hn : (n : Rat) < 10 * 10 ^ k := by rw [h3]; linarith
  have hn' : n < 10 * 10 ^ k := by exact_mod_cast hn
  have hlen := showNat_length_le (n / 10) (k - 1) (by rw [Nat.sub_add_cancel hk]; omega)
  have := showNat_digit (n % 10) (Nat.mod_lt _ (by omega))
  simp only [List.length_append, List.length_cons, List.length_nil]
  omega

theorem log_bounds (t : Rat) (ht : 1 ≤ t) : (10 : Rat) ^ Nat.log 10 ⌊t⌋₊ ≤ t ∧ t < 10 * 10 ^ Nat.log 10 ⌊t⌋₊ := by
  have hf : 1 ≤ ⌊t⌋₊ := by rw [Nat.one_le_floor_iff]; exact ht
  have h1 : 10 ^ Nat.log 10 ⌊t⌋₊ ≤ ⌊t⌋₊ := Nat.pow_log_le_self 10 (by omega)
  have h2 : ⌊t⌋₊ + 1 ≤ 10 ^ (Nat.log 10 ⌊t⌋₊ + 1) := Nat.lt_pow_succ_log_self (by norm_num) _
  have h3 := Nat.floor_le (show 0 ≤ t by linarith)
  have h4 := Nat.lt_floor_add_one t
  constructor
  · have : ((10 ^ Nat.log 10 ⌊t⌋₊ : Nat) : Rat) ≤ (⌊t⌋₊ : Rat) := by exact_mod_cast h1
    push_cast at this
    linarith
  · have : ((⌊t⌋₊ + 1 : Nat) : Rat) ≤ ((10 ^ (Nat.log 10 ⌊t⌋₊ + 1) : Nat) : Rat) := by exact_mod_cast h2
    push_cast at this
    rw [pow_succ] at this
    linarith

/-- C54: with an exponent: a digit other than 0 and an exponent, and the number they give is off by at most half a unit of that digit. -/
theorem C54_exponent (t : Rat) (h1 : 1 ≤ t) :
    ∃ d e : Nat, 1 ≤ d ∧ d < 10 ∧ sci0 t = showNat d ++ "E+".toList ++ (if e < 10 then ['0'] else []) ++ showNat e ∧
      |(d * 10 ^ e : Rat) - t| ≤ 10 ^ e / 2 ∧ (10 : Rat) ^ e ≤ 2 * t ∧ (t < 19 / 2 * 10 ^ 99 → e ≤ 99) := by
  obtain ⟨l1, l2⟩ := log_bounds t h1
  unfold sci0
  generalize Nat.log 10 ⌊t⌋₊ = e at l1 l2
  dsimp only
  have hp : (0 : Rat) < 10 ^ e := by positivity
  have q1 : 1 ≤ t / 10 ^ e := by rw [le_div_iff₀ hp]; linarith
  have q2 : t / 10 ^ e < 10 := by rw [div_lt_iff₀ hp]; linarith
  have et : t = t / 10 ^ e * 10 ^ e := by field_simp
  generalize hq : t / 10 ^ e = q at q1 q2 et
  obtain ⟨b1, b2⟩ := nearest_bounds q
  have h3 := toNat_nearest (q := q) (by linarith)
  generalize (nearest q).toNat = d at h3
  rw [← h3] at b1 b2
  have d1 : 1 ≤ d := by
    have : (0 : Rat) < d := by linarith
    have : 0 < d := by exact_mod_cast this
    omega
  have d2 : d ≤ 10 := by
    have : (d : Rat) < 11 := by linarith
    have : d < 11 := by exact_mod_cast this
    omega
  have he : ∀ j : Nat, (10 : Rat) ^ j ≤ t → t < 19 / 2 * 10 ^ 99 → j ≤ 99 := by
    intro j hj ht
    by_contra hc
    have : (10 : Rat) ^ 100 ≤ 10 ^ j := pow_le_pow_right₀ (by norm_num) (by omega)
    have e100 : (10 : Rat) ^ 100 = 10 * 10 ^ 99 := by rw [pow_succ]; ring
    have hp : (0 : Rat) < 10 ^ 99 := by positivity
    rw [e100] at this
    linarith
  by_cases hd : d = 10
  · subst hd
    refine ⟨1, e + 1, by omega, by omega, rfl, ?_, ?_, ?_⟩
    · push_cast at b1 b2
      have e2 : (10 : Rat) ^ (e + 1) = 10 * 10 ^ e := by rw [pow_succ]; ring
      rw [e2, et, abs_le]
      have m1 : q * 10 ^ e ≤ 10 * 10 ^ e := mul_le_mul_of_nonneg_right (by linarith) (le_of_lt hp)
      have m2 : (19 / 2) * 10 ^ e ≤ q * 10 ^ e := mul_le_mul_of_nonneg_right (by linarith) (le_of_lt hp)
      constructor <;> push_cast <;> linarith
    · push_cast at b2
      have m2 : (19 / 2) * 10 ^ e ≤ q * 10 ^ e := mul_le_mul_of_nonneg_right (by linarith) (le_of_lt hp)
      rw [pow_succ, et]; linarith
    · intro ht
      have := he e l1 ht
      by_contra hc
      have : e = 99 := by omega
      subst this
      push_cast at b2
      have m2 : (19 / 2) * 10 ^ 99 ≤ q * 10 ^ 99 := mul_le_mul_of_nonneg_right (by linarith) (le_of_lt hp)
      linarith
  · refine ⟨d, e, d1, by omega, by rw [if_neg hd]; rfl, ?_, by linarith, he e l1⟩
    have e3 : (d * 10 ^ e : Rat) - t = (d - q) * 10 ^ e := by rw [sub_mul, ← et]
    rw [e3, abs_mul, abs_of_pos hp]
    have : |(d : Rat) - q| ≤ 1 / 2 := by rw [abs_le]; constructor <;> linarith
    calc _ ≤ 1 / 2 * 10 ^ e := mul_le_mul_of_nonneg_right this (le_of_lt hp)
      _ = _ := by ring

/-- C54: the time takes exactly the width it is given, of six characters or more, for any time that is ever measured. -/
theorem C54_time (large : Rat → Int → Bool) (hl : Fair large) (t : Rat) (h0 : 0 ≤ t) (h1 : t < 19 / 2 * 10 ^ 99) (m : Int) (hm : 6 ≤ m) :
    ((prepTime (large t m) t m).length : Int) = m := by
  obtain ⟨k, rfl⟩ : ∃ k : Nat, m = k + 3 := ⟨(m - 3).toNat, by omega⟩
  have hk : 3 ≤ k := by omega
  obtain ⟨f1, f2⟩ := hl t k hk
  have key : ((if large t (k + 3) then sci0 t else fixed1 t).length : Int) ≤ (k : Int) + 3 - 1 := by
    cases hb : large t (k + 3) with
    | false =>
      have := fixed1_length t h0 k (by omega) (f2 hb)
      simp only [Bool.false_eq_true, if_false]
      omega
    | true =>
      have hp : (1000 : Rat) ≤ 10 ^ k := by
        have : (10 : Rat) ^ 3 ≤ 10 ^ k := pow_le_pow_right₀ (by norm_num) hk
        norm_num at this; exact this
      have := f1 hb
      obtain ⟨d, e, d1, d2, he, _, _, h99⟩ := C54_exponent t (by linarith)
      have h99 := h99 h1
      simp only [if_true]
      rw [he]
      have l1 := showNat_digit d d2
      have l2 : ("E+".toList : Str).length = 2 := rfl
      have l3 : ((if e < 10 then ['0'] else []) : Str).length + (showNat e).length = 2 ∨ ((if e < 10 then ['0'] else []) : Str).length + (showNat e).length ≤ 2 := by
        by_cases h : e < 10
        · left; rw [if_pos h, showNat_digit e h]; rfl
        · right; rw [if_neg h]; have := showNat_length_le e 1 (by omega); simpa using this
      simp only [List.length_append, l1, l2]
      omega
  unfold prepTime
  rw [List.length_append, Int.natCast_add, length_rjust _ _ key]
  simp

/-- C54: the percentage takes exactly six characters. -/
theorem C54_percent (per : Rat) (h0 : 0 ≤ per) (h1 : per ≤ 1) : (percentText per).length = 6 := by
  have h3 := toNat_nearest (q := 10 * (100 * per)) (by linarith)
  obtain ⟨b1, b2⟩ := nearest_bounds (10 * (100 * per))
  have : (fixed1 (100 * per)).length ≤ 5 := by
    unfold fixed1
    dsimp only
    generalize (nearest (10 * (100 * per))).toNat = n at h3
    have hn : (n : Rat) < 1001 := by rw [h3]; linarith
    have hn' : n < 1001 := by exact_mod_cast hn
    have hlen := showNat_length_le (n / 10) 2 (by omega)
    have := showNat_digit (n % 10) (Nat.mod_lt _ (by omega))
    simp only [List.length_append, List.length_cons, List.length_nil]
    omega
  have := length_rjust (fixed1 (100 * per) ++ ['%']) 6 (by simp only [List.length_append, List.length_cons, List.length_nil]; omega)
  unfold percentText
  exact_mod_cast this

/-- C54: so in a terminal of at least twenty columns every line shown has exactly its width, whatever part is done and whatever time has passed, and so has the last
line. -/
theorem C54_screen (large : Rat → Int → Bool) (hl : Fair large) (columns : Int) (hc : 20 ≤ columns) (text : Str) (t per : Rat)
    (ht : 0 ≤ t) (ht' : t < 19 / 2 * 10 ^ 99) (hp : 0 ≤ per) (hp' : per ≤ 1) :
    ((barLine columns (barLen columns per) (percentText per)).length : Int) = columns ∧
    ((secondRow columns text (prepTime (large t 6) t 6)).length : Int) = columns ∧
    ((textLine columns text (prepTime (large t 6) t 6) (percentText per)).length : Int) = columns ∧
    ((finishLine large columns text t).length : Int) = columns := by
  have hm : barMax columns = columns - 8 := by unfold barMax; rw [if_neg (by omega)]
  have h6 : (prepTime (large t 6) t 6).length = 6 := by exact_mod_cast C54_time large hl t ht ht' 6 (by omega)
  have hb : (barLen columns per : Int) ≤ barMax columns := by
    unfold barLen
    have h0 : (0 : Rat) ≤ barMax columns := by rw [hm]; exact_mod_cast (by omega : (0 : Int) ≤ columns - 8)
    have h1 : per * barMax columns ≤ barMax columns := by
      have := mul_le_mul_of_nonneg_right hp' h0
      linarith
    have h2 := Nat.floor_le (mul_nonneg hp h0)
    have : ((⌊per * barMax columns⌋₊ : Int) : Rat) ≤ (barMax columns : Rat) := by push_cast; linarith
    exact_mod_cast this
  obtain ⟨a, b, c⟩ := C54_lines columns hc (barLen columns per) hb text _ _ h6 (C54_percent per hp hp')
  refine ⟨a, b, c, ?_⟩
  unfold finishLine
  rw [hm]
  split
  · have := C54_time large hl t ht ht' (columns - 8 + 8 - text.length - 1) (by omega)
    rw [List.length_append, List.length_append, Int.natCast_add, this]
    simp
  · have := (C54_width text (columns - 8 + 8 - 6)).2 (Or.inl (by omega))
    rw [List.length_append, Int.natCast_add, this, h6]
    omega

/-! ## Non-vacuity -/

/-- The exact test. -/
example : Fair (fun t m => decide (39 / 40 * 10 ^ (m - 3).toNat ≤ t)) := by
  intro t k hk
  have : ((k : Int) + 3 - 3).toNat = k := by omega
  have hp : (0 : Rat) < 10 ^ k := by positivity
  constructor
  · intro h
    have h := of_decide_eq_true h
    rw [this] at h
    linarith
  · intro h
    have h := of_decide_eq_false h
    rw [this] at h
    push Not at h
    linarith

example : prepTime false (617 / 10) 6 = " 61.7s".toList ∧ prepTime true 123456 6 = "1E+05s".toList ∧ prepTime true 995000 8 = "  1E+06s".toList := by decide +kernel
example : percentText (1 / 3) = " 33.3%".toList ∧ percentText 1 = "100.0%".toList := by decide +kernel

example : prepString "abcdefghijkl".toList 10 = "ab...ijkl ".toList := by decide
example : prepString "abcdefghijkl".toList 11 = "ab...hijkl ".toList := by decide
example : prepString "abc".toList 6 = "abc   ".toList := by decide

/-- In a narrower field the string comes out longer than asked for. -/
theorem C54_narrow : prepString "abcdef".toList 5 = "abcde...ef ".toList ∧ prepString "abcdef".toList 1 = "abc...abcdef ".toList := by decide

end Verif.Props.ProgressBar
