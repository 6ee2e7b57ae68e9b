import Verif.Py.Dict
import Mathlib.Data.List.Sort

/-! # Counting dictionaries and Python's `sorted` -/
set_option autoImplicit false
set_option linter.unusedSectionVars false
namespace Verif.Py

namespace Dict
variable {κ κ' : Type} [DecidableEq κ] [DecidableEq κ']

/-- `d[k] += 1` when the key is there, `d[k] = 1` otherwise. -/
def incr (d : Dict κ Nat) (k : κ) : Dict κ Nat :=
  match d.get? k with
  | some n => d.set k (n + 1)
  | none => d.set k 1

/-- The count of a key, zero when it is missing. -/
def cnt (d : Dict κ Nat) (k : κ) : Nat := (d.get? k).getD 0

/-- Every stored count is positive. -/
def Pos (d : Dict κ Nat) : Prop := ∀ k n, d.get? k = some n → 0 < n

theorem cnt_incr (d : Dict κ Nat) (k j : κ) : (d.incr k).cnt j = d.cnt j + if k = j then 1 else 0 := by
  unfold incr cnt
  cases h : d.get? k with
  | none =>
    rw [get?_set]
    by_cases hj : k = j
    · subst hj; simp [h]
    · simp [hj, Ne.symm hj]
  | some n =>
    rw [get?_set]
    by_cases hj : k = j
    · subst hj; simp [h]
    · simp [hj, Ne.symm hj]

theorem Pos_nil : Pos ([] : Dict κ Nat) := by intro k n h; simp at h

theorem Pos_incr {d : Dict κ Nat} (hd : Pos d) (k : κ) : Pos (d.incr k) := by
  intro j n h
  unfold incr at h
  split at h <;>
  · rw [get?_set] at h
    split at h
    · simp at h; omega
    · exact hd j n h

theorem WF_incr {d : Dict κ Nat} (hd : WF d) (k : κ) : WF (d.incr k) := by
  unfold incr; split <;> exact WF_set hd _ _

theorem cnt_foldl_incr (l : List κ) (d : Dict κ Nat) (j : κ) : (l.foldl incr d).cnt j = d.cnt j + l.count j := by
  induction l generalizing d with
  | nil => simp
  | cons k l ih =>
    rw [List.foldl_cons, ih, cnt_incr, List.count_cons]
    by_cases h : k = j <;> simp [h]; omega

theorem WF_foldl_incr (l : List κ) {d : Dict κ Nat} (hd : WF d) : WF (l.foldl incr d) := by
  induction l generalizing d with
  | nil => exact hd
  | cons k l ih => exact ih (WF_incr hd k)

theorem Pos_foldl_incr (l : List κ) {d : Dict κ Nat} (hd : Pos d) : Pos (l.foldl incr d) := by
  induction l generalizing d with
  | nil => exact hd
  | cons k l ih => exact ih (Pos_incr hd k)

/-- In a dictionary of positive counts, membership of a pair is exactly "this is the count, and it is positive". -/
theorem get?_eq_some_iff_cnt {d : Dict κ Nat} (hd : Pos d) (k : κ) (n : Nat) :
    d.get? k = some n ↔ n = d.cnt k ∧ 0 < n := by
  constructor
  · intro h; exact ⟨by simp [cnt, h], hd k n h⟩
  · rintro ⟨h, hn⟩
    unfold cnt at h
    cases h2 : d.get? k with
    | none => simp [h2] at h; omega
    | some m => simp [h2] at h; rw [h]

end Dict

variable {α : Type}

/-- `sorted(l, key = key, reverse = reverse)`: a stable sort; with `reverse` the order is turned round and equal
elements still keep their places. -/
def sortedBy (key : α → Nat) (reverse : Bool) (l : List α) : List α :=
  if reverse then l.insertionSort (fun a b => key b ≤ key a) else l.insertionSort (fun a b => key a ≤ key b)

theorem sortedBy_perm (key : α → Nat) (rev : Bool) (l : List α) : (sortedBy key rev l).Perm l := by
  unfold sortedBy; split <;> exact List.perm_insertionSort _ _

instance (key : α → Nat) : Std.Total (fun a b : α => key a ≤ key b) := ⟨fun a b => Nat.le_total _ _⟩
instance (key : α → Nat) : IsTrans α (fun a b : α => key a ≤ key b) := ⟨fun _ _ _ h1 h2 => Nat.le_trans h1 h2⟩
instance (key : α → Nat) : Std.Total (fun a b : α => key b ≤ key a) := ⟨fun a b => Nat.le_total _ _⟩
instance (key : α → Nat) : IsTrans α (fun a b : α => key b ≤ key a) := ⟨fun _ _ _ h1 h2 => Nat.le_trans h2 h1⟩

theorem sortedBy_sorted_true (key : α → Nat) (l : List α) :
    (sortedBy key true l).Pairwise (fun a b => key b ≤ key a) := by
  unfold sortedBy; simp only [if_true]; exact List.pairwise_insertionSort _ l

theorem sortedBy_sorted_false (key : α → Nat) (l : List α) :
    (sortedBy key false l).Pairwise (fun a b => key a ≤ key b) := by
  unfold sortedBy; simp only [Bool.false_eq_true, if_false]; exact List.pairwise_insertionSort _ l

end Verif.Py
