import Verif.Py.Str
import Mathlib.Logic.Relation

/-!
# Regular expressions as Python's `re` matches them

A backtracking matcher with greedy and lazy repetition and capturing groups, for the constructs the patterns of /repo use.
A pattern is matched at the beginning of a string, as `re.match` does. `Rel` is what a pattern may match, without the order in which `re` tries;
`m_sound` relates the two.
-/
set_option autoImplicit false
namespace Verif.Py.Regex
open Verif.Py

/-- `lit`: characters; `rep p lo hi lazy`: `[p]{lo,hi}`, with `?` if lazy; `opt`: `r?`; `many`: `r+`; `grp n`: the group with number `n`; `eos`: `$`. -/
inductive Re where
  | lit (t : Str)
  | rep (p : Char → Bool) (lo : Nat) (hi : Option Nat) (lazy : Bool)
  | seq (a b : Re)
  | alt (a b : Re)
  | opt (r : Re)
  | many (r : Re)
  | grp (n : Nat) (r : Re)
  | eos

infixr:60 " ⬝ " => Re.seq

/-- What is left of the string, and what the groups have taken so far, the latest first. -/
structure St where
  rest : Str
  caps : List (Nat × Str)
  deriving DecidableEq

/-- How many characters a repetition can take at most. -/
def most (p : Char → Bool) (hi : Option Nat) (s : Str) : Nat :=
  match hi with
  | none => (s.takeWhile p).length
  | some h => min h (s.takeWhile p).length

/-- The numbers of characters a repetition tries, in order. -/
def tries (p : Char → Bool) (lo : Nat) (hi : Option Nat) (lazy : Bool) (s : Str) : List Nat :=
  let l := (List.range (most p hi s + 1)).filter (fun i => lo ≤ i)
  if lazy then l else l.reverse

/-- One or more times, with fuel: `f` is the matcher of the body. -/
def manyAux (f : (St → Option St) → St → Option St) : Nat → (St → Option St) → St → Option St
  | 0, k, s => f k s
  | n + 1, k, s => f (fun s' => (manyAux f n k s').or (k s')) s

/-- The matcher; `k` is what follows the pattern. `r+` is repeated at most as often as there are characters left. -/
def m : Re → (St → Option St) → St → Option St
  | .lit t, k, s => if t.isPrefixOf s.rest then k ⟨s.rest.drop t.length, s.caps⟩ else none
  | .rep p lo hi lazy, k, s => (tries p lo hi lazy s.rest).findSome? (fun i => k ⟨s.rest.drop i, s.caps⟩)
  | .seq a b, k, s => m a (m b k) s
  | .alt a b, k, s => (m a k s).or (m b k s)
  | .opt r, k, s => (m r k s).or (k s)
  | .many r, k, s => manyAux (m r) s.rest.length k s
  | .grp n r, k, s => m r (fun s' => k ⟨s'.rest, (n, s.rest.take (s.rest.length - s'.rest.length)) :: s'.caps⟩) s
  | .eos, k, s => if s.rest = [] ∨ s.rest = ['\n'] then k s else none

/-- `re.match(r, s)`: what the groups took, or `none` if there is no match. -/
def matchStart (r : Re) (s : Str) : Option (List (Nat × Str)) := (m r some ⟨s, []⟩).map St.caps

/-- `regex.group(n)` -/
def group (caps : List (Nat × Str)) (n : Nat) : Option Str := (caps.find? (fun p => p.1 = n)).map Prod.snd

/-! ## What a pattern may match -/

def Rel : Re → St → St → Prop
  | .lit t, s, s' => s.rest = t ++ s'.rest ∧ s'.caps = s.caps
  | .rep p lo hi _, s, s' => ∃ w, s.rest = w ++ s'.rest ∧ (∀ c ∈ w, p c = true) ∧ lo ≤ w.length ∧ (∀ h, hi = some h → w.length ≤ h) ∧ s'.caps = s.caps
  | .seq a b, s, s' => ∃ s1, Rel a s s1 ∧ Rel b s1 s'
  | .alt a b, s, s' => Rel a s s' ∨ Rel b s s'
  | .opt r, s, s' => Rel r s s' ∨ s' = s
  | .many r, s, s' => Relation.TransGen (Rel r) s s'
  | .grp n r, s, s' => ∃ s1 w, Rel r s s1 ∧ s.rest = w ++ s1.rest ∧ s' = ⟨s1.rest, (n, w) :: s1.caps⟩
  | .eos, s, s' => s' = s ∧ (s.rest = [] ∨ s.rest = ['\n'])

theorem rel_suffix (r : Re) (s s' : St) (h : Rel r s s') : ∃ w, s.rest = w ++ s'.rest := by
  induction r generalizing s s' with
  | lit t => exact ⟨t, h.1⟩
  | rep p lo hi lazy => obtain ⟨w, h, -⟩ := h; exact ⟨w, h⟩
  | seq a b iha ihb =>
    obtain ⟨s1, h1, h2⟩ := h
    obtain ⟨w1, e1⟩ := iha _ _ h1
    obtain ⟨w2, e2⟩ := ihb _ _ h2
    exact ⟨w1 ++ w2, by rw [e1, e2, List.append_assoc]⟩
  | alt a b iha ihb =>
    rcases h with h | h
    · exact iha _ _ h
    · exact ihb _ _ h
  | opt r ih =>
    rcases h with h | h
    · exact ih _ _ h
    · exact ⟨[], by rw [h]; rfl⟩
  | many r ih =>
    rw [Rel] at h
    induction h with
    | single h => exact ih _ _ h
    | tail _ h ih2 =>
      obtain ⟨w1, e1⟩ := ih2
      obtain ⟨w2, e2⟩ := ih _ _ h
      exact ⟨w1 ++ w2, by rw [e1, e2, List.append_assoc]⟩
  | grp n r ih =>
    obtain ⟨s1, w, h1, h2, rfl⟩ := h
    exact ⟨w, h2⟩
  | eos => exact ⟨[], by rw [h.1]; rfl⟩

theorem takeWhile_prefix (p : Char → Bool) (s : Str) (i : Nat) (h : i ≤ (s.takeWhile p).length) : ∀ c ∈ s.take i, p c = true := by
  intro c hc
  have : s.take i = (s.takeWhile p).take i := by
    conv_lhs => rw [← List.takeWhile_append_dropWhile (p := p) (l := s)]
    rw [List.take_append_of_le_length h]
  rw [this] at hc
  have hm := List.mem_of_mem_take hc
  have : ∀ l : Str, ∀ c ∈ l.takeWhile p, p c = true := by
    intro l
    induction l with
    | nil => simp
    | cons a l ih =>
      intro c hc
      by_cases ha : p a = true
      · rw [List.takeWhile_cons_of_pos ha] at hc
        rcases List.mem_cons.1 hc with rfl | hc
        · exact ha
        · exact ih c hc
      · rw [List.takeWhile_cons_of_neg ha] at hc; cases hc
  exact this s c hm

theorem mem_tries (p : Char → Bool) (lo : Nat) (hi : Option Nat) (lazy : Bool) (s : Str) (i : Nat) : i ∈ tries p lo hi lazy s ↔ lo ≤ i ∧ i ≤ most p hi s := by
  unfold tries
  cases lazy <;> simp [Nat.lt_succ_iff] <;> omega

theorem most_le (p : Char → Bool) (hi : Option Nat) (s : Str) : most p hi s ≤ (s.takeWhile p).length ∧ ∀ h, hi = some h → most p hi s ≤ h := by
  unfold most
  cases hi with
  | none => simp
  | some h => simp; omega

theorem many_sound (r : Re) (ih : ∀ (k : St → Option St) s x, m r k s = some x → ∃ s', Rel r s s' ∧ k s' = some x) (n : Nat) (k : St → Option St) (s x : St)
    (h : manyAux (m r) n k s = some x) : ∃ s', Relation.TransGen (Rel r) s s' ∧ k s' = some x := by
  induction n generalizing s with
  | zero =>
    obtain ⟨s', h1, h2⟩ := ih _ _ _ h
    exact ⟨s', .single h1, h2⟩
  | succ n ihn =>
    rw [manyAux] at h
    obtain ⟨s1, h1, h2⟩ := ih _ _ _ h
    rcases hc : manyAux (m r) n k s1 with _ | y
    · rw [hc] at h2
      exact ⟨s1, .single h1, by simpa using h2⟩
    · rw [hc] at h2
      simp at h2; subst h2
      obtain ⟨s', h3, h4⟩ := ihn s1 hc
      exact ⟨s', Relation.TransGen.trans (.single h1) h3, h4⟩

/-- What the matcher finds is a match. -/
theorem m_sound (r : Re) (k : St → Option St) (s x : St) (h : m r k s = some x) : ∃ s', Rel r s s' ∧ k s' = some x := by
  induction r generalizing k s x with
  | lit t =>
    rw [m] at h
    split at h
    · rename_i hp
      obtain ⟨u, hu⟩ := List.isPrefixOf_iff_prefix.1 hp
      refine ⟨⟨s.rest.drop t.length, s.caps⟩, ⟨?_, rfl⟩, h⟩
      simp [← hu]
    · cases h
  | rep p lo hi lazy =>
    rw [m] at h
    obtain ⟨i, hi', hk⟩ := List.exists_of_findSome?_eq_some h
    obtain ⟨h1, h2⟩ := (mem_tries _ _ _ _ _ _).1 hi'
    obtain ⟨h3, h4⟩ := most_le p hi s.rest
    have hlen : i ≤ s.rest.length := by
      have := (List.takeWhile_prefix p (l := s.rest)).length_le
      omega
    refine ⟨⟨s.rest.drop i, s.caps⟩, ⟨s.rest.take i, by simp, takeWhile_prefix p _ i (by omega), by simp; omega, ?_, rfl⟩, hk⟩
    intro b hb
    have := h4 b hb
    simp; omega
  | seq a b iha ihb =>
    rw [m] at h
    obtain ⟨s1, h1, h2⟩ := iha _ _ _ h
    obtain ⟨s2, h3, h4⟩ := ihb _ _ _ h2
    exact ⟨s2, ⟨s1, h1, h3⟩, h4⟩
  | alt a b iha ihb =>
    rw [m] at h
    rcases hc : m a k s with _ | y
    · rw [hc] at h
      obtain ⟨s', h1, h2⟩ := ihb _ _ _ (by simpa using h)
      exact ⟨s', Or.inr h1, h2⟩
    · rw [hc] at h; simp at h; subst h
      obtain ⟨s', h1, h2⟩ := iha _ _ _ hc
      exact ⟨s', Or.inl h1, h2⟩
  | opt r ih =>
    rw [m] at h
    rcases hc : m r k s with _ | y
    · rw [hc] at h
      exact ⟨s, Or.inr rfl, by simpa using h⟩
    · rw [hc] at h; simp at h; subst h
      obtain ⟨s', h1, h2⟩ := ih _ _ _ hc
      exact ⟨s', Or.inl h1, h2⟩
  | many r ih =>
    rw [m] at h
    exact many_sound r ih _ k s x h
  | grp n r ih =>
    rw [m] at h
    obtain ⟨s1, h1, h2⟩ := ih _ _ _ h
    obtain ⟨w, hw⟩ := rel_suffix _ _ _ h1
    refine ⟨_, ⟨s1, w, h1, hw, rfl⟩, ?_⟩
    have : s.rest.take (s.rest.length - s1.rest.length) = w := by rw [hw]; simp
    rw [this] at h2
    exact h2
  | eos =>
    rw [m] at h
    split at h
    · rename_i hc; exact ⟨s, ⟨rfl, hc⟩, h⟩
    · cases h

/-- The numbers of the groups of a pattern. -/
def groups : Re → List Nat
  | .lit _ | .rep .. | .eos => []
  | .seq a b | .alt a b => groups a ++ groups b
  | .opt r | .many r => groups r
  | .grp n r => n :: groups r

/-- Only its own groups are changed by a pattern. -/
theorem rel_caps (r : Re) (s s' : St) (h : Rel r s s') : ∃ l, s'.caps = l ++ s.caps ∧ ∀ p ∈ l, p.1 ∈ groups r := by
  induction r generalizing s s' with
  | lit t => exact ⟨[], h.2, by simp⟩
  | rep p lo hi lazy => obtain ⟨w, -, -, -, -, h⟩ := h; exact ⟨[], h, by simp⟩
  | seq a b iha ihb =>
    obtain ⟨s1, h1, h2⟩ := h
    obtain ⟨w1, e1, f1⟩ := iha _ _ h1
    obtain ⟨w2, e2, f2⟩ := ihb _ _ h2
    refine ⟨w2 ++ w1, by rw [e2, e1, List.append_assoc], ?_⟩
    intro p hp
    rw [groups]
    rcases List.mem_append.1 hp with h | h
    · exact List.mem_append.2 (Or.inr (f2 p h))
    · exact List.mem_append.2 (Or.inl (f1 p h))
  | alt a b iha ihb =>
    rcases h with h | h
    · obtain ⟨l, e, f⟩ := iha _ _ h
      exact ⟨l, e, fun p hp => List.mem_append.2 (Or.inl (f p hp))⟩
    · obtain ⟨l, e, f⟩ := ihb _ _ h
      exact ⟨l, e, fun p hp => List.mem_append.2 (Or.inr (f p hp))⟩
  | opt r ih =>
    rcases h with h | h
    · exact ih _ _ h
    · exact ⟨[], by rw [h]; rfl, by simp⟩
  | many r ih =>
    rw [Rel] at h
    induction h with
    | single h => exact ih _ _ h
    | tail _ h ih2 =>
      obtain ⟨w1, e1, f1⟩ := ih2
      obtain ⟨w2, e2, f2⟩ := ih _ _ h
      refine ⟨w2 ++ w1, by rw [e2, e1, List.append_assoc], ?_⟩
      intro p hp
      rcases List.mem_append.1 hp with h | h
      · exact f2 p h
      · exact f1 p h
  | grp n r ih =>
    obtain ⟨s1, w, h1, h2, rfl⟩ := h
    obtain ⟨l, e, f⟩ := ih _ _ h1
    refine ⟨(n, w) :: l, by simp [e], ?_⟩
    intro p hp
    rw [groups]
    rcases List.mem_cons.1 hp with rfl | hp
    · simp
    · exact List.mem_cons_of_mem _ (f p hp)
  | eos => exact ⟨[], by rw [h.1]; rfl, by simp⟩

theorem group_append (l caps : List (Nat × Str)) (n : Nat) (h : ∀ p ∈ l, p.1 ≠ n) : group (l ++ caps) n = group caps n := by
  unfold group
  rw [List.find?_append, List.find?_eq_none.2 (by intro p hp; simpa using h p hp)]
  rfl

theorem rel_group (r : Re) (s s' : St) (h : Rel r s s') (n : Nat) (hn : n ∉ groups r) : group s'.caps n = group s.caps n := by
  obtain ⟨l, e, f⟩ := rel_caps r s s' h
  rw [e, group_append _ _ n (by intro p hp hpn; rw [← hpn] at hn; exact hn (f p hp))]

/-! ## The first choice -/

/-- A greedy repetition takes all it can if what follows then succeeds. -/
theorem rep_greedy (p : Char → Bool) (lo : Nat) (hi : Option Nat) (k : St → Option St) (s x : St) (hlo : lo ≤ most p hi s.rest)
    (h : k ⟨s.rest.drop (most p hi s.rest), s.caps⟩ = some x) : m (.rep p lo hi false) k s = some x := by
  rw [m, tries]
  rw [List.range_succ, List.filter_append, List.filter_cons_of_pos (by simpa using hlo), List.filter_nil]
  simp [h]

/-- A lazy one takes as little as it may. -/
theorem rep_lazy (p : Char → Bool) (lo : Nat) (hi : Option Nat) (k : St → Option St) (s x : St) (hlo : lo ≤ most p hi s.rest)
    (h : k ⟨s.rest.drop lo, s.caps⟩ = some x) : m (.rep p lo hi true) k s = some x := by
  rw [m, tries]
  have : ∀ n, lo ≤ n → ∃ l, (List.range (n + 1)).filter (fun i => lo ≤ i) = lo :: l := by
    intro n hn
    induction n with
    | zero => obtain rfl : lo = 0 := by omega
              exact ⟨[], by decide⟩
    | succ n ih =>
      rw [List.range_succ, List.filter_append]
      by_cases hle : lo ≤ n
      · obtain ⟨l, hl⟩ := ih hle
        exact ⟨_, by rw [hl, List.cons_append]⟩
      · obtain rfl : lo = n + 1 := by omega
        refine ⟨[], ?_⟩
        rw [List.filter_eq_nil_iff.2 (by intro i hi; simp at hi ⊢; omega)]
        simp
  obtain ⟨l, hl⟩ := this _ hlo
  simp only [if_true, hl, List.findSome?_cons, h]

/-- A repetition that cannot take enough fails. -/
theorem rep_none (p : Char → Bool) (lo : Nat) (hi : Option Nat) (lazy : Bool) (k : St → Option St) (s : St) (hlo : most p hi s.rest < lo) : m (.rep p lo hi lazy) k s = none := by
  rw [m, List.findSome?_eq_none_iff]
  intro i hi'
  have := (mem_tries _ _ _ _ _ _).1 hi'
  omega

theorem opt_some (r : Re) (k : St → Option St) (s x : St) (h : m r k s = some x) : m (.opt r) k s = some x := by rw [m, h]; rfl
theorem opt_none (r : Re) (k : St → Option St) (s : St) (h : m r k s = none) : m (.opt r) k s = k s := by rw [m, h]; rfl

end Verif.Py.Regex
