import Verif.Py.Str

/-!
# Python string methods: `split`, `join`, `replace`, `strip`

Nothing here models a particular file of /repo. `split` is only used with a separator that is not empty.
-/
set_option autoImplicit false
set_option linter.unusedSimpArgs false
namespace Verif.Py.Str

/-- The loop of `split`: skip `k` characters, then collect a piece. -/
def splitGo (sep : Str) : Nat → Str → Str → List Str
  | _, acc, [] => [acc]
  | k + 1, acc, _ :: cs => splitGo sep k acc cs
  | 0, acc, c :: cs =>
    if sep.isPrefixOf (c :: cs) then acc :: splitGo sep (sep.length - 1) [] cs
    else splitGo sep 0 (acc ++ [c]) cs

/-- `s.split(sep)` -/
def split (sep s : Str) : List Str := splitGo sep 0 [] s

/-- `sep.join(l)` -/
def join (sep : Str) : List Str → Str
  | [] => []
  | [p] => p
  | p :: q :: l => p ++ sep ++ join sep (q :: l)

/-- `s.replace(old, new)` -/
def replace (old new s : Str) : Str := join new (split old s)

/-- `s.lstrip()`, with the white space characters given. -/
def lstrip (ws : Char → Bool) (s : Str) : Str := s.dropWhile ws
/-- `s.rstrip()` -/
def rstrip (ws : Char → Bool) (s : Str) : Str := (s.reverse.dropWhile ws).reverse
/-- `s.strip()` -/
def strip (ws : Char → Bool) (s : Str) : Str := rstrip ws (lstrip ws s)

theorem splitGo_skip (sep : Str) (k : Nat) (acc s : Str) : splitGo sep k acc s = splitGo sep 0 acc (s.drop k) := by
  induction s generalizing k with
  | nil => simp [splitGo]
  | cons c cs ih =>
    cases k with
    | zero => rfl
    | succ k => rw [splitGo, ih, List.drop_succ_cons]

theorem splitGo_ne_nil (sep : Str) (k : Nat) (acc s : Str) : splitGo sep k acc s ≠ [] := by
  induction s generalizing k acc with
  | nil => simp [splitGo]
  | cons c cs ih =>
    cases k with
    | succ k => exact ih k acc
    | zero => unfold splitGo; split <;> [simp; exact ih 0 _]

theorem split_ne_nil (sep s : Str) : split sep s ≠ [] := splitGo_ne_nil sep 0 [] s

/-- `split` at the next separator. -/
theorem splitGo_sep (sep : Str) (hsep : sep ≠ []) (acc s : Str) : splitGo sep 0 acc (sep ++ s) = acc :: splitGo sep 0 [] s := by
  cases sep with
  | nil => exact absurd rfl hsep
  | cons x xs =>
    rw [List.cons_append, splitGo, if_pos (by rw [List.isPrefixOf_iff_prefix, ← List.cons_append]; exact List.prefix_append _ _),
      splitGo_skip]
    simp

theorem join_cons (sep p : Str) (l : List Str) (hl : l ≠ []) : join sep (p :: l) = p ++ sep ++ join sep l := by
  cases l with
  | nil => exact absurd rfl hl
  | cons q l => rfl

theorem join_splitGo (sep : Str) (hsep : sep ≠ []) (n : Nat) (acc s : Str) (hn : s.length ≤ n) : join sep (splitGo sep 0 acc s) = acc ++ s := by
  induction n generalizing acc s with
  | zero => have : s = [] := List.length_eq_zero_iff.1 (by omega); subst this; simp [splitGo, join]
  | succ n ih =>
    cases s with
    | nil => simp [splitGo, join]
    | cons c cs =>
      by_cases h : sep.isPrefixOf (c :: cs) = true
      · obtain ⟨t, ht⟩ := List.isPrefixOf_iff_prefix.1 h
        rw [← ht, splitGo_sep sep hsep, join_cons _ _ _ (splitGo_ne_nil _ _ _ _), ih]
        · simp
        · have := congrArg List.length ht
          have : 0 < sep.length := List.length_pos_of_ne_nil hsep
          simp at *; omega
      · rw [splitGo, if_neg h, ih]
        · simp
        · simp at hn; omega

/-- `sep.join(s.split(sep)) == s` -/
theorem join_split (sep s : Str) (hsep : sep ≠ []) : join sep (split sep s) = s := by
  unfold split; rw [join_splitGo sep hsep s.length [] s (le_refl _)]; rfl

/-- No piece of a split contains the separator. -/
theorem splitGo_pieces (sep : Str) (hsep : sep ≠ []) (n : Nat) (acc s : Str) (hn : s.length ≤ n)
    (ha : ∀ a b, acc = a ++ b → b ≠ [] → ¬ sep <+: b ++ s) : ∀ p ∈ splitGo sep 0 acc s, ¬ sep <:+: p := by
  induction n generalizing acc s with
  | zero =>
    have : s = [] := List.length_eq_zero_iff.1 (by omega); subst this
    intro p hp
    simp only [splitGo, List.mem_singleton] at hp
    subst hp
    rintro ⟨a, b, hab⟩
    refine ha a (sep ++ b) (by rw [← hab]; simp) (by simp [hsep]) ⟨b, by simp⟩
  | succ n ih =>
    have hacc : ¬ sep <:+: acc := by
      rintro ⟨a, b, hab⟩
      exact ha a (sep ++ b) (by rw [← hab]; simp) (by simp [hsep]) ⟨b ++ s, by simp⟩
    cases s with
    | nil => intro p hp; simp only [splitGo, List.mem_singleton] at hp; subst hp; exact hacc
    | cons c cs =>
      by_cases h : sep.isPrefixOf (c :: cs) = true
      · obtain ⟨t, ht⟩ := List.isPrefixOf_iff_prefix.1 h
        rw [← ht, splitGo_sep sep hsep]
        intro p hp
        rcases List.mem_cons.1 hp with rfl | hp
        · exact hacc
        · refine ih [] t ?_ ?_ p hp
          · have := congrArg List.length ht
            have : 0 < sep.length := List.length_pos_of_ne_nil hsep
            simp at *; omega
          · intro a b hab hb
            have := congrArg List.length hab
            have : 0 < b.length := List.length_pos_of_ne_nil hb
            simp at *; omega
      · rw [splitGo, if_neg h]
        apply ih
        · simp at hn; omega
        · intro a b hab hb
          rcases List.eq_nil_or_concat b with rfl | ⟨b', x, rfl⟩
          · exact absurd rfl hb
          · rw [List.concat_eq_append, ← List.append_assoc] at hab
            have h2 := List.append_inj' hab (by simp)
            simp only [List.cons.injEq, and_true] at h2
            obtain ⟨h2, rfl⟩ := h2
            rw [List.concat_eq_append, List.append_assoc]
            by_cases hb' : b' = []
            · subst hb'
              rw [List.isPrefixOf_iff_prefix] at h
              simpa using h
            · exact ha a b' h2 hb'

theorem split_pieces (sep s : Str) (hsep : sep ≠ []) : ∀ p ∈ split sep s, ¬ sep <:+: p :=
  splitGo_pieces sep hsep s.length [] s (le_refl _) (by
    intro a b hab hb
    have := congrArg List.length hab
    have : 0 < b.length := List.length_pos_of_ne_nil hb
    simp at *; omega)

/-- A string without the separator is one piece. -/
theorem splitGo_none (sep acc s : Str) (h : ¬ sep <:+: s) : splitGo sep 0 acc s = [acc ++ s] := by
  induction s generalizing acc with
  | nil => simp [splitGo]
  | cons c cs ih =>
    rw [List.infix_cons_iff, not_or] at h
    rw [splitGo, if_neg (by rw [List.isPrefixOf_iff_prefix]; exact h.1), ih _ h.2]
    simp

theorem split_none (sep s : Str) (h : ¬ sep <:+: s) : split sep s = [s] := by
  unfold split; rw [splitGo_none sep [] s h]; rfl

/-- The first piece ends at the first separator. -/
theorem splitGo_append (sep : Str) (hsep : sep ≠ []) (acc p s : Str) (h : ¬ sep <:+: p ++ sep.dropLast) :
    splitGo sep 0 acc (p ++ sep ++ s) = (acc ++ p) :: splitGo sep 0 [] s := by
  induction p generalizing acc with
  | nil => simp [splitGo_sep sep hsep]
  | cons c p ih =>
    have hc : ¬ sep <+: c :: (p ++ sep ++ s) := by
      intro hp
      apply h
      have hlen : sep.length ≤ (c :: p ++ sep.dropLast).length := by simp; omega
      have h1 : c :: p ++ sep.dropLast <+: c :: (p ++ sep ++ s) := by
        have : sep = sep.dropLast ++ [sep.getLast hsep] := (List.dropLast_append_getLast hsep).symm
        refine ⟨[sep.getLast hsep] ++ s, ?_⟩
        conv_rhs => rw [this]
        simp
      exact (List.prefix_of_prefix_length_le hp h1 hlen).isInfix
    have h' : ¬ sep <:+: p ++ sep.dropLast := fun hi => h (by rw [List.cons_append]; exact List.infix_cons hi)
    have e : (c :: p) ++ sep ++ s = c :: (p ++ sep ++ s) := by simp
    rw [e, splitGo, if_neg (by rw [List.isPrefixOf_iff_prefix]; exact hc), ih _ h']
    simp

/-- `split` undoes `join` when no piece makes a separator of its own. -/
theorem split_join (sep : Str) (hsep : sep ≠ []) (l : List Str) (hl : l ≠ []) (h : ∀ p ∈ l, ¬ sep <:+: p ++ sep.dropLast) :
    split sep (join sep l) = l := by
  unfold split
  induction l with
  | nil => exact absurd rfl hl
  | cons p l ih =>
    cases l with
    | nil =>
      have : ¬ sep <:+: p := fun hi => h p (by simp) (hi.trans (List.prefix_append _ _).isInfix)
      simp [join, splitGo_none sep [] p this]
    | cons q l =>
      rw [join_cons _ _ _ (by simp), splitGo_append sep hsep [] p _ (h p (by simp)), ih (by simp) (fun r hr => h r (by simp [hr]))]
      simp

/-- For a separator of one character. -/
theorem split_join_char (c : Char) (l : List Str) (hl : l ≠ []) (h : ∀ p ∈ l, c ∉ p) : split [c] (join [c] l) = l := by
  apply split_join [c] (by simp) l hl
  intro p hp
  simp only [List.dropLast_singleton, List.append_nil, List.singleton_infix_iff]
  exact h p hp

theorem split_char_pieces (c : Char) (s : Str) : ∀ p ∈ split [c] s, c ∉ p := by
  intro p hp hc
  exact split_pieces [c] s (by simp) p hp ((List.singleton_infix_iff _ _).2 hc)

/-- `rstrip` takes white space off the end. -/
theorem rstrip_spec (ws : Char → Bool) (s : Str) :
    ∃ t, s = rstrip ws s ++ t ∧ (∀ c ∈ t, ws c = true) ∧ ∀ c, (rstrip ws s).getLast? = some c → ws c = false := by
  unfold rstrip
  refine ⟨(s.reverse.takeWhile ws).reverse, ?_, ?_, ?_⟩
  · rw [← List.reverse_append, List.takeWhile_append_dropWhile, List.reverse_reverse]
  · intro c hc
    rw [List.mem_reverse] at hc
    exact List.all_eq_true.1 List.all_takeWhile c hc
  · intro c hc
    rw [List.getLast?_reverse] at hc
    have := List.head?_dropWhile_not ws s.reverse
    rw [hc] at this
    simpa using this

end Verif.Py.Str
