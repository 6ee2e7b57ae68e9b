import Verif.Py.Codec
import Verif.Py.Lines

/-! # Lemmas about codecs -/
set_option autoImplicit false
set_option linter.unusedSimpArgs false
namespace Verif.Lemmas.Codec
open Verif.Py

theorem utf8_back (s : Str) : Codec.utf8Text (Codec.bytes .utf8 s) = some s := by
  have h := @List.utf8Decode?_utf8Encode s
  unfold List.utf8Encode at h
  unfold Codec.utf8Text Codec.bytes
  simp only
  rw [h]
  simp

theorem latin1_back (s : Str) (h : Codec.fits .latin1 s = true) : Codec.latin1Text (Codec.bytes .latin1 s) = s := by
  unfold Codec.latin1Text Codec.bytes
  unfold Codec.fits at h
  rw [List.map_map]
  rw [List.all_eq_true] at h
  conv_rhs => rw [← List.map_id s]
  apply List.map_congr_left
  intro c hc
  have := h c hc
  simp only [decide_eq_true_eq] at this
  simp only [Function.comp, UInt8.toNat_ofNat', id]
  rw [Nat.mod_eq_of_lt (by simpa using this)]
  exact Char.ofNat_toNat c

/-- A character below 128 is one byte. -/
theorem utf8_ascii (c : Char) (h : c.toNat < 128) : String.utf8EncodeChar c = [UInt8.ofNat c.toNat] := by
  unfold String.utf8EncodeChar
  have : c.val.toNat ≤ 127 := by have : c.val.toNat = c.toNat := rfl; omega
  dsimp only
  rw [if_pos this]
  rfl

theorem u8 (n : Nat) (h : n < 256) : (UInt8.ofNat n).toNat = n := by
  rw [UInt8.toNat_ofNat']; exact Nat.mod_eq_of_lt (by simpa using h)

/-- Another character is bytes of at least 128. -/
theorem utf8_other (c : Char) (h : ¬ c.toNat < 128) : ∀ b ∈ String.utf8EncodeChar c, 128 ≤ b.toNat := by
  unfold String.utf8EncodeChar
  have hv : ¬ c.val.toNat ≤ 127 := by have : c.val.toNat = c.toNat := rfl; omega
  dsimp only
  rw [if_neg hv]
  generalize c.val.toNat = v
  intro b hb
  split at hb
  · simp only [List.mem_cons, List.not_mem_nil, or_false] at hb
    rcases hb with rfl | rfl <;> rw [u8 _ (by omega)] <;> omega
  · split at hb <;> simp only [List.mem_cons, List.not_mem_nil, or_false] at hb
    · rcases hb with rfl | rfl | rfl <;> rw [u8 _ (by omega)] <;> omega
    · rcases hb with rfl | rfl | rfl | rfl <;> rw [u8 _ (by omega)] <;> omega

/-- How text in UTF-8 looks under `latin-1`. -/
def seen (s : Str) : Str := Codec.latin1Text (Codec.bytes .utf8 s)

/-- The same for one character. -/
def seenChar (c : Char) : Str := Codec.latin1Text (String.utf8EncodeChar c)

theorem seen_cons (c : Char) (s : Str) : seen (c :: s) = seenChar c ++ seen s := by
  unfold seen seenChar Codec.bytes Codec.latin1Text
  simp

theorem seen_nil : seen [] = [] := rfl

theorem seenChar_ascii (c : Char) (h : c.toNat < 128) : seenChar c = [c] := by
  unfold seenChar Codec.latin1Text
  rw [utf8_ascii c h, List.map_singleton, u8 _ (by omega), Char.ofNat_toNat]

theorem ofNat_small (n : Nat) (h : n < 256) : (Char.ofNat n).toNat = n := by
  have : n.isValidChar := Or.inl (by omega)
  unfold Char.ofNat
  rw [dif_pos this]
  unfold Char.toNat Char.ofNatAux
  simp

theorem seenChar_other (c : Char) (h : ¬ c.toNat < 128) : seenChar c ≠ [] ∧ ∀ d ∈ seenChar c, ¬ d.toNat < 128 := by
  unfold seenChar Codec.latin1Text
  refine ⟨by simp [String.utf8EncodeChar_ne_nil], ?_⟩
  intro d hd
  obtain ⟨b, hb, rfl⟩ := List.mem_map.1 hd
  rw [ofNat_small _ b.toNat_lt]
  have := utf8_other c h b hb
  omega

/-- Line ends are translated alike. -/
theorem seen_univ (s : Str) : Lines.univ (seen s) = seen (Lines.univ s) := by
  have huniv : ∀ (p t : Str), (∀ d ∈ p, ¬ d.toNat < 128) → Lines.univ (p ++ t) = p ++ Lines.univ t := by
    intro p
    induction p with
    | nil => intro t _; rfl
    | cons d p ih =>
      intro t hp
      have hd : d ≠ '\r' := by rintro rfl; exact hp '\r' (by simp) (by decide)
      rw [List.cons_append, Lines.univ]
      · rw [if_neg hd, ih t (fun x hx => hp x (by simp [hx]))]; rfl
      · intro s' e; exact fun _ => hd e
  induction s using Lines.univ.induct with
  | case1 => rfl
  | case2 s ih =>
    rw [seen_cons, seen_cons, seenChar_ascii _ (by decide), seenChar_ascii _ (by decide)]
    simp only [List.singleton_append]
    rw [Lines.univ, Lines.univ, seen_cons, seenChar_ascii _ (by decide), ih]
    rfl
  | case3 c s hne ih =>
    have hu : Lines.univ (c :: s) = (if c = '\r' then '\n' else c) :: Lines.univ s := by rw [Lines.univ]; exact hne
    rw [hu, seen_cons, seen_cons, ← ih]
    by_cases h : c.toNat < 128
    · rw [seenChar_ascii c h, seenChar_ascii _ (by split <;> first | decide | exact h)]
      simp only [List.singleton_append]
      rw [Lines.univ]
      intro s' hs hs'
      subst hs
      cases s with
      | nil => simp [seen_nil] at hs'
      | cons d s =>
        rw [seen_cons] at hs'
        by_cases hd : d.toNat < 128
        · rw [seenChar_ascii d hd] at hs'
          simp only [List.singleton_append, List.cons.injEq] at hs'
          exact hne s rfl (by rw [hs'.1])
        · obtain ⟨h1, h2⟩ := seenChar_other d hd
          cases hx : seenChar d with
          | nil => exact h1 hx
          | cons e x =>
            rw [hx] at hs'
            simp only [List.cons_append, List.cons.injEq] at hs'
            exact h2 e (by rw [hx]; simp) (by rw [hs'.1]; decide)
    · have hr : c ≠ '\r' := by rintro rfl; exact h (by decide)
      rw [if_neg hr, huniv _ _ (seenChar_other c h).2]

/-- The lines are the lines. -/
theorem seen_lines (s : Str) : Lines.lines (seen s) = (Lines.lines s).map seen := by
  have hl : ∀ (p t : Str), p ≠ [] → '\n' ∉ p → Lines.lines (p ++ t) = match Lines.lines t with
      | [] => [p]
      | l :: ls => (p ++ l) :: ls := by
    intro p
    induction p with
    | nil => intro t h; exact absurd rfl h
    | cons d p ih =>
      intro t _ hp
      have hd : d ≠ '\n' := by rintro rfl; exact hp (by simp)
      rw [List.cons_append, Lines.lines, if_neg hd]
      cases p with
      | nil => rw [List.nil_append]; rfl
      | cons e p =>
        rw [ih t (by simp) (fun hm => hp (by simp [hm]))]
        cases Lines.lines t <;> rfl
  induction s with
  | nil => rfl
  | cons c s ih =>
    rw [seen_cons]
    by_cases hn : c = '\n'
    · subst hn
      rw [seenChar_ascii _ (by decide), List.singleton_append, Lines.lines, if_pos rfl, ih, Lines.lines, if_pos rfl, List.map_cons]
      congr 1
    · have h : seenChar c ≠ [] ∧ '\n' ∉ seenChar c := by
        by_cases h : c.toNat < 128
        · rw [seenChar_ascii c h]; simp [Ne.symm hn]
        · exact ⟨(seenChar_other c h).1, fun hm => (seenChar_other c h).2 _ hm (by decide)⟩
      rw [hl _ _ h.1 h.2, ih, Lines.lines, if_neg hn]
      cases Lines.lines s with
      | nil => simp [seen_cons, seen_nil]
      | cons l ls => simp [seen_cons]

theorem seen_fileLines (s : Str) : Lines.fileLines (seen s) = (Lines.fileLines s).map seen := by
  unfold Lines.fileLines
  rw [seen_univ, seen_lines]

/-- What a text of small characters is a prefix of. -/
theorem seen_prefix (p s : Str) (hp : ∀ c ∈ p, c.toNat < 128) : p <+: seen s ↔ p <+: s := by
  induction p generalizing s with
  | nil => simp
  | cons c p ih =>
    have hc : c.toNat < 128 := hp c (by simp)
    cases s with
    | nil => simp [seen_nil]
    | cons d s =>
      rw [seen_cons]
      by_cases hd : d.toNat < 128
      · rw [seenChar_ascii d hd, List.singleton_append, List.cons_prefix_cons, List.cons_prefix_cons, ih s (fun x hx => hp x (by simp [hx]))]
      · obtain ⟨h1, h2⟩ := seenChar_other d hd
        cases hx : seenChar d with
        | nil => exact absurd hx h1
        | cons e x =>
          rw [List.cons_append, List.cons_prefix_cons, List.cons_prefix_cons]
          have he : ¬ e.toNat < 128 := h2 e (by rw [hx]; simp)
          constructor
          · rintro ⟨rfl, -⟩; exact absurd hc he
          · rintro ⟨rfl, -⟩; exact absurd hc hd

end Verif.Lemmas.Codec
