import Verif.Py.Path
import Verif.Spec.Paths

/-! # Lemmas on paths -/
set_option autoImplicit false
set_option linter.unusedSimpArgs false
namespace Verif.Lemmas.Paths
open Verif.Py Verif.Spec.Paths

theorem join_append (c : Char) (a b : List Str) (ha : a ≠ []) (hb : b ≠ []) :
    Str.join [c] (a ++ b) = Str.join [c] a ++ c :: Str.join [c] b := by
  induction a with
  | nil => exact absurd rfl ha
  | cons x a ih =>
    cases a with
    | nil => rw [List.cons_append, List.nil_append, Str.join_cons _ _ _ hb]; simp [Str.join]
    | cons y a =>
      have := ih (by simp)
      rw [List.cons_append, Str.join_cons _ _ _ (by simp), this, Str.join_cons [c] x (y :: a) (by simp)]
      simp

theorem split_append (c : Char) (a b : Str) : Str.split [c] (a ++ c :: b) = Str.split [c] a ++ Str.split [c] b := by
  have h1 := Str.join_split [c] a (by simp)
  have h2 := Str.join_split [c] b (by simp)
  have h3 := join_append c _ _ (Str.split_ne_nil [c] a) (Str.split_ne_nil [c] b)
  rw [h1, h2] at h3
  rw [← h3, Str.split_join_char]
  · simp [Str.split_ne_nil]
  · intro p hp
    rcases List.mem_append.1 hp with hp | hp <;> exact Str.split_char_pieces c _ p hp

theorem split_single (c : Char) (x : Str) (h : c ∉ x) : Str.split [c] x = [x] := by
  have := Str.split_join_char c [x] (by simp) (by simpa using h)
  simpa [Str.join] using this

theorem split_nil (c : Char) : Str.split [c] [] = [[]] := rfl

theorem head_append (a b : Str) (h : a ≠ []) : (a ++ b).head? = a.head? := by
  cases a with
  | nil => exact absurd rfl h
  | cons x a => rfl

/-- Following the path of a file of a directory. -/
theorem walk_inDir {cwd : Loc} {path dir x : Str} (h : InDir path dir x) : walk cwd path = walk cwd dir ++ [x] := by
  obtain ⟨rfl, hd, hs, h1, h2, h3⟩ := h
  have hx : ∀ l, walkStep l x = l ++ [x] := by intro l; simp [walkStep, h1, h2, h3]
  rcases hd with rfl | ⟨a, rfl⟩
  · have hh : x.head? ≠ some '/' := by
      intro hh; cases x with
      | nil => simp at hh
      | cons y x => simp at hh; subst hh; simp at hs
    unfold walk
    rw [List.nil_append, split_single _ _ hs, if_neg hh]
    rw [split_nil, List.foldl_cons, List.foldl_nil, hx]
    simp [walkStep]
  · unfold walk
    have e : a ++ ['/'] ++ x = a ++ '/' :: x := by simp
    rw [head_append (a ++ ['/']) x (by simp), e, split_append, split_append, split_single _ _ hs, split_nil,
      List.foldl_append, List.foldl_append, List.foldl_cons, List.foldl_nil, hx]
    simp [walkStep]

/-- The parts `normpath` keeps are not empty and not a dot, and have no slash. -/
theorem norm_parts (abs : Bool) (l : List Str) : ∀ c ∈ l.foldl (Path.normStep abs) [], c ∈ l ∧ c ≠ [] ∧ c ≠ ['.'] := by
  induction l using List.reverseRecOn with
  | nil => simp
  | append_singleton l c ih =>
    rw [List.foldl_append, List.foldl_cons, List.foldl_nil]
    generalize l.foldl (Path.normStep abs) [] = nc at ih
    intro x hx
    unfold Path.normStep at hx
    split at hx
    · exact ⟨by simp [(ih x hx).1], (ih x hx).2⟩
    · rename_i hc
      split at hx
      · rcases List.mem_append.1 hx with hx | hx
        · exact ⟨by simp [(ih x hx).1], (ih x hx).2⟩
        · simp only [List.mem_singleton] at hx
          subst hx
          exact ⟨by simp, fun h => hc (.inl h), fun h => hc (.inr h)⟩
      · have := ih x (List.mem_of_mem_dropLast hx)
        exact ⟨by simp [this.1], this.2⟩

/-- `normpath` does not change where a path leads. -/
theorem walk_norm (abs : Bool) (base : Loc) (hb : abs = true → base = []) (l : List Str) :
    (l.foldl (Path.normStep abs) []).foldl walkStep base = l.foldl walkStep base := by
  induction l using List.reverseRecOn with
  | nil => rfl
  | append_singleton l c ih =>
    have hp := norm_parts abs l
    rw [List.foldl_append, List.foldl_append, List.foldl_cons, List.foldl_nil, List.foldl_cons, List.foldl_nil, ← ih]
    generalize l.foldl (Path.normStep abs) [] = nc at hp
    unfold Path.normStep
    split
    · rename_i hc
      unfold walkStep; rw [if_pos hc]
    · rename_i hc
      split
      · rw [List.foldl_append]; rfl
      · rename_i h
        have hdd : c = ['.', '.'] := by by_contra hne; exact h (.inl hne)
        subst hdd
        rcases List.eq_nil_or_concat nc with rfl | ⟨nc', x, rfl⟩
        · cases abs with
          | false => exact absurd (.inr (.inl ⟨rfl, rfl⟩)) h
          | true => rw [hb rfl]; simp [walkStep]
        · have hx := hp x (by simp)
          have hxx : x ≠ ['.', '.'] := by
            rintro rfl
            exact h (.inr (.inr (by simp)))
          rw [List.concat_eq_append, List.dropLast_concat, List.foldl_append]
          simp [walkStep, hx.2.1, hx.2.2, hxx]

theorem normParts_noSlash (p : Str) : ∀ c ∈ Path.normParts p, '/' ∉ c :=
  fun c hc => Str.split_char_pieces '/' p c (norm_parts _ _ c hc).1

theorem slashes_pos (p : Str) : Path.slashes p = 0 ↔ p.head? ≠ some '/' := by
  unfold Path.slashes
  cases p with
  | nil => simp
  | cons c p =>
    by_cases h : c = '/'
    · subst h
      have h1 : ('/' :: p).take 1 = ['/'] := rfl
      rw [if_pos h1]
      split <;> simp
    · simp [h]

theorem replicate_slash_walk (k : Nat) (s : Str) (base : Loc) :
    (Str.split ['/'] (List.replicate k '/' ++ s)).foldl walkStep base = (Str.split ['/'] s).foldl walkStep base := by
  induction k with
  | zero => simp
  | succ k ih =>
    have := split_append '/' [] (List.replicate k '/' ++ s)
    rw [List.nil_append] at this
    rw [List.replicate_succ, List.cons_append, this, List.foldl_append, split_nil, List.foldl_cons, List.foldl_nil]
    simpa [walkStep] using ih

theorem join_walk (nc : List Str) (h : ∀ c ∈ nc, '/' ∉ c) (base : Loc) :
    (Str.split ['/'] (Str.join ['/'] nc)).foldl walkStep base = nc.foldl walkStep base := by
  cases nc with
  | nil => simp [Str.join, split_nil, walkStep]
  | cons c nc => rw [Str.split_join_char '/' _ (by simp) h]

theorem join_head (nc : List Str) (h : ∀ c ∈ nc, c ≠ [] ∧ '/' ∉ c) : (Str.join ['/'] nc).head? ≠ some '/' := by
  cases nc with
  | nil => simp [Str.join]
  | cons c nc =>
    obtain ⟨h1, h2⟩ := h c (by simp)
    cases c with
    | nil => exact absurd rfl h1
    | cons x c =>
      have hx : x ≠ '/' := by rintro rfl; simp at h2
      cases nc with
      | nil => simpa [Str.join] using hx
      | cons d nc => simpa [Str.join] using hx

theorem walk_normpath (cwd : Loc) (p : Str) : walk cwd (Path.normpath p) = walk cwd p := by
  have hns := normParts_noSlash p
  have hne : ∀ c ∈ Path.normParts p, c ≠ [] ∧ '/' ∉ c := fun c hc => ⟨(norm_parts _ _ c hc).2.1, hns c hc⟩
  have hbase : ∀ base : Loc, ((p.head? == some '/') = true → base = []) →
      (Path.normParts p).foldl walkStep base = (Str.split ['/'] p).foldl walkStep base := fun base hb => walk_norm _ base hb _
  unfold Path.normpath
  dsimp only
  by_cases hq : List.replicate (Path.slashes p) '/' ++ Str.join ['/'] (Path.normParts p) = []
  · rw [if_pos hq]
    obtain ⟨h1, h2⟩ := List.append_eq_nil_iff.1 hq
    have h0 : Path.slashes p = 0 := by simpa using h1
    have hh := (slashes_pos p).1 h0
    have hnc : Path.normParts p = [] := by
      cases hn : Path.normParts p with
      | nil => rfl
      | cons c nc =>
        rw [hn] at h2
        have hc := (hne c (by rw [hn]; simp)).1
        cases nc with
        | nil => exact absurd h2 hc
        | cons d nc => simp [Str.join] at h2
    have := hbase cwd (by simpa using fun h => absurd h hh)
    rw [hnc] at this
    unfold walk
    rw [if_neg hh, ← this]
    rfl
  · rw [if_neg hq]
    unfold walk
    rw [replicate_slash_walk, join_walk _ hns]
    by_cases hh : p.head? = some '/'
    · rw [if_pos hh]
      have hpos : Path.slashes p ≠ 0 := fun h0 => (slashes_pos p).1 h0 hh
      have hhead : (List.replicate (Path.slashes p) '/' ++ Str.join ['/'] (Path.normParts p)).head? = some '/' := by
        cases hk : Path.slashes p with
        | zero => exact absurd hk hpos
        | succ k => rfl
      rw [if_pos hhead]
      exact hbase [] (fun _ => rfl)
    · rw [if_neg hh]
      have h0 : Path.slashes p = 0 := (slashes_pos p).2 hh
      rw [h0]
      rw [List.replicate_zero, List.nil_append, if_neg (join_head _ hne)]
      exact hbase cwd (by simpa using fun h => absurd h hh)

theorem foldl_names (cwd : Loc) (h : Names cwd) (base : Loc) : cwd.foldl walkStep base = base ++ cwd := by
  induction cwd generalizing base with
  | nil => simp
  | cons c cwd ih =>
    have hc := h c (by simp)
    rw [List.foldl_cons, ih (fun d hd => h d (by simp [hd]))]
    simp [walkStep, hc.1, hc.2.1, hc.2.2.1]

theorem walk_cwdText (cwd : Loc) (h : Names cwd) (p : Str) : walk cwd (Path.join (Path.cwdText cwd) p) = walk cwd p := by
  have hns : ∀ c ∈ cwd, '/' ∉ c := fun c hc => (h c hc).2.2.2
  have hbase : ∀ s : Str, (Str.split ['/'] ('/' :: Str.join ['/'] cwd)).foldl walkStep [] = cwd := by
    intro s
    have := split_append '/' [] (Str.join ['/'] cwd)
    rw [List.nil_append] at this
    rw [this, List.foldl_append, split_nil, join_walk _ hns, foldl_names _ h]
    simp [walkStep]
  unfold Path.join
  by_cases hp : p.head? = some '/'
  · rw [if_pos hp]
  · rw [if_neg hp]
    split
    · rename_i h1
      have hnil : cwd = [] := by
        rcases h1 with h1 | h1
        · simp [Path.cwdText] at h1
        · rcases List.eq_nil_or_concat cwd with hc | ⟨l, x, hc⟩
          · exact hc
          · exfalso
            have hx := h x (by simp [hc])
            have hj : ∃ t, Str.join ['/'] cwd = t ++ x := by
              rw [hc, List.concat_eq_append]
              cases l with
              | nil => exact ⟨[], by simp [Str.join]⟩
              | cons y l =>
                refine ⟨Str.join ['/'] (y :: l) ++ ['/'], ?_⟩
                rw [join_append '/' _ _ (by simp) (by simp)]
                simp [Str.join]
            obtain ⟨t, ht⟩ := hj
            unfold Path.cwdText at h1
            rw [ht] at h1
            rcases List.eq_nil_or_concat x with hx0 | ⟨x', z, rfl⟩
            · exact hx.1 hx0
            · rw [List.concat_eq_append] at h1 hx
              have : ('/' :: (t ++ (x' ++ [z]))).getLast? = some z := by
                rw [show '/' :: (t ++ (x' ++ [z])) = ('/' :: (t ++ x')) ++ [z] by simp, List.getLast?_concat]
              rw [this] at h1
              simp only [Option.some.injEq] at h1
              subst h1
              simp at hx
      subst hnil
      unfold walk
      rw [if_neg hp]
      have e : Path.cwdText [] ++ p = '/' :: p := by simp [Path.cwdText, Str.join]
      rw [e]
      have := split_append '/' [] p
      rw [List.nil_append] at this
      rw [this, List.foldl_append, split_nil]
      simp [walkStep]
    · unfold walk
      rw [if_neg hp, head_append _ _ (by simp [Path.cwdText])]
      have e : (Path.cwdText cwd).head? = some '/' := rfl
      rw [if_pos e, split_append, List.foldl_append]
      unfold Path.cwdText
      rw [hbase p]

/-- `abspath` does not change where a path leads. -/
theorem walk_abspath (cwd : Loc) (h : Names cwd) (p : Str) : walk cwd (Path.abspath cwd p) = walk cwd p := by
  unfold Path.abspath
  rw [walk_normpath, walk_cwdText cwd h]

theorem abspath_head (cwd : Loc) (p : Str) : (Path.abspath cwd p).head? = some '/' := by
  have hj : (Path.join (Path.cwdText cwd) p).head? = some '/' := by
    unfold Path.join
    split
    · assumption
    · split <;> rfl
  unfold Path.abspath Path.normpath
  dsimp only
  generalize Path.join (Path.cwdText cwd) p = q at hj
  have hpos : Path.slashes q ≠ 0 := fun h0 => (slashes_pos q).1 h0 hj
  cases hk : Path.slashes q with
  | zero => exact absurd hk hpos
  | succ k => simp [List.replicate_succ]

theorem expanduser_id (home : Str → Option Str) (p : Str) (h : p.head? ≠ some '~') : Path.expanduser home p = p := by
  unfold Path.expanduser
  split
  · simp at h
  · rfl

end Verif.Lemmas.Paths
