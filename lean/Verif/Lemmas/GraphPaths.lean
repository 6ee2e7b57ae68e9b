import Verif.Model.GraphPaths
import Verif.Lemmas.Paths

/-! # Lemmas on the names of the files of a graph -/
set_option autoImplicit false
set_option linter.unusedSimpArgs false
namespace Verif.Lemmas.GraphPaths
open Verif.Py Verif.Spec.Paths Verif.Model.GraphPaths Verif.Lemmas.Paths

theorem openedAbs_eq (home : Str → Option Str) (cwd : Loc) (h : Names cwd) (p : Str) : openedAbs home cwd p = walk cwd p := by
  unfold openedAbs
  rw [expanduser_id, walk_abspath cwd h]
  rw [abspath_head]; decide

theorem openedNodes_eq (home : Str → Option Str) (cwd : Loc) (h : Names cwd) (g : Verif.Model.GraphFiles.G) (p : Str) :
    openedNodes home cwd g p = walk cwd p := by
  unfold openedNodes
  split
  · exact openedAbs_eq home cwd h p
  · rfl

theorem tail_append (H b : Str) (hb : '/' ∉ b) (hH : H = [] ∨ ∃ R, H = R ++ ['/']) : Path.tail (H ++ b) = b := by
  unfold Path.tail
  rw [List.reverse_append]
  have h1 : ∀ c ∈ b.reverse, (decide (c ≠ '/')) = true := by
    intro c hc
    simp only [decide_eq_true_eq]
    rintro rfl
    exact hb (List.mem_reverse.1 hc)
  rw [List.takeWhile_append_of_pos h1]
  rcases hH with rfl | ⟨R, rfl⟩
  · simp
  · simp

theorem rstrip_slash (R : Str) (h : R.getLast? ≠ some '/') : Str.rstrip (fun c => c = '/') (R ++ ['/']) = R := by
  unfold Str.rstrip
  rw [List.reverse_append]
  simp only [List.reverse_cons, List.reverse_nil, List.nil_append, List.singleton_append]
  rw [List.dropWhile_cons]
  simp only [decide_true, if_true]
  rcases List.eq_nil_or_concat R with rfl | ⟨R', x, rfl⟩
  · rfl
  · have hx : x ≠ '/' := by
      rintro rfl
      exact h (by simp)
    simp [List.dropWhile_cons, hx]

/-- The directory part of a normalised path that ends with a name. -/
def Dirpart (H : Str) : Prop := H = [] ∨ ∃ R, H = R ++ ['/'] ∧ (H.all (fun c => c = '/') = true ∨ R.getLast? ≠ some '/')

theorem join_split_path (H b x : Str) (hH : Dirpart H) (hb : '/' ∉ b) (hx : x.head? ≠ some '/') :
    (Path.split (H ++ b)).2 = b ∧ ((Path.split (H ++ b)).1 = [] ↔ H = []) ∧
      Path.join (Path.split (H ++ b)).1 x = H ++ x := by
  have hH' : H = [] ∨ ∃ R, H = R ++ ['/'] := by
    rcases hH with h | ⟨R, h, _⟩
    · exact .inl h
    · exact .inr ⟨R, h⟩
  have ht := tail_append H b hb hH'
  have hhead : (H ++ b).take ((H ++ b).length - b.length) = H := by simp
  refine ⟨by simp [Path.split, ht], ?_⟩
  have h1 : (Path.split (H ++ b)).1 = if H.all (fun c => c = '/') then H else Str.rstrip (fun c => c = '/') H := by
    simp only [Path.split, ht, hhead]
  rw [h1]
  rcases hH with rfl | ⟨R, rfl, hR⟩
  · simp [Path.join, hx]
  · by_cases ha : (R ++ ['/']).all (fun c => c = '/') = true
    · rw [if_pos ha]
      refine ⟨Iff.rfl, ?_⟩
      unfold Path.join
      rw [if_neg hx, if_pos (.inr (by simp))]
    · have hl : R.getLast? ≠ some '/' := by
        rcases hR with h | h
        · exact absurd h ha
        · exact h
      rw [if_neg ha, rstrip_slash R hl]
      have hne : R ≠ [] := by
        rintro rfl
        exact ha (by decide)
      refine ⟨by simp [hne], ?_⟩
      unfold Path.join
      rw [if_neg hx, if_neg (by simp [hne, hl])]
      simp

theorem join_last (nc : List Str) (hne : nc ≠ []) (h : ∀ c ∈ nc, c ≠ [] ∧ '/' ∉ c) : (Str.join ['/'] nc).getLast? ≠ some '/' := by
  rcases List.eq_nil_or_concat nc with rfl | ⟨l, x, rfl⟩
  · exact absurd rfl hne
  · rw [List.concat_eq_append]
    have hx := h x (by simp)
    have hj : ∃ t, Str.join ['/'] (l ++ [x]) = t ++ x := by
      cases l with
      | nil => exact ⟨[], by simp [Str.join]⟩
      | cons y l =>
        refine ⟨Str.join ['/'] (y :: l) ++ ['/'], ?_⟩
        rw [join_append '/' _ _ (by simp) (by simp)]
        simp [Str.join]
    obtain ⟨t, ht⟩ := hj
    rw [ht]
    rcases List.eq_nil_or_concat x with hx0 | ⟨x', z, rfl⟩
    · exact absurd hx0 hx.1
    · rw [List.concat_eq_append, ← List.append_assoc, List.getLast?_concat]
      intro hz
      simp only [Option.some.injEq] at hz
      subst hz
      exact hx.2 (by simp)

theorem normStep_name (abs : Bool) (nc : List Str) (b : Str) (h : b ≠ [] ∧ b ≠ ['.'] ∧ b ≠ ['.', '.']) :
    Path.normStep abs nc b = nc ++ [b] := by
  simp [Path.normStep, h.1, h.2.1, h.2.2]

/-- The normal form of the path of a file: a directory part and the name. -/
theorem normpath_inDir0 {name dir b : Str} (h : InDir name dir b) :
    ∃ H, Path.normpath name = H ++ b ∧ Dirpart H ∧ (NoTilde name → (H ++ b).head? ≠ some '~') := by
  have hb := h.name
  have hns := h.noSlash
  have hsplit : ∃ l, Str.split ['/'] name = l ++ [b] := by
    obtain ⟨rfl, hd, _, _⟩ := h
    rcases hd with rfl | ⟨a, rfl⟩
    · exact ⟨[], by rw [List.nil_append, split_single _ _ hns]; rfl⟩
    · refine ⟨Str.split ['/'] a, ?_⟩
      rw [show a ++ ['/'] ++ b = a ++ '/' :: b by simp, split_append, split_single _ _ hns]
  obtain ⟨l, hl⟩ := hsplit
  have hparts := norm_parts (name.head? == some '/') l
  have hsl := fun c hc => Str.split_char_pieces '/' name c hc
  generalize hnc : l.foldl (Path.normStep (name.head? == some '/')) [] = nc at hparts
  have hnp : Path.normParts name = nc ++ [b] := by
    unfold Path.normParts
    rw [hl, List.foldl_append, List.foldl_cons, List.foldl_nil, hnc, normStep_name _ _ _ hb]
  have hnc' : ∀ c ∈ nc, c ≠ [] ∧ '/' ∉ c := fun c hc => ⟨(hparts c hc).2.1, hsl c (by rw [hl]; simp [(hparts c hc).1])⟩
  have htl : NoTilde name → ∀ c ∈ nc ++ [b], c.head? ≠ some '~' := by
    intro ht c hc
    apply ht
    rw [hl]
    rcases List.mem_append.1 hc with hc | hc
    · simp [(hparts c hc).1]
    · simp at hc; simp [hc]
  refine ⟨List.replicate (Path.slashes name) '/' ++ (if nc = [] then [] else Str.join ['/'] nc ++ ['/']), ?_, ?_, ?_⟩
  · unfold Path.normpath
    dsimp only
    rw [hnp]
    have hj : Str.join ['/'] (nc ++ [b]) = (if nc = [] then [] else Str.join ['/'] nc ++ ['/']) ++ b := by
      split
      · rename_i h0; subst h0; simp [Str.join]
      · rename_i h0; rw [join_append '/' _ _ h0 (by simp)]; simp [Str.join]
    rw [hj, ← List.append_assoc, if_neg (by simp [hb.1])]
  · by_cases h0 : nc = []
    · rw [if_pos h0, List.append_nil]
      cases hk : Path.slashes name with
      | zero => exact .inl rfl
      | succ k =>
        refine .inr ⟨List.replicate k '/', ?_, .inl ?_⟩
        · rw [List.replicate_succ']
        · rw [List.all_eq_true]
          intro c hc
          simpa using List.eq_of_mem_replicate hc
    · rw [if_neg h0]
      refine .inr ⟨List.replicate (Path.slashes name) '/' ++ Str.join ['/'] nc, by simp, .inr ?_⟩
      have hjn : Str.join ['/'] nc ≠ [] := by
        cases nc with
        | nil => exact absurd rfl h0
        | cons c nc =>
          have hc := (hnc' c (by simp)).1
          cases nc with
          | nil => simpa [Str.join] using hc
          | cons d nc => simp [Str.join, hc]
      rw [List.getLast?_append_of_ne_nil _ hjn]
      exact join_last nc h0 hnc'
  · intro ht
    replace htl := htl ht
    cases hk : Path.slashes name with
    | succ k => simp [List.replicate_succ]
    | zero =>
      rw [List.replicate_zero, List.nil_append]
      cases nc with
      | nil =>
        rw [if_pos rfl, List.nil_append]
        exact htl b (by simp)
      | cons c nc =>
        rw [if_neg (by simp), List.append_assoc]
        have hc := hnc' c (by simp)
        have := htl c (by simp)
        cases c with
        | nil => exact absurd rfl hc.1
        | cons z c =>
          simp only [List.head?_cons] at this
          cases nc with
          | nil => simpa [Str.join] using this
          | cons d nc => simpa [Str.join] using this

theorem normpath_inDir {name dir b : Str} (h : InDir name dir b) (ht : NoTilde name) :
    ∃ H, Path.normpath name = H ++ b ∧ Dirpart H ∧ (H ++ b).head? ≠ some '~' := by
  obtain ⟨H, h1, h2, h3⟩ := normpath_inDir0 h
  exact ⟨H, h1, h2, h3 ht⟩

/-- The absolute path of a file ends with its name. -/
theorem abspath_tail {path dir b : Str} (h : InDir path dir b) (cwd : Loc) : (Path.split (Path.abspath cwd path)).2 = b := by
  have hj : ∃ dir', InDir (Path.join (Path.cwdText cwd) path) dir' b := by
    unfold Path.join
    obtain ⟨rfl, hd, hs, hb⟩ := h
    split
    · exact ⟨dir, rfl, hd, hs, hb⟩
    · rename_i hp
      split
      · rename_i hc
        refine ⟨Path.cwdText cwd ++ dir, by simp, .inr ?_, hs, hb⟩
        rcases hd with rfl | ⟨a, rfl⟩
        · have hc' : (Path.cwdText cwd).getLast? = some '/' := by
            rcases hc with hc | hc
            · simp [Path.cwdText] at hc
            · exact hc
          obtain ⟨R, hR⟩ := List.getLast?_eq_some_iff.1 hc'
          exact ⟨R, by rw [List.append_nil]; exact hR⟩
        · exact ⟨Path.cwdText cwd ++ a, by simp⟩
      · refine ⟨Path.cwdText cwd ++ '/' :: dir, by simp, .inr ?_, hs, hb⟩
        rcases hd with rfl | ⟨a, rfl⟩
        · exact ⟨Path.cwdText cwd, rfl⟩
        · exact ⟨Path.cwdText cwd ++ '/' :: a, by simp⟩
  obtain ⟨dir', hj⟩ := hj
  obtain ⟨H, h1, h2, -⟩ := normpath_inDir0 hj
  unfold Path.abspath
  rw [h1]
  exact (join_split_path H b [] h2 h.noSlash (by simp)).1

/-- The last part of the name of a file. -/
def lastPart (b kind typ suffix : Str) : Str := b ++ ['_'] ++ kind ++ typ ++ ['.'] ++ suffix

theorem fileName_inDir (home : Str → Option Str) {name dir b : Str} (h : InDir name dir b) (ht : NoTilde name) (kind typ suffix : Str)
    (hk : '/' ∉ kind) (hty : '/' ∉ typ) (hs : '/' ∉ suffix) (cwd : Loc) :
    walk cwd (fileName home name kind typ suffix) = walk cwd dir ++ [lastPart b kind typ suffix] := by
  obtain ⟨H, hH, hD, hT⟩ := normpath_inDir h ht
  have hb := h.name
  have hns := h.noSlash
  have hD' : H = [] ∨ ∃ R, H = R ++ ['/'] := by
    rcases hD with h | ⟨R, h, _⟩
    · exact .inl h
    · exact .inr ⟨R, h⟩
  have hx : (lastPart b kind typ suffix).head? ≠ some '/' := by
    unfold lastPart
    cases b with
    | nil => exact absurd rfl hb.1
    | cons z b =>
      simp only [List.cons_append, List.head?_cons, ne_eq, Option.some.injEq]
      rintro rfl
      simp at hns
  have hname : fileName home name kind typ suffix = H ++ lastPart b kind typ suffix := by
    obtain ⟨h1, h2, h3⟩ := join_split_path H b _ hD hns hx
    unfold fileName
    dsimp only
    rw [hH, expanduser_id home _ hT]
    by_cases h0 : H = []
    · have := h2.2 h0
      rw [if_neg (by simp [h1, hb.1]), if_pos this, h1, h0]
      rfl
    · have hne : (Path.split (H ++ b)).1 ≠ [] := fun hh => h0 (h2.1 hh)
      rw [if_neg (by simp [hne]), if_neg hne, if_neg (by rw [h1]; exact hb.1), h1]
      exact h3
  have hin : ∀ x, '/' ∉ x → x ≠ [] ∧ x ≠ ['.'] ∧ x ≠ ['.', '.'] → walk cwd (H ++ x) = walk cwd H ++ [x] :=
    fun x h1 h2 => walk_inDir ⟨rfl, hD', h1, h2⟩
  have hw : walk cwd H = walk cwd dir := by
    have e1 := hin b hns hb
    have e2 := walk_normpath cwd name
    rw [hH, walk_inDir h, e1] at e2
    exact List.append_cancel_right e2
  have hlen : 3 ≤ (lastPart b kind typ suffix).length := by
    unfold lastPart
    have : 1 ≤ b.length := by
      cases b with
      | nil => exact absurd rfl hb.1
      | cons z b => simp
    simp; omega
  rw [hname, hin, hw]
  · unfold lastPart
    simp [hns, hk, hty, hs]
  · refine ⟨?_, ?_, ?_⟩ <;> intro hh <;> rw [hh] at hlen <;> simp at hlen

end Verif.Lemmas.GraphPaths
